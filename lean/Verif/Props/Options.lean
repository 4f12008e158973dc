import Verif.Props.Delivery

/-!
# C77: the options of a subscription
-/

namespace Mercurio

open Spec Server

/-- What a delivery does. -/
theorem deliver_result {cfg : AuthConfig} {srv : Server} (hr : srv.Reachable cfg) (c : Nat) (f : Str) :
    (srv.step cfg (.deliver c f)).2 = {} ∨
    ∃ t m, (t, m) ∈ Call.publications srv.world.log ∧ Matches f t ∧
      (((srv.step cfg (.deliver c f)).2 = { sent := [forwarded f m] } ∧ (srv.step cfg (.deliver c f)).1.isOpen c) ∨
       (m.packetId.isSome ∧ m.qos = .invalid)) := by
  cases ha : srv.at c with
  | none =>
    left
    rw [show srv.step cfg (.deliver c f) = (srv, {}) by simp only [Server.step]; exact onConn_none ha _]
  | some s =>
    obtain ⟨k, hk, hs, e⟩ := onConn_at ha (fun r s => srv.deliver c r s f)
    have e' : srv.step cfg (.deliver c f) = srv.deliver c k.session s f := e
    rw [e']
    unfold Server.deliver
    rcases processOutgoing_cases s srv.world.broker.tree f with
      ⟨h1, _⟩ | ⟨st, m, st', hst, hp, hout⟩
    · left; rw [h1]
    · right
      have hg := hr.sound.streams _ _ hs f st hst
      obtain ⟨sent, g1, g2⟩ := hg.channel
      obtain ⟨_, _, _, _, q5, _⟩ := poll_some (by rw [hg.path]; exact g1) g2 hp
      have hm : m ∈ st.ahead sent := q5.subset (by simp)
      have hfrom : From srv.world.log f m := by
        rcases List.mem_append.mp hm with hm | hm
        · exact hg.retained m hm
        · refine channel_from srv.world.log f sent ?_ m (List.mem_of_mem_drop hm)
          rw [← hr.faithful.tree]; exact g1
      obtain ⟨t, ht, hmt⟩ := hfrom
      refine ⟨t, m, ht, hmt, ?_⟩
      rcases hout with ⟨u, _, h1⟩ | ⟨hn, h1⟩
      · left
        rw [h1]
        exact ⟨rfl, k, hk⟩
      · right
        unfold Session.noteOutgoing Session.outgoingPacket at hn
        cases hid : m.packetId with
        | none => rw [hid] at hn; simp at hn
        | some i =>
          refine ⟨rfl, ?_⟩
          rw [hid] at hn
          cases hq : m.qos <;> rw [hq] at hn <;> simp at hn <;> rfl

/-! ## C77 -/

/-- C77 is false, in general: the options make no difference.  Two SUBSCRIBE packets with the same identifier
and filters but any options have the same answer and lead to the same state. -/
theorem C77_options_ignored_false (cfg : AuthConfig) (srv : Server) (c : Nat) (p p' : SubscribePacket)
    (hid : p.packetId = p'.packetId) (hf : p.payload.map (·.topicFilter) = p'.payload.map (·.topicFilter)) :
    srv.step cfg (.recv c (.subscribe p)) = srv.step cfg (.recv c (.subscribe p')) := by
  simp only [Server.step]
  congr 1
  funext r s
  simp only [Server.recv, Session.processIncoming, Session.handleSubscribe, hid, hf]
  rfl

/-- C77 is false of no-local and the maximum QoS: whatever the options are, a client that subscribes to a filter and then
publishes to a topic it matches is sent its own message, with the QoS it published with; the SUBACK had said
QoS 0. -/
theorem C77_own_message_false (cfg : AuthConfig) (srv : Server) (hr : srv.Reachable cfg) (c : Nat) (hopen : srv.isOpen c)
    (alone : ∀ c', c' ≠ c → ¬ srv.shares c c')
    (hlog : ∀ q ∈ Call.publications srv.world.log, q.2.qos ≠ .invalid)
    (id : UInt16) (f : Str) (hf : ValidFilter f) (o : SubscriptionOptions)
    (hret : ∀ t, Matches f t → retainedOf t (Call.publications srv.world.log) = none)
    (q : PublishPacket) (ht : ValidTopic q.topicName) (hm : Matches f q.topicName) (hq : q.qos ≠ .invalid)
    (hid : q.packetId.isSome ↔ q.qos ≠ .atMostOnce) :
    let r1 := srv.step cfg (.recv c (.subscribe ⟨id, none, [⟨f, o⟩]⟩))
    let r2 := r1.1.step cfg (.recv c (.publish q))
    (∃ a, r1.2.sent = [.subAck a] ∧ a.payload = [.grantedQoS0]) ∧
    ∃ g, (r2.1.step cfg (.deliver c f)).2.sent = [.publish g] ∧ g.payload = q.payload ∧ g.qos = q.qos := by
  intro r1 r2
  obtain ⟨k0, hk0⟩ := hopen
  obtain ⟨s, hs0⟩ := (hr.inv.conns c k0 hk0).2
  have hs : srv.at c = some s := at_eq_some.mpr ⟨k0, hk0, hs0⟩
  obtain ⟨hack, s1, hs1, _⟩ := C37_subscribe cfg srv c s hs ⟨id, none, [⟨f, o⟩]⟩
  have hvf : validateSubscribeFilter f = .ok () := (C23_filter_iff f).mpr hf
  refine ⟨⟨_, hack, by simp [subscribeCode, hf]⟩, ?_⟩
  have hreach : ∀ {srv : Server}, srv.Reachable cfg → ∀ e, (srv.step cfg e).1.Reachable cfg := by
    rintro srv ⟨es, rfl⟩ e
    exact ⟨es ++ [e], by rw [run_snoc]⟩
  have hr1 : r1.1.Reachable cfg := hreach hr _
  -- the publication
  have hok : ∃ res s2 w2, s1.processIncoming r1.1.world cfg.manager c (.publish q) = ⟨s2, w2, .ok res⟩ := by
    have hv : validatePublishTopic q.topicName = .ok () := (C22_publish_topic_iff _).mpr ht
    simp only [Session.processIncoming, Session.handlePublish, hv]
    unfold Session.publishResponse
    cases hqq : q.qos with
    | invalid => exact absurd hqq hq
    | atMostOnce => exact ⟨_, _, _, rfl⟩
    | atLeastOnce =>
      cases hi : q.packetId with
      | none => rw [hi, hqq] at hid; simp at hid
      | some i => exact ⟨_, _, _, rfl⟩
    | exactlyOnce =>
      cases hi : q.packetId with
      | none => rw [hi, hqq] at hid; simp at hid
      | some i => exact ⟨_, _, _, rfl⟩
  obtain ⟨res, s2, w2, hh⟩ := hok
  obtain ⟨k, hk, _, e2⟩ := step_recv_ok (cfg := cfg) (p := .publish q) hs1 (by simp) hh
  have hc2 : r2.1.conns = r1.1.conns := by
    show (r1.1.step cfg (.recv c (.publish q))).1.conns = _
    rw [e2]; rfl
  have hc1 : r1.1.conns = srv.conns := by
    obtain ⟨_, _, _, e1⟩ := step_recv_ok (cfg := cfg) (p := .subscribe ⟨id, none, [⟨f, o⟩]⟩) hs (by simp) (hh := rfl)
    show (srv.step cfg (.recv c (.subscribe ⟨id, none, [⟨f, o⟩]⟩))).1.conns = _
    rw [e1]; rfl
  have al1 : ∀ c', c' ≠ c → ¬ r1.1.shares c c' := by
    unfold Server.shares; rw [hc1]; exact alone
  have al2 : ∀ c', c' ≠ c → ¬ r2.1.shares c c' := by
    unfold Server.shares; rw [hc2]; exact al1
  have hopen2 : r2.1.isOpen c := ⟨k, by rw [hc2]; exact hk⟩
  have calm1 : Calm cfg r1.1 c f (.recv c (.publish q)) :=
    ⟨hopen2, al1, (by intro p h; cases h), (by intro p h; cases h)⟩
  have hcalls : Call.publications (eventCalls cfg r1.1 (.recv c (.publish q))) = [(q.topicName, Session.messageOf q)] := by
    have hs1' : r1.1.at c = some s1 := hs1
    have ho : (r1.1.step cfg (.recv c (.publish q))).1.isOpen c := hopen2
    simp only [eventCalls, hs1']
    rw [if_pos (Or.inr ho), packetCalls, if_pos ht]
    rfl
  have hpub1 : published cfg r1.1 [.recv c (.publish q)] = [(q.topicName, Session.messageOf q)] := by
    have := published_snoc cfg r1.1 [] (.recv c (.publish q))
    rw [List.nil_append] at this
    rw [this]
    show published cfg r1.1 [] ++ Call.publications (eventCalls cfg r1.1 _) = _
    rw [hcalls]
    simp [published, Server.run, Call.publications]
  have hmat : matching f [(q.topicName, Session.messageOf q)] = [Session.messageOf q] := by
    simp [matching, hm]
  have hval1 : ∀ x ∈ published cfg r1.1 [.recv c (.publish q)], ValidTopic x.1 := by
    rw [hpub1]; intro x hx; rw [List.mem_singleton] at hx; rw [hx]; exact ht
  have hnil : ∀ topics : List Str, (∀ t, t ∈ topics ↔ Matches f t ∧ (retainedOf t (Call.publications srv.world.log)).isSome) →
      topics = [] := by
    intro ts h
    rw [List.eq_nil_iff_forall_not_mem]
    intro t hmem
    have := (h t).mp hmem
    rw [hret t this.1] at this
    simp at this
  -- something is sent
  obtain ⟨ts, _, hts, _, hfull⟩ := C62_exactly_matching cfg srv hr c ⟨k0, hk0⟩ ⟨id, none, [⟨f, o⟩]⟩ f (by simp) hf
    [.recv c (.publish q)] ⟨calm1, trivial⟩ hval1
  have := hnil ts hts
  subst this
  rw [hpub1, hmat] at hfull
  have hd1 : r1.1.delivered cfg c f [.recv c (.publish q)] = [] := by simp [Server.delivered]
  have hne : (r2.1.step cfg (.deliver c f)).2 ≠ {} := by
    intro h0
    have := (hfull (by
      intro j
      cases j with
      | zero => simp [published, Server.run, Call.publications, matching]
      | succ j =>
        rw [List.take_of_length_le (by simp)]
        show (matching f (published cfg r1.1 _)).length ≤ _
        rw [hpub1, hmat]; simp; omega)).2 h0
    rw [hd1] at this
    simp at this
  have hlog2 : ∀ x ∈ Call.publications r2.1.world.log, x.2.qos ≠ .invalid := by
    have l2 : r2.1.world.log = r1.1.world.log ++ eventCalls cfg r1.1 (.recv c (.publish q)) := step_log cfg _ _
    have l1 : r1.1.world.log = srv.world.log ++ eventCalls cfg srv (.recv c (.subscribe ⟨id, none, [⟨f, o⟩]⟩)) := step_log cfg _ _
    have hc0 : Call.publications (eventCalls cfg srv (.recv c (.subscribe ⟨id, none, [⟨f, o⟩]⟩))) = [] := by
      simp only [eventCalls, hs]
      rw [if_pos (Or.inr ⟨k0, by show r1.1.conns.get c = _; rw [hc1]; exact hk0⟩)]
      simp [packetCalls, hf, Call.publications]
    rw [l2, l1, Call.publications_append, Call.publications_append, hcalls, hc0, List.append_nil]
    intro x hx
    rcases List.mem_append.mp hx with hx | hx
    · exact hlog x hx
    · rw [List.mem_singleton] at hx; rw [hx]; exact hq
  rcases deliver_result (hreach hr1 (.recv c (.publish q))) c f with h0 | ⟨t, m, hin, _, ⟨hs2, ho⟩ | ⟨_, hbad⟩⟩
  · exact absurd h0 hne
  · -- it is the client's own message
    obtain ⟨ts, _, hts, hsub, _⟩ := C62_exactly_matching cfg srv hr c ⟨k0, hk0⟩ ⟨id, none, [⟨f, o⟩]⟩ f (by simp) hf
      [.recv c (.publish q), .deliver c f] ⟨calm1, ⟨ho, al2, (by intro p h; cases h), (by intro p h; cases h)⟩, trivial⟩ (by
        have := published_snoc cfg r1.1 [.recv c (.publish q)] (.deliver c f)
        show ∀ x ∈ published cfg r1.1 ([.recv c (.publish q)] ++ [.deliver c f]), _
        rw [this]
        intro x hx
        simp only [eventCalls, Call.publications, List.filterMap_nil, List.append_nil] at hx
        exact hval1 x hx)
    have := hnil ts hts
    subst this
    have hp2 : published cfg r1.1 [.recv c (.publish q), .deliver c f] = [(q.topicName, Session.messageOf q)] := by
      have := published_snoc cfg r1.1 [.recv c (.publish q)] (.deliver c f)
      rw [hpub1] at this
      simpa [eventCalls, Call.publications] using this
    have hd2 : r1.1.delivered cfg c f [.recv c (.publish q), .deliver c f] = (r2.1.step cfg (.deliver c f)).2.sent := by
      simp [Server.delivered, r2]
    rw [hp2, hmat, hd2] at hsub
    have hs2' : (r2.1.step cfg (.deliver c f)).2.sent = [forwarded f m] := congrArg Out.sent hs2
    rw [hs2'] at hsub
    have he : [forwarded f m] = [forwarded f (Session.messageOf q)] := by
      have := hsub.eq_of_length (by simp)
      simpa using this
    exact ⟨_, hs2'.trans he, rfl, rfl⟩
  · exact absurd hbad (hlog2 _ hin)

/-- C77 is false of the retain options: whatever they are, a client that subscribes is sent the retained messages
its filter matches, also those it had before and also if it asked for none, and the packet is not marked as
retained. -/
theorem C77_retained_false (cfg : AuthConfig) (srv : Server) (hr : srv.Reachable cfg) (c : Nat) (hopen : srv.isOpen c)
    (alone : ∀ c', c' ≠ c → ¬ srv.shares c c')
    (hlog : ∀ q ∈ Call.publications srv.world.log, q.2.qos ≠ .invalid)
    (id : UInt16) (f : Str) (hf : ValidFilter f) (o : SubscriptionOptions)
    (t : Str) (m : Message) (hm : Matches f t) (ht : retainedOf t (Call.publications srv.world.log) = some m) :
    let r1 := srv.step cfg (.recv c (.subscribe ⟨id, none, [⟨f, o⟩]⟩))
    ∃ t' m' g, Matches f t' ∧ retainedOf t' (Call.publications srv.world.log) = some m' ∧
      (r1.1.step cfg (.deliver c f)).2.sent = [.publish g] ∧ g.payload = m'.payload ∧ g.retain = false := by
  intro r1
  have hr1 : r1.1.Reachable cfg := by
    obtain ⟨es, rfl⟩ := hr
    exact ⟨es ++ [_], by rw [run_snoc]⟩
  obtain ⟨k0, hk0⟩ := hopen
  obtain ⟨s, hs0⟩ := (hr.inv.conns c k0 hk0).2
  have hs : srv.at c = some s := at_eq_some.mpr ⟨k0, hk0, hs0⟩
  have hc1 : r1.1.conns = srv.conns := by
    obtain ⟨_, _, _, e1⟩ := step_recv_ok (cfg := cfg) (p := .subscribe ⟨id, none, [⟨f, o⟩]⟩) hs (by simp) (hh := rfl)
    show (srv.step cfg (.recv c (.subscribe ⟨id, none, [⟨f, o⟩]⟩))).1.conns = _
    rw [e1]; rfl
  have al1 : ∀ c', c' ≠ c → ¬ r1.1.shares c c' := by
    unfold Server.shares; rw [hc1]; exact alone
  have hp0 : published cfg r1.1 [] = [] := by simp [published, Server.run, Call.publications]
  have hp1 : published cfg r1.1 [.deliver c f] = [] := by
    have := published_snoc cfg r1.1 [] (.deliver c f)
    rw [hp0] at this
    simpa [eventCalls, Call.publications] using this
  have hne : (r1.1.step cfg (.deliver c f)).2 ≠ {} := by
    intro h0
    obtain ⟨ts, _, hts, _, hfull⟩ := C62_exactly_matching cfg srv hr c ⟨k0, hk0⟩ ⟨id, none, [⟨f, o⟩]⟩ f (by simp) hf [] trivial (by
      show ∀ x ∈ published cfg r1.1 [], _
      rw [hp0]; simp)
    have hmem : t ∈ ts := (hts t).mpr ⟨hm, by rw [ht]; rfl⟩
    have := (hfull (by
      intro j
      show (matching f (published cfg r1.1 _)).length ≤ _
      rw [List.take_nil, hp0]; simp [matching])).2 h0
    have h1 : m ∈ ts.filterMap (fun t => retainedOf t (Call.publications srv.world.log)) := List.mem_filterMap.mpr ⟨t, hmem, ht⟩
    have h2 := congrArg List.length this
    have h3 : 0 < (ts.filterMap (fun t => retainedOf t (Call.publications srv.world.log))).length := List.length_pos_of_mem h1
    simp only [Server.delivered, List.length_nil, List.length_map, List.length_append] at h2
    omega
  have hlog1 : ∀ x ∈ Call.publications r1.1.world.log, x.2.qos ≠ .invalid := by
    have l1 : r1.1.world.log = srv.world.log ++ eventCalls cfg srv (.recv c (.subscribe ⟨id, none, [⟨f, o⟩]⟩)) := step_log cfg _ _
    have hc0 : Call.publications (eventCalls cfg srv (.recv c (.subscribe ⟨id, none, [⟨f, o⟩]⟩))) = [] := by
      simp only [eventCalls, hs]
      rw [if_pos (Or.inr ⟨k0, by show r1.1.conns.get c = _; rw [hc1]; exact hk0⟩)]
      simp [packetCalls, hf, Call.publications]
    rw [l1, Call.publications_append, hc0, List.append_nil]
    exact hlog
  rcases deliver_result hr1 c f with h0 | ⟨t0, m0, hin, _, ⟨hs2, ho⟩ | ⟨_, hbad⟩⟩
  · exact absurd h0 hne
  · obtain ⟨ts, _, hts, hsub, _⟩ := C62_exactly_matching cfg srv hr c ⟨k0, hk0⟩ ⟨id, none, [⟨f, o⟩]⟩ f (by simp) hf
      [.deliver c f] ⟨⟨ho, al1, (by intro p h; cases h), (by intro p h; cases h)⟩, trivial⟩ (by
        show ∀ x ∈ published cfg r1.1 [.deliver c f], _
        rw [hp1]; simp)
    rw [hp1] at hsub
    have hd : r1.1.delivered cfg c f [.deliver c f] = (r1.1.step cfg (.deliver c f)).2.sent := by
      simp [Server.delivered]
    have hs2' : (r1.1.step cfg (.deliver c f)).2.sent = [forwarded f m0] := congrArg Out.sent hs2
    rw [hd, hs2'] at hsub
    have hmem := hsub.subset (List.mem_singleton.mpr rfl)
    simp only [matching, List.filter_nil, List.map_nil, List.append_nil, List.mem_map, List.mem_filterMap] at hmem
    obtain ⟨m', ⟨t', ht', hm'⟩, he⟩ := hmem
    rw [← he] at hs2'
    exact ⟨t', m', _, ((hts t').mp ht').1, hm', hs2', rfl, rfl⟩
  · exact absurd hbad (hlog1 _ hin)

/-- C77 (partial): the QoS granted is never more than the one asked for, a message is never sent with more than the QoS it was
published with, and no packet is marked as retained (which is right for live messages of subscriptions
without "retain as published"). -/
theorem C77_limits_partial (cfg : AuthConfig) (srv : Server) (hr : srv.Reachable cfg) (c : Nat) :
    (∀ p : SubscribePacket, ∀ a, Packet.subAck a ∈ (srv.step cfg (.recv c (.subscribe p))).2.sent →
      a.payload.length = p.payload.length ∧ ∀ r ∈ a.payload, r = .grantedQoS0 ∨ r = .topicFilterInvalid) ∧
    (∀ f, ∀ g ∈ (srv.step cfg (.deliver c f)).2.sent, ∃ q t m, g = .publish q ∧ (t, m) ∈ Call.publications srv.world.log ∧
      Matches f t ∧ q.qos = m.qos ∧ q.retain = false) := by
  constructor
  · intro p a ha
    cases hs : srv.at c with
    | none =>
      rw [show srv.step cfg (.recv c (.subscribe p)) = (srv, {}) by simp only [Server.step]; exact onConn_none hs _] at ha
      simp at ha
    | some s =>
      rw [(C37_subscribe cfg srv c s hs p).1] at ha
      simp only [List.mem_singleton, Packet.subAck.injEq] at ha
      subst ha
      refine ⟨by simp, ?_⟩
      intro r hr'
      simp only [List.mem_map] at hr'
      obtain ⟨f, _, rfl⟩ := hr'
      unfold subscribeCode
      split <;> simp
  · intro f g hg
    obtain ⟨t, m, h1, h2, _, rfl⟩ := deliver_sent hr c f g hg
    exact ⟨_, t, m, rfl, h1, h2, rfl, rfl⟩

/-- The premises: client `x` of `exServer`, alone, subscribes to `a/+`, no local, QoS 0, no retained messages. -/
example : exServer.isOpen 0 ∧ (∀ c', c' ≠ 0 → ¬ exServer.shares 0 c') ∧
    (∀ q ∈ Call.publications exServer.world.log, q.2.qos ≠ .invalid) ∧
    ((exServer.step exCfg (.recv 0 (.subscribe ⟨1, none, [⟨str "a/+", ⟨.atMostOnce, true, false, .doNotSendRetained⟩⟩]⟩))).1.run exCfg
      [.recv 0 (.publish exPublish)] |>.step exCfg (.deliver 0 (str "a/+"))).2.sent = [forwarded (str "a/+") (Session.messageOf exPublish)] := by
  refine ⟨?_, alone_of_keys ?_, ?_, ?_⟩
  · rw [isOpen_iff]; decide +kernel
  · decide +kernel
  · decide +kernel
  · decide +kernel

end Mercurio
