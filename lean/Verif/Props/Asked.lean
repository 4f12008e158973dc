import Verif.Lemmas.Asked

/-!
# C100: applications get nothing but what they asked for and what others published
-/

namespace Mercurio

open Spec Server

/-- The packets of a client after the first are no CONNECT. -/
theorem SysInv.one_connect {cfg : AuthConfig} {σ : System} {es : List Event} (h : SysInv cfg σ es) {c : Nat} {p : Peer}
    (hp : σ.peers.get c = some p) : ∀ q, Packet.connect q ∉ (packetsOf c es).tail := by
  intro q hq
  obtain ⟨k, hk⟩ := h.packets hp
  rw [hk] at hq
  cases k with
  | zero => cases hq
  | succ k =>
    obtain ⟨x, hx, e⟩ := List.mem_map.mp hq
    have hx := List.mem_of_mem_take hx
    have := ((h.peer c p hp).okFrom x hx).notConnect
    cases x <;> first | exact this _ rfl | cases e

theorem SysInv.clean {cfg : AuthConfig} {σ : System} {es : List Event} (h : SysInv cfg σ es) {c : Nat} {p : Peer}
    (hp : σ.peers.get c = some p) (hc : p.opts.cleanStart = true) :
    ∀ q u w, Event.first c (.connect q) u w ∈ es → q.flags.cleanStart = true := by
  intro q u w hm
  obtain ⟨_, p', hp', e⟩ := h.firsts c _ u w hm
  rw [hp] at hp'
  cases hp'
  have e : Packet.connect q = .connect (wireConnect p.opts).received := e
  cases e
  rw [(wireConnect_says p.opts).cleanStart]; exact hc

/-- Who is subscribed has sent SUBSCRIBE. -/
theorem subscribedBy_sent {f : Str} (ps : List Packet) (h : subscribedBy f ps) :
    ∃ q, Packet.subscribe q ∈ ps ∧ f ∈ q.payload.map (·.topicFilter) := by
  induction ps using snoc_induction with
  | h0 => exact h.elim
  | hs l x ih =>
    unfold subscribedBy at h
    rw [List.foldl_append] at h
    have old : subscribedBy f l → ∃ q, Packet.subscribe q ∈ l ++ [x] ∧ f ∈ q.payload.map (·.topicFilter) := by
      intro hl
      obtain ⟨q, h1, h2⟩ := ih hl
      exact ⟨q, List.mem_append_left _ h1, h2⟩
    cases x with
    | connect q => exact h.elim
    | subscribe q =>
      rcases h with h | h
      · exact old h
      · exact ⟨q, by simp, h⟩
    | unsubscribe q => exact old h.1
    | _ => exact old h

/-- Who has sent SUBSCRIBE has asked. -/
theorem PeerInv.asked {p : Peer} (h : PeerInv p) {q : SubscribePacket} {f : Str} (hq : Packet.subscribe q ∈ p.sents)
    (hf : f ∈ q.payload.map (·.topicFilter)) : p.askedFor f := by
  obtain ⟨⟨i, o⟩, he, hs⟩ := List.mem_filterMap.mp hq
  obtain ⟨l, _, e⟩ := h.steps _ he
  have e : o = (l.step i).2 := e
  have h1 : entrySub f False (i, o) := by
    rw [e, (step_entry l i f False).2, ← e]
    simp only at hs
    rw [hs]
    exact Or.inr hf
  cases i with
  | subscribe ts ok =>
    have h1 : (match o.result with
      | some (.subscribed _) => False ∨ f ∈ ts.map (·.1)
      | _ => False) := h1
    split at h1
    · rename_i fs hr
      exact ⟨ts, ok, o, fs, he, hr, h1.resolve_left id⟩
    · exact h1.elim
  | unsubscribe ts ok =>
    have h1 : (match o.result with
      | some .done => False ∧ f ∉ ts
      | _ => False) := h1
    split at h1
    · exact h1.1.elim
    · exact h1.elim
  | _ => exact h1.elim

/-- Messages are sent on a connection only for a subscription. -/
theorem sent_origin {W : StoredWill → Prop} {cfg : AuthConfig} {es0 : List Event} {c : Nat} {x : Heard} (ext : List Event)
    (hg : GoodHist W ext) (hcl : ∀ q u w, Event.first c (.connect q) u w ∈ ext → q.flags.cleanStart = true)
    (hx : x ∈ ((Server.run cfg Server.init es0).sentTo cfg c ext).filterMap heardOf) :
    ∃ a b, ext = a ++ .deliver c x.topic :: b ∧
      ∃ q ∈ ((Server.run cfg Server.init (es0 ++ a)).step cfg (.deliver c x.topic)).2.sent, heardOf q = some x := by
  induction ext using snoc_induction with
  | h0 => cases hx
  | hs l e ih =>
    have ih := ih (fun y hy => hg y (List.mem_append_left _ hy))
      (fun q u w hm => hcl q u w (List.mem_append_left _ hm))
    have he := hg e (by simp)
    rw [sentTo_snoc, List.filterMap_append] at hx
    rcases List.mem_append.mp hx with hx | hx
    · obtain ⟨a, b, e1, h1⟩ := ih hx
      exact ⟨a, b ++ [e], by rw [e1]; simp, h1⟩
    · have erun : Server.run cfg Server.init (es0 ++ l) = (Server.run cfg Server.init es0).run cfg l := by
        simp [Server.run]
      rw [← erun] at hx
      have hr : Server.Reachable cfg (Server.run cfg Server.init (es0 ++ l)) := ⟨_, rfl⟩
      split at hx
      · rename_i hc
        obtain ⟨q, hq, hqx⟩ := List.mem_filterMap.mp hx
        have hpub : ∃ y, q = .publish y := by cases q <;> first | exact ⟨_, rfl⟩ | cases hqx
        cases e with
        | first d p u w =>
          exfalso
          obtain ⟨y, rfl⟩ := hpub
          cases hc
          cases p with
          | connect q' =>
            simp only [Server.step] at hq
            split at hq
            · simp at hq
            · unfold Server.connect at hq
              split at hq
              · simp [refusal] at hq
              · unfold Server.start at hq
                have hcs := hcl q' u w (by simp)
                cases w with
                | false => simp at hq
                | true => simp [hcs, Server.find, Server.Found.none] at hq
          | _ => simp [Server.step] at hq
        | recv d p =>
          exfalso
          cases hc
          obtain ⟨y, rfl⟩ := hpub
          cases ha : (Server.run cfg Server.init (es0 ++ l)).at c with
          | none =>
            rw [show (Server.run cfg Server.init (es0 ++ l)).step cfg (.recv c p) = (_, {}) by
              simp only [Server.step]; exact onConn_none ha _] at hq
            cases hq
          | some s => exact (recv_out cfg ha he _ hq).2 y rfl
        | deliver d g =>
          cases hc
          obtain ⟨_, mm, _, _, _, e⟩ := deliver_sent (cfg := cfg) hr c g q hq
          have : g = x.topic := by
            rw [e] at hqx
            simp only [forwarded, heardOf, Option.some.injEq] at hqx
            rw [← hqx]
          subst this
          exact ⟨l, [], rfl, q, hq, hqx⟩
        | close d =>
          exfalso
          simp only [Server.step] at hq
          cases ha : (Server.run cfg Server.init (es0 ++ l)).at d with
          | none => rw [onConn_none ha] at hq; cases hq
          | some s =>
            obtain ⟨k, _, _, e⟩ := onConn_at ha (fun r s => ((Server.run cfg Server.init (es0 ++ l)).finish d r s, ({} : Out)))
            rw [e] at hq; cases hq
        | abort d => cases hq
        | restart => cases hc
      · cases hx

/-- ... of the session. -/
theorem deliver_subscribed {cfg : AuthConfig} {srv : Server} {c : Nat} {f : Str} {q : Packet}
    (h : q ∈ (srv.step cfg (.deliver c f)).2.sent) : ∃ s, srv.at c = some s ∧ (s.subscriptions.get f).isSome := by
  cases ha : srv.at c with
  | none =>
    rw [show srv.step cfg (.deliver c f) = (srv, {}) by simp only [Server.step]; exact onConn_none ha _] at h
    cases h
  | some s =>
    refine ⟨s, rfl, ?_⟩
    obtain ⟨k, hk, hs, e⟩ := onConn_at ha (fun r s => srv.deliver c r s f)
    have e' : srv.step cfg (.deliver c f) = srv.deliver c k.session s f := e
    rw [e'] at h
    unfold Server.deliver at h
    rcases processOutgoing_cases s srv.world.broker.tree f with ⟨h1, _⟩ | ⟨st, m, st', hst, _⟩
    · rw [h1] at h; cases h
    · rw [hst]; rfl

theorem tail_prefix {α : Type} {a b : List α} {x : α} (h : x ∈ a.tail) : x ∈ (a ++ b).tail := by
  cases a with
  | nil => cases h
  | cons y ys => exact List.mem_append_left _ h

/-- Messages are sent on the connection of a client for subscriptions it asked for. -/
theorem SysInv.sent_asked {cfg : AuthConfig} {σ : System} {es0 ext : List Event} (h : SysInv cfg σ (es0 ++ ext)) {c : Nat}
    {p : Peer} (hp : σ.peers.get c = some p) (hc : p.opts.cleanStart = true)
    (hs : Solo c p.clientId p.opts.protocolVersion (es0 ++ ext)) {x : Heard}
    (hx : x ∈ ((Server.run cfg Server.init es0).sentTo cfg c ext).filterMap heardOf) :
    ∃ a b, ext = a ++ b ∧ subscribedBy x.topic (packetsOf c (es0 ++ a)) ∧
      ∃ t mm, (t, mm) ∈ Call.publications (Server.run cfg Server.init (es0 ++ a)).world.log ∧
        Matches x.topic t ∧ x = ⟨x.topic, mm.payload.getD [], mm.qos, false⟩ := by
  obtain ⟨a, b, e, q, hq, hqx⟩ := sent_origin ext (fun y hy => h.goodHist y (List.mem_append_right _ hy))
    (fun q u w hm => h.clean hp hc q u w (List.mem_append_right _ hm)) hx
  refine ⟨a, _, e, ?_, ?_⟩
  · obtain ⟨s, ha, hsub⟩ := deliver_subscribed hq
    rw [e, ← List.append_assoc] at h hs
    refine solo_asked cfg (es0 ++ a) hs.init ?_ ?_ ha _ hsub
    · exact fun q u w hm => h.clean hp hc q u w (List.mem_append_left _ hm)
    · intro q hq
      refine h.one_connect hp q ?_
      rw [packetsOf_append]
      exact tail_prefix hq
  · obtain ⟨t, mm, h1, h2, _, h3⟩ := deliver_sent (cfg := cfg) ⟨_, rfl⟩ c _ q hq
    refine ⟨t, mm, h1, h2, ?_⟩
    rw [h3] at hqx
    exact (Option.some.inj hqx).symm

theorem mem_callsPub {t : Str} {mm : Message} (cs : List Call) (h : (t, mm) ∈ Call.publications cs) :
    ∃ src, (src, (⟨t, mm.payload.getD [], mm.qos, mm.retain⟩ : Publication)) ∈ callsPub cs := by
  induction cs with
  | nil => cases h
  | cons x cs ih =>
    have old : (t, mm) ∈ Call.publications cs →
        ∃ src, (src, (⟨t, mm.payload.getD [], mm.qos, mm.retain⟩ : Publication)) ∈ callsPub (x :: cs) := by
      intro h
      obtain ⟨src, h1⟩ := ih h
      refine ⟨src, ?_⟩
      unfold callsPub
      rw [List.filterMap_cons]
      split
      · exact h1
      · exact List.mem_cons_of_mem _ h1
    cases x with
    | publish s t' m' =>
      rcases List.mem_cons.mp h with h | h
      · cases h
        exact ⟨s, by simp [callsPub, callPub]⟩
      · exact old h
    | _ => exact old h

/-- C100, first part: any number of built-in clients, connected to the server by byte streams.  Client `c` started
clean, does not share its session with another client, and its connection is up.  Then every message its
application got is one that an application published (or a client's will), with its payload and QoS, on a topic
that matches a filter the application subscribed to: the filter that the message is given as its topic. -/
theorem C100_nothing_made_up (m : Mode) (cfg : AuthConfig) (evs : List SysEvent) (hord : ∀ e ∈ evs, e.Ordinary) (c : Nat)
    (hreads : ReadsWell m cfg c System.init evs) :
    let σ := System.init.run m cfg evs
    ∀ p w, σ.Up c p w → p.opts.cleanStart = true →
      σ.Apart c p →
      ∀ x ∈ p.heard, p.askedFor x.topic ∧
        ∃ q, σ.origin q ∧ Matches x.topic q.topic ∧ x = ⟨x.topic, q.payload, q.qos, false⟩ := by
  intro σ p w hup hc halone x hx
  obtain ⟨es, hx1⟩ := history (m := m) evs hord (sysInv_init cfg)
  have hi : SysInv cfg σ ([] ++ es) := hx1.inv
  have hsolo := hi.solo hup.peer halone
  have t1 : Tracked cfg c 0 σ ([] ++ es) := hx1.track c 0 hreads (Or.inl rfl) (by
    intro p w hp; simp [System.init, Map.get] at hp)
  obtain ⟨k1, _, d1⟩ := t1 p w hup.peer hup.wire hup.server (up_socket hup) hsolo
  rw [d1.heard, filterMap_receivedBy] at hx
  have hx' : x ∈ ((Server.run cfg Server.init []).sentTo cfg c es).filterMap heardOf :=
    ((List.take_sublist _ _).filterMap _).subset hx
  obtain ⟨a, b, e, h1, t, mm, h2, h3, h4⟩ := hi.sent_asked hup.peer hc hsolo hx'
  refine ⟨?_, ?_⟩
  · obtain ⟨q, hq, hf⟩ := subscribedBy_sent _ h1
    obtain ⟨k, hk⟩ := hi.packets hup.peer
    have hq : Packet.subscribe q ∈ packetsOf c ([] ++ es) := by
      rw [e, ← List.append_assoc, packetsOf_append]; exact List.mem_append_left _ hq
    rw [hk] at hq
    obtain ⟨y, hy, ey⟩ := List.mem_map.mp hq
    have hy := List.mem_of_mem_take hy
    rcases List.mem_cons.mp hy with rfl | hy
    · cases ey
    · cases y with
      | subscribe y =>
        cases ey
        exact (hi.peer c p hup.peer).asked hy hf
      | _ => cases ey
  · obtain ⟨cs, hcs, hpb⟩ := published_between (sysInv_init cfg) hx1
    have hl : (Server.run cfg Server.init []).world.log = [] := rfl
    rw [hl, List.nil_append cs] at hcs
    obtain ⟨cs', hcs'⟩ := log_run cfg (Server.run cfg Server.init ([] ++ a)) b
    have erun : (Server.run cfg Server.init ([] ++ a)).run cfg b = Server.run cfg Server.init ([] ++ es) := by
      rw [e]; simp [Server.run]
    rw [erun, hcs] at hcs'
    obtain ⟨src, hm⟩ := mem_callsPub cs (by rw [hcs', Call.publications_append]; exact List.mem_append_left _ h2)
    refine ⟨⟨t, mm.payload.getD [], mm.qos, mm.retain⟩, ?_, h3, h4⟩
    rcases hpb.sources _ hm with ⟨d, q2, hs, hq2⟩ | ⟨d, d', q2, wl, hs, hq2, hw, he⟩
    · refine ⟨d, q2, hq2, Or.inl ((hpb.piece d q2 hq2).subset ?_)⟩
      simp only at hs
      subst hs
      exact List.mem_map.mpr ⟨_, List.mem_filter.mpr ⟨hm, by simp⟩, rfl⟩
    · exact ⟨d, q2, hq2, Or.inr ⟨wl, hw, he⟩⟩

/-- C100, second part: at one time (after `evs1`) nothing is in transit on the connection of client `c`, which
started clean, and its application is not subscribed to `f`, because it never was or has unsubscribed.  As long as
it does not subscribe again it gets no message for `f`. -/
theorem C100_unsubscribed (m : Mode) (cfg : AuthConfig) (evs1 evs2 : List SysEvent)
    (hord : ∀ e ∈ evs1 ++ evs2, e.Ordinary) (c : Nat) (hreads : ReadsWell m cfg c System.init (evs1 ++ evs2)) :
    let σ1 := System.init.run m cfg evs1
    let σ2 := σ1.run m cfg evs2
    ∀ f p1 p2 w2, σ1.Quiet m cfg c → σ1.peers.get c = some p1 → p1.opts.cleanStart = true → ¬ p1.subscribedTo f →
      (∀ i, SysEvent.app c i ∈ evs2 → ¬ i.Names f) → σ2.Up c p2 w2 →
      σ2.Apart c p2 →
      p2.heardOn f = p1.heardOn f := by
  intro σ1 σ2 f p1 p2 w2 hq1 hp1 hc hsub hno hup2 halone
  obtain ⟨es, hx1⟩ := history (m := m) evs1 (fun e he => hord e (List.mem_append_left _ he)) (sysInv_init cfg)
  obtain ⟨ext, hx2⟩ := history (m := m) evs2 (fun e he => hord e (List.mem_append_right _ he)) hx1.inv
  rw [List.nil_append] at hx2
  have hi1 : SysInv cfg σ1 es := hx1.inv
  obtain ⟨rw1, rw2⟩ := readsWell_append evs1 hreads
  obtain ⟨p1', w1, hu1, q1, q2, q3, q4, q5⟩ := hq1.parts
  have := hu1.peer
  rw [hp1] at this
  cases this
  obtain ⟨hall, hbeg, hopen1⟩ := hi1.quiet hp1 hu1.wire hu1.server q1 q2
  obtain ⟨p2', w2', hp2', hw2', hev⟩ := hx2.peer c p1 w1 hp1 hu1.wire
  have hp2e : p2 = p2' := by have := hup2.peer; rw [hp2'] at this; exact (Option.some.inj this).symm
  subst hp2e
  have hw2e : w2 = w2' := by have := hup2.wire; rw [hw2'] at this; exact (Option.some.inj this).symm
  subst hw2e
  have hsolo : Solo c p2.clientId p2.opts.protocolVersion (es ++ ext) := hx2.inv.solo hp2' halone
  have hid : p2.clientId = p1.clientId := by unfold Peer.clientId; rw [hev.opts]
  have hsolo2 := hsolo
  rw [hid, hev.opts] at hsolo2
  have hsolo1 := hsolo2.init
  have t1 : Tracked cfg c 0 σ1 es := hx1.track c 0 rw1 (Or.inl rfl) (by
    intro p w hp; simp [System.init, Map.get] at hp)
  obtain ⟨k1, _, d1⟩ := t1 p1 w1 hp1 hu1.wire hu1.server (up_socket hu1) hsolo1
  have hS1 := hi1.sentTo hsolo1 hu1.wire hu1.server
  have hk1 := quiet_down d1 hS1 q4 q5
  have t1' : Tracked cfg c (Server.init.sentTo cfg c es).length σ1 es := by
    intro p w hp hw hr ho hs
    rw [hp1] at hp
    cases hp
    exact ⟨k1, by omega, d1⟩
  have t2 := hx2.track c _ rw2 (Or.inr (by rw [show (System.run m cfg System.init evs1).peers.get c = some p1 from hp1]; rfl)) t1'
  obtain ⟨k2, hk2, d2⟩ := t2 p2 w2 hp2' hw2' hup2.server (up_socket hup2) hsolo
  have e1 : p1.heard = (Server.init.sentTo cfg c es).filterMap heardOf := by
    rw [d1.heard, hk1, List.take_length, filterMap_receivedBy]
  have e2 : p2.heard = p1.heard ++ (((Server.run cfg Server.init es).sentTo cfg c ext).take
      (k2 - (Server.init.sentTo cfg c es).length)).filterMap heardOf := by
    rw [d2.heard, filterMap_receivedBy, sentTo_append, List.take_append, List.take_of_length_le hk2,
      List.filterMap_append, e1]
  unfold Peer.heardOn
  rw [e2, List.filter_append]
  suffices h : ∀ x ∈ (((Server.run cfg Server.init es).sentTo cfg c ext).take
      (k2 - (Server.init.sentTo cfg c es).length)).filterMap heardOf, x.topic ≠ f by
    conv => rhs; rw [← List.append_nil (List.filter _ _)]
    congr 1
    exact List.filter_eq_nil_iff.mpr fun x hx => by simpa using h x hx
  intro x hx hxf
  have hx' := ((List.take_sublist _ _).filterMap _).subset hx
  obtain ⟨a, b, e, h1, _⟩ := hx2.inv.sent_asked hp2' (by rw [hev.opts]; exact hc) hsolo hx'
  rw [hxf] at h1
  obtain ⟨n1, n2⟩ := not_named hx2 hp1 hu1.wire hall hno
  have hfirst := hx2.first c w1 hu1.wire hbeg
  have hpk : ∀ q ∈ packetsOf c a, Event.recv c q ∈ ext := by
    intro q hq
    unfold packetsOf at hq
    obtain ⟨y, hy, hyq⟩ := List.mem_filterMap.mp hq
    have hy : y ∈ ext := by rw [e]; exact List.mem_append_left _ hy
    cases y with
    | first d p u w =>
      simp only at hyq
      split at hyq
      · rename_i hd
        subst hd
        exact absurd hy (hfirst _ _ _)
      · cases hyq
    | recv d p =>
      simp only at hyq
      split at hyq
      · rename_i hd
        subst hd
        cases hyq
        exact hy
      · cases hyq
    | _ => cases hyq
  have keep : ∀ (l : List Packet) (B : Prop), (∀ q ∈ l, Event.recv c q ∈ ext) → l.foldl (subStep f) B → B := by
    intro l
    induction l with
    | nil => intro B _ h; exact h
    | cons q l ih =>
      intro B hl h
      have h := ih _ (fun y hy => hl y (List.mem_cons_of_mem _ hy)) h
      have hq := hl q (by simp)
      cases q with
      | connect q => exact h.elim
      | subscribe q => exact h.resolve_right (n1 q hq)
      | unsubscribe q => exact h.1
      | _ => exact h
  rw [packetsOf_append] at h1
  unfold subscribedBy at h1
  rw [List.foldl_append] at h1
  have h1 := keep _ _ hpk h1
  rw [hall] at h1
  apply hsub
  rw [(hi1.peer c p1 hp1).subscribedTo f]
  have hfold : ∀ (l : List Packet) (b : Prop),
      (l.map Packet.received).foldl (subStep f) b = l.foldl (subStep f) b := by
    intro l
    induction l with
    | nil => intro b; rfl
    | cons q l ih => intro b; simp only [List.map_cons, List.foldl_cons, subStep_received, ih]
  rw [hfold] at h1
  exact h1

/-! ## Examples -/

theorem exSys2_up : ∃ p w, exSys2.Up 0 p w := by
  obtain ⟨p, w, h, _⟩ := exSys2_quiet.parts; exact ⟨p, w, h⟩

theorem exSys2_run : exSys2 = System.init.run .debug {} (exSysSub ++ exSysPub) := by
  simp only [exSys2, exSys1, System.run, List.foldl_append]

/-- The message of the example is what the first part says. -/
example : ∃ p, exSys2.peers.get 0 = some p ∧ p.heard = [⟨str "a/+", str "hi", .atLeastOnce, false⟩] ∧
    p.askedFor (str "a/+") ∧ ∃ q, exSys2.origin q ∧ Matches (str "a/+") q.topic ∧
      (⟨str "a/+", str "hi", .atLeastOnce, false⟩ : Heard) = ⟨str "a/+", q.payload, q.qos, false⟩ := by
  obtain ⟨p, w, hup⟩ := exSys2_up
  have h1 : (exSys2.peers.get 0).map (·.heard) = some [⟨str "a/+", str "hi", .atLeastOnce, false⟩] := by decide +kernel
  have h2 : (exSys2.peers.get 0).map (·.opts.cleanStart) = some true := by decide +kernel
  rw [hup.peer] at h1 h2
  simp only [Option.map_some, Option.some.injEq] at h1 h2
  have hal : exSys2.Apart 0 p := apart_check hup.peer (by decide +kernel)
  have hx : (⟨str "a/+", str "hi", .atLeastOnce, false⟩ : Heard) ∈ p.heard := by rw [h1]; simp
  rw [exSys2_run] at hup hal
  obtain ⟨a, b⟩ := C100_nothing_made_up .debug {} _ exSys_ordinary 0 exSys_reads p w hup h2 hal _ hx
  rw [exSys2_run]
  exact ⟨p, hup.peer, h1, a, b⟩

/-- The subscriber unsubscribes. -/
def exUnsub : List SysEvent := [
  .app 0 (.unsubscribe [str "a/+"] true), .serverRead 0 4096, .serverTurn 0 (str "u") true,
  .clientRead 0 4096, .clientTurn 0 true]

/-- The other client publishes again. -/
def exAgain : List SysEvent := [
  .app 1 (.publish (str "a/b") (str "ho") .atLeastOnce false true),
  .serverRead 1 4096, .serverTurn 1 (str "v") true, .deliver 0 (str "a/+"), .clientRead 0 4096]

def exUnsub1 : System := System.init.run .debug {} (exSysSub ++ exSysPub ++ exUnsub)
def exUnsub2 : System := exUnsub1.run .debug {} exAgain

theorem ReadsWell.join {m : Mode} {cfg : AuthConfig} {c : Nat} (b : List SysEvent) : ∀ (a : List SysEvent) (σ : System),
    ReadsWell m cfg c σ a → ReadsWell m cfg c (σ.run m cfg a) b → ReadsWell m cfg c σ (a ++ b) := by
  intro a
  induction a with
  | nil => intro σ _ h; exact h
  | cons e a ih => intro σ h1 h2; exact ⟨h1.1, h1.2.1, ih _ h1.2.2 h2⟩

theorem exUnsub_ordinary : ∀ e ∈ (exSysSub ++ exSysPub ++ exUnsub) ++ exAgain, e.Ordinary := by
  intro e he
  rw [List.append_assoc] at he
  rcases List.mem_append.mp he with he | he
  · exact exSys_ordinary e he
  · simp only [exUnsub, exAgain, List.cons_append, List.nil_append, List.mem_cons, List.not_mem_nil, or_false] at he
    rcases he with rfl | rfl | rfl | rfl | rfl | rfl | rfl | rfl | rfl | rfl <;>
      first
      | trivial
      | exact (by decide : TextField _)
      | exact ⟨by decide, by simp, by decide⟩
      | exact ⟨by simp, by simp; decide, by decide⟩

theorem exUnsub_reads : ReadsWell .debug {} 0 System.init ((exSysSub ++ exSysPub ++ exUnsub) ++ exAgain) := by
  rw [List.append_assoc]
  refine ReadsWell.join _ _ _ exSys_reads ?_
  have got : ∀ (σ : System),
      ((σ.peers.get 0).map (fun p => (p.opts.protocolVersion, p.got)), (σ.net.wires.get 0).map (·.sent)) =
        (some (.v5, [32, 3, 0, 0, 0, 144, 4, 0, 1, 0, 0, 50, 10, 0, 3, 97, 47, 43, 0, 1, 0, 104, 105, 176, 4, 0, 2, 0, 0]),
          some [32, 3, 0, 0, 0, 144, 4, 0, 1, 0, 0, 50, 10, 0, 3, 97, 47, 43, 0, 1, 0, 104, 105, 176, 4, 0, 2, 0, 0]) →
      ∀ p w, σ.peers.get 0 = some p → σ.net.wires.get 0 = some w →
        GotWell p.opts.protocolVersion w.sent p.got := by
    intro σ h1 p w hp hw
    rw [hp, hw] at h1
    simp only [Option.map_some, Prod.mk.injEq, Option.some.injEq] at h1
    rw [h1.1.1, h1.1.2, h1.2]
    have hs := exSysSent_to 3 _ (by decide +kernel :
      writePackets (exSysSent.take 3) = ([32, 3, 0, 0, 0, 144, 4, 0, 1, 0, 0, 50, 10, 0, 3, 97, 47, 43, 0, 1, 0, 104, 105], true))
    have hu : SentTo .v5 [.unsubAck { protocolVersion := .v5, packetId := 2, properties := none, payload := [.success] }]
        ([176, 4, 0, 2, 0, 0] ++ []) :=
      .cons ⟨by decide, fun _ => ⟨(fun _ h => by cases h), by simp⟩⟩ (by decide) (by unfold FitsMqtt; decide) .nil
    refine ⟨_, _, hs.append hu, ?_, ?_, ?_⟩
    · exact List.prefix_rfl
    · exact List.prefix_rfl
    · exact Or.inr ⟨[32, 3, 0, 0, 0], by decide, Or.inr ⟨[144, 4, 0, 1, 0, 0], by decide,
        Or.inr ⟨[50, 10, 0, 3, 97, 47, 43, 0, 1, 0, 104, 105], by decide,
          Or.inr ⟨[176, 4, 0, 2, 0, 0], by decide, trivial⟩⟩⟩⟩
  refine ⟨by simp, by decide, by simp, by decide, by simp, by decide, fun n _ => got _ (by decide +kernel), by decide,
    by simp, by decide, by simp, by decide, by simp, by decide, by simp, by decide, by simp, by decide,
    fun n _ => got _ (by decide +kernel), by decide, trivial⟩

theorem exUnsub1_quiet : exUnsub1.Quiet .debug {} 0 :=
  quiet_check (fs := []) (by decide +kernel) (by decide +kernel) (by decide +kernel)

theorem exUnsub2_quiet : exUnsub2.Quiet .debug {} 0 :=
  quiet_check (fs := []) (by decide +kernel) (by decide +kernel) (by decide +kernel)

/-- The hypotheses of the second part hold: a message is published, and the application that has unsubscribed
does not get it. -/
example : (∀ p, exUnsub1.peers.get 0 = some p → p.opts.cleanStart = true ∧ ¬ p.subscribedTo (str "a/+")) ∧
    (∀ i, SysEvent.app 0 i ∈ exAgain → ¬ i.Names (str "a/+")) ∧ (∃ p w, exUnsub2.Up 0 p w ∧ exUnsub2.Apart 0 p) ∧
    (exUnsub2.peers.get 1).map (·.published) =
      some [⟨str "a/b", str "hi", .atLeastOnce, false⟩, ⟨str "a/b", str "ho", .atLeastOnce, false⟩] ∧
    (exUnsub2.peers.get 0).map (·.heardOn (str "a/+")) = some [⟨str "a/+", str "hi", .atLeastOnce, false⟩] := by
  refine ⟨?_, ?_, ?_, by decide +kernel, by decide +kernel⟩
  · intro p hp
    have h0 : (exUnsub1.peers.get 0).map (·.opts.cleanStart) = some true := by decide +kernel
    have h : (exUnsub1.peers.get 0).map (fun p => p.history.map fun e => (e.1, e.2.result)) =
      some [(.subscribe [(str "a/+", .atLeastOnce)] true, some (.subscribed [(str "a/+", .atLeastOnce, true)])),
        (.read (.packet (.subAck { packetId := 1, properties := some {}, payload := [.success] })) true, none),
        (.read (.packet (.publish ⟨false, .atLeastOnce, false, str "a/+", some 1, some {}, some (str "hi")⟩)) true, none),
        (.unsubscribe [str "a/+"] true, some .done),
        (.read (.packet (.unsubAck { packetId := 2, properties := some {}, payload := [.success] })) true, none)] := by
      decide +kernel
    rw [hp] at h h0
    simp only [Option.map_some, Option.some.injEq] at h h0
    refine ⟨h0, ?_⟩
    have hf : ∀ (l : List (ClientIn × ClientOut)) (b : Prop), l.foldl (entrySub (str "a/+")) b =
        (l.map fun e => (e.1, e.2.result)).foldl (fun b e => entrySub (str "a/+") b (e.1, { result := e.2 })) b := by
      intro l
      induction l with
      | nil => intro b; rfl
      | cons x l ih =>
        intro b
        rw [List.foldl_cons, List.map_cons, List.foldl_cons, ih]
        rcases x with ⟨i, o⟩
        cases i <;> rfl
    rw [subscribedTo_entries, hf, h]
    simp [entrySub]
  · intro i hi
    simp [exAgain] at hi
  · obtain ⟨p, w, h, _⟩ := exUnsub2_quiet.parts
    exact ⟨p, w, h, apart_check h.peer (by decide +kernel)⟩

end Mercurio
