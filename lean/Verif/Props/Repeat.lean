import Verif.Props.Mailbox
import Verif.Props.Inflight
import Verif.Props.Ids

/-!
# C114, C115, C116: subscribing again, sending again, and the mark for what is sent again
-/

namespace Mercurio

open Spec Server

/-! ## C114: subscribing again to a filter -/

theorem Server.Reachable.onwards {cfg : AuthConfig} {srv : Server} (hr : srv.Reachable cfg) (es : List Event) :
    (srv.run cfg es).Reachable cfg := by
  obtain ⟨l, hl⟩ := hr
  exact ⟨l ++ es, by simp [Server.run, hl]⟩

theorem calmRun_open {cfg : AuthConfig} {c : Nat} {f : Str} (es : List Event) : ∀ {srv : Server},
    srv.isOpen c → CalmRun cfg c f srv es → (srv.run cfg es).isOpen c := by
  induction es with
  | nil => intro srv h _; exact h
  | cons e es ih => intro srv _ h; exact ih h.1.stays h.2

theorem published_subscribe (cfg : AuthConfig) (srv : Server) (hr : srv.Reachable cfg) (c : Nat) (hopen : srv.isOpen c)
    (p : SubscribePacket) : (srv.step cfg (.recv c (.subscribe p))).1.isOpen c ∧
    published cfg srv [.recv c (.subscribe p)] = [] := by
  obtain ⟨k0, hk0⟩ := hopen
  obtain ⟨s, hs0⟩ := (hr.inv.conns c k0 hk0).2
  have hs : srv.at c = some s := at_eq_some.mpr ⟨k0, hk0, hs0⟩
  have h1 := ((C34_answers cfg srv c s hs (.subscribe p) (by simp)).1 trivial).1
  refine ⟨h1, ?_⟩
  rw [published_one]
  simp only [eventCalls, hs, packetCalls]
  rw [if_pos (Or.inr h1), List.append_nil]
  have : ∀ l : List Str, Call.publications (l.map Call.subscribe) = [] := by
    intro l
    induction l with
    | nil => rfl
    | cons a l ih => exact ih
  exact this _

/-- C114 (partial): a client subscribes to a filter and later to the same filter again.  If it keeps up in both
periods, and nothing is waiting for it when it subscribes again (nor in the end), no message is lost: everything published since
the first SUBSCRIBE on topics the filter matches was sent to it, in order.
Missing, because it is false: messages that are waiting when it subscribes again, see the next theorem. -/
theorem C114_nothing_waiting_partial (cfg : AuthConfig) (srv : Server) (hr : srv.Reachable cfg) (c : Nat)
    (hopen : srv.isOpen c) (p1 p2 : SubscribePacket) (f : Str) (hf1 : f ∈ p1.payload.map (·.topicFilter))
    (hf2 : f ∈ p2.payload.map (·.topicFilter)) (hvf : ValidFilter f) (es1 es2 : List Event) :
    let srv1 := (srv.step cfg (.recv c (.subscribe p1))).1
    let srv2 := srv1.run cfg es1
    let srv3 := (srv2.step cfg (.recv c (.subscribe p2))).1
    let es := es1 ++ .recv c (.subscribe p2) :: es2
    CalmRun cfg c f srv1 es1 → CalmRun cfg c f srv3 es2 → (∀ q ∈ published cfg srv1 es, ValidTopic q.1) →
    (∀ topics : List Str, topics.Nodup →
      (∀ t, t ∈ topics ↔ Matches f t ∧ (retainedOf t (Call.publications srv.world.log)).isSome) →
      KeepsUp cfg srv1 c f topics.length es1) →
    (∀ topics : List Str, topics.Nodup →
      (∀ t, t ∈ topics ↔ Matches f t ∧ (retainedOf t (Call.publications srv2.world.log)).isSome) →
      KeepsUp cfg srv3 c f topics.length es2) →
    (srv2.step cfg (.deliver c f)).2 = {} →
    ((srv3.run cfg es2).step cfg (.deliver c f)).2 = {} →
    ((matching f (published cfg srv1 es)).map (forwarded f)).Sublist
      (srv1.delivered cfg c f es1 ++ srv3.delivered cfg c f es2) := by
  intro srv1 srv2 srv3 es hc1 hc2 hv hk1 hk2 hi1 hi2
  have ho1 : srv1.isOpen c := (published_subscribe cfg srv hr c hopen p1).1
  have hr2 : srv2.Reachable cfg := hr.onwards (.recv c (.subscribe p1) :: es1)
  have ho2 : srv2.isOpen c := calmRun_open es1 ho1 hc1
  have e : published cfg srv1 es = published cfg srv1 es1 ++ published cfg srv3 es2 := by
    show published cfg srv1 (es1 ++ .recv c (.subscribe p2) :: es2) = _
    rw [published_append, published_cons]
    show _ ++ (published cfg srv2 _ ++ _) = _
    rw [(published_subscribe cfg srv2 hr2 c ho2 p2).2]
    rfl
  rw [e] at hv ⊢
  obtain ⟨topics1, t1, t2, _, t4⟩ := C62_exactly_matching cfg srv hr c hopen p1 f hf1 hvf es1 hc1
    (fun q hq => hv q (List.mem_append_left _ hq))
  obtain ⟨topics2, u1, u2, _, u4⟩ := C62_exactly_matching cfg srv2 hr2 c ho2 p2 f hf2 hvf es2 hc2
    (fun q hq => hv q (List.mem_append_right _ hq))
  rw [(t4 (hk1 topics1 t1 t2)).2 hi1, (u4 (hk2 topics2 u1 u2)).2 hi2, matching_append, List.map_append]
  exact ((List.sublist_append_right _ _).map _).append ((List.sublist_append_right _ _).map _)

/-- C114 is false if something is waiting, always: the next packet a client would be sent for its subscription to
`f` is `x`, but before that it subscribes to `f` again.  Then `x` is lost: whatever happens afterwards (as long as
the subscription is left in place), the client is not sent it, unless the broker keeps it as a retained
message, or it is published again. -/
theorem C114_waiting_lost_false (cfg : AuthConfig) (srv : Server) (hr : srv.Reachable cfg) (c : Nat)
    (hopen : srv.isOpen c) (p : SubscribePacket) (f : Str) (hf : f ∈ p.payload.map (·.topicFilter))
    (hvf : ValidFilter f) (x : Packet) (_hx : (srv.step cfg (.deliver c f)).2.sent = [x]) (es : List Event) :
    let srv1 := (srv.step cfg (.recv c (.subscribe p))).1
    CalmRun cfg c f srv1 es → (∀ q ∈ published cfg srv1 es, ValidTopic q.1) →
    (∀ t m, Matches f t → retainedOf t (Call.publications srv.world.log) = some m → forwarded f m ≠ x) →
    (∀ m ∈ matching f (published cfg srv1 es), forwarded f m ≠ x) →
    x ∉ srv1.delivered cfg c f es := by
  intro srv1 hc hv hret hpub hmem
  obtain ⟨topics, _, t2, t3, _⟩ := C62_exactly_matching cfg srv hr c hopen p f hf hvf es hc hv
  obtain ⟨m, hm, rfl⟩ := List.mem_map.mp (t3.subset hmem)
  rcases List.mem_append.mp hm with hm | hm
  · obtain ⟨t, ht, htm⟩ := List.mem_filterMap.mp hm
    exact hret t m ((t2 t).mp ht).1 htm rfl
  · exact hpub m hm rfl

/-- A message waits for the client on connection 0 when it subscribes to the same filter again. -/
example :
    let srv := exListening.run exCfg [.recv 1 (.publish { topicName := str "a/b", payload := some (str "22") })]
    let again : Event := .recv 0 (.subscribe ⟨2, none, [⟨str "a/+", {}⟩]⟩)
    (srv.step exCfg (.deliver 0 (str "a/+"))).2.sent =
      [.publish { topicName := str "a/+", payload := some (str "22") }] ∧
    CalmRun exCfg 0 (str "a/+") (srv.step exCfg again).1 [.deliver 0 (str "a/+")] ∧
    ((srv.step exCfg again).1.step exCfg (.deliver 0 (str "a/+"))).2 = {} := by
  exact ⟨by decide +kernel, calmB_sound _ _ _ _ _ (by decide +kernel), by decide +kernel⟩

/-- Nothing waits when it subscribes again. -/
example :
    let es1 : List Event := [.recv 1 (.publish { topicName := str "a/b" }), .deliver 0 (str "a/+")]
    let srv2 := exListening.run exCfg es1
    let srv3 := (srv2.step exCfg (.recv 0 (.subscribe ⟨2, none, [⟨str "a/+", {}⟩]⟩))).1
    CalmRun exCfg 0 (str "a/+") exListening es1 ∧ (srv2.step exCfg (.deliver 0 (str "a/+"))).2 = {} ∧
    CalmRun exCfg 0 (str "a/+") srv3 es1 ∧ ((srv3.run exCfg es1).step exCfg (.deliver 0 (str "a/+"))).2 = {} := by
  exact ⟨calmB_sound _ _ _ _ _ (by decide +kernel), by decide +kernel,
    calmB_sound _ _ _ _ _ (by decide +kernel), by decide +kernel⟩

/-! ## C115: what the client has acknowledged is not sent again -/

/-- C115 (partial): a client has completed the message with packet identifier `id` (by PUBACK or PUBCOMP).  However
often it comes back to its session afterwards (after restarts, too), it is not sent a message under this identifier
again when it resumes, unless a new one was sent under it in between.
Missing, because it is false: QoS 2 messages it has acknowledged by PUBREC, see the next theorem. -/
theorem C115_completed_partial (cfg : AuthConfig) (es1 es2 : List Event) (c : Nat) (cid : Str) (a : AckPacket)
    (e : Event) (he : e = .recv c (.pubAck a) ∨ e = .recv c (.pubComp a))
    (hc : (Server.init.run cfg es1).nameOf c = some cid)
    (hno : ∀ l1 c' f l2, es2 = l1 ++ .deliver c' f :: l2 →
      let srv := Server.init.run cfg (es1 ++ e :: l1)
      srv.nameOf c' = some cid → ∀ q, .publish q ∈ (srv.step cfg (.deliver c' f)).2.sent →
        q.packetId ≠ some a.packetId)
    (c' : Nat) (p : ConnectPacket) (uuid : Str) (hp : p.payload.clientId = cid) :
    let srv := Server.init.run cfg (es1 ++ e :: es2)
    Admitted cfg srv c' p →
    ∀ q, .publish q ∈ (srv.step cfg (.first c' (.connect p) uuid true)).2.sent → q.packetId ≠ some a.packetId := by
  intro srv ha q hq hid
  have hun : unacknowledged cfg cid a.packetId Server.init none (es1 ++ e :: es2) = none := by
    clear hq ha
    induction es2 using snoc_induction with
    | h0 =>
      rw [unacknowledged_snoc]
      rcases he with rfl | rfl <;> simp [inflightAfter, hc]
    | hs l x ih =>
      have hi := ih (fun l1 c' f l2 h => hno l1 c' f (l2 ++ [x]) (by simp [h]))
      rw [show es1 ++ e :: (l ++ [x]) = (es1 ++ e :: l) ++ [x] by simp, unacknowledged_snoc, hi]
      cases x with
      | deliver c' f =>
        have hn := hno l c' f [] rfl
        simp only [inflightAfter]
        split
        · rename_i y ys hy
          rw [if_neg]
          rintro ⟨h1, h2⟩
          cases y with
          | publish q =>
            simp only [recordOf] at h2
            split at h2
            · rename_i h3
              exact hn h1 q (by rw [hy]; simp) h3.1
            · simp at h2
          | _ => simp [recordOf] at h2
        · rfl
      | recv c' y => cases y <;> simp [inflightAfter]
      | first _ _ _ _ => rfl
      | close _ => rfl
      | abort _ => rfl
      | restart => rfl
  by_cases hres : p.flags.cleanStart = false ∧ srv.sessions.get p.payload.clientId = none ∧
      (srv.store.loadSession p.payload.clientId).isSome
  · obtain ⟨ack, again, h1, _, h3⟩ := C41_resent cfg _ c' p uuid ha hres.1 hres.2.1 hres.2.2
    rw [show (srv.step cfg (.first c' (.connect p) uuid true)).2.sent = _ from h1] at hq
    simp only [List.mem_cons, reduceCtorEq, List.mem_map, false_or] at hq
    obtain ⟨i, hi, e⟩ := hq
    simp only [resent, Packet.publish.injEq] at e
    subst e
    simp only [Option.some.injEq] at hid
    have := (h3 i).mp hi
    rw [hid, hp, hun] at this
    simp at this
  · obtain ⟨ack, h⟩ := C41_only_from_storage cfg srv c' p uuid ha (by
      cases h1 : p.flags.cleanStart with
      | true => exact Or.inl rfl
      | false =>
        cases h2 : srv.sessions.get p.payload.clientId with
        | some r => exact Or.inr (Or.inl rfl)
        | none =>
          cases h3 : srv.store.loadSession p.payload.clientId with
          | none => exact Or.inr (Or.inr rfl)
          | some st => exact absurd ⟨h1, h2, by rw [h3]; rfl⟩ hres)
    rw [h] at hq
    simp at hq

/-- C115 is false for QoS 2 messages, always: a client has acknowledged such a message by PUBREC, and the server has
answered with PUBREL (so that the client may forget the packet identifier).  If the server is restarted and the client
resumes its session, it is sent the PUBLISH again, and not the PUBREL: to the client, this is a new message. -/
theorem C115_pubrec_false (cfg : AuthConfig) (es : List Event) (c : Nat) (cid : Str)
    (hc : (Server.init.run cfg es).nameOf c = some cid) (i : Inflight)
    (hi : unacknowledged cfg cid i.packetId Server.init none es = some i)
    (c' : Nat) (p : ConnectPacket) (uuid : Str) (hp : p.payload.clientId = cid) (hclean : p.flags.cleanStart = false) :
    let r := (Server.init.run cfg es).step cfg (.recv c (.pubRec { packetId := i.packetId }))
    let srv := (r.1.step cfg .restart).1
    Admitted cfg srv c' p → (srv.store.loadSession cid).isSome →
    r.1.isOpen c ∧ r.2.sent = [.pubRel { packetId := i.packetId }] ∧
    ∃ again, resent i ∈ again ∧ (∀ x ∈ again, ∃ j, x = resent j) ∧ ∃ ack,
      (srv.step cfg (.first c' (.connect p) uuid true)).2.sent = .connAck ack :: again := by
  intro r srv ha hst
  subst hp
  have hrun : srv = Server.init.run cfg (es ++ [.recv c (.pubRec { packetId := i.packetId }), .restart]) := by
    simp [Server.run, srv, r]
  have hat : ∃ s, (Server.init.run cfg es).at c = some s := by
    unfold Server.nameOf at hc
    cases h : (Server.init.run cfg es).at c with
    | none => rw [h] at hc; simp at hc
    | some s => exact ⟨s, rfl⟩
  obtain ⟨s, hs⟩ := hat
  obtain ⟨h1, h2⟩ := (C34_answers cfg _ c s hs (.pubRec { packetId := i.packetId }) (by simp)).1 trivial
  refine ⟨h1, h2, ?_⟩
  rw [hrun] at ha hst ⊢
  have hmem : (Server.init.run cfg (es ++ [.recv c (.pubRec { packetId := i.packetId }), .restart])).sessions.get
      p.payload.clientId = none := by
    rw [← hrun]; rfl
  obtain ⟨ack, again, h3, _, h5⟩ := C41_resent cfg _ c' p uuid ha hclean hmem hst
  refine ⟨again.map resent, List.mem_map_of_mem ((h5 i).mpr ?_), ?_, ack, h3⟩
  · rw [show es ++ [Event.recv c (.pubRec { packetId := i.packetId }), .restart] =
      (es ++ [.recv c (.pubRec { packetId := i.packetId })]) ++ [.restart] by simp, unacknowledged_snoc,
      unacknowledged_snoc, hi]
    rfl
  · intro x hx
    obtain ⟨j, _, rfl⟩ := List.mem_map.mp hx
    exact ⟨j, rfl⟩

/-- A history in which a QoS 2 message was sent to a client and is not acknowledged. -/
def exSent2 : List Event :=
  [.first 0 (.connect (exConnect (str "x") true)) (str "uuid") true,
   .recv 0 (.subscribe ⟨1, none, [⟨str "a/+", {}⟩]⟩), .recv 0 (.publish exPublish), .deliver 0 (str "a/+")]

example : ((Server.init.run exCfg exSent2).nameOf 0 = some (str "x") ∧
    unacknowledged exCfg (str "x") 7 Server.init none exSent2 =
      some ⟨7, str "a/+", some (str "22"), .exactlyOnce, false⟩) ∧
    let srv := Server.init.run exCfg (exSent2 ++ [.recv 0 (.pubRec { packetId := 7 }), .restart])
    (srv.store.loadSession (str "x")).isSome ∧
    (srv.step exCfg (.first 3 (.connect (exConnect (str "x") false)) (str "w") true)).2.sent.drop 1 =
      [.publish ⟨true, .exactlyOnce, false, str "a/+", some 7, none, some (str "22")⟩] ∧
    let srv := Server.init.run exCfg (exSent2 ++ [.recv 0 (.pubComp { packetId := 7 }), .restart])
    (srv.store.loadSession (str "x")).isSome ∧
    (srv.step exCfg (.first 3 (.connect (exConnect (str "x") false)) (str "w") true)).2.sent.drop 1 = [] := by
  decide +kernel

/-! ## C116: the mark for what is sent again -/

theorem publish_dup (cfg : AuthConfig) (es : List Event)
    (hes : ∀ c p, Event.recv c (.publish p) ∈ es → p.dup = false) : ∀ src t m,
    Call.publish src t m ∈ (Server.init.run cfg es).world.log → m.dup = false := by
  intro src t m h
  cases src with
  | client c =>
    obtain ⟨_, es1, es2, p, rfl, _, _, rfl⟩ := C35_publications cfg es c t m h
    exact hes c p (by simp)
  | will c =>
    clear hes
    induction es using snoc_induction with
    | h0 => simp [Server.run, Server.init] at h
    | hs l a ih =>
      rw [run_snoc, step_log, List.mem_append] at h
      rcases h with h | h
      · exact ih h
      · have hwill : ∀ c' s, Call.publish (.will c) t m ∈ willCalls c' s → m.dup = false := by
          intro c' s hw
          unfold willCalls at hw
          cases hs : s.will with
          | none => rw [hs] at hw; cases hw
          | some w =>
            rw [hs] at hw
            simp only [List.mem_singleton, Call.publish.injEq] at hw
            obtain ⟨_, _, rfl⟩ := hw
            rfl
        cases a with
        | first c p uuid w =>
          simp only [eventCalls] at h
          split at h
          · split at h
            · simp at h
            · cases h
          · cases h
        | recv c p =>
          simp only [eventCalls] at h
          split at h
          · cases h
          · rename_i s hs
            rw [List.mem_append] at h
            rcases h with h | h
            · cases p with
              | publish p =>
                simp only [packetCalls] at h
                split at h
                · simp at h
                · cases h
              | subscribe p => simp [packetCalls] at h
              | _ => cases h
            · split at h
              · cases h
              · exact hwill _ _ h
        | deliver c f => cases h
        | close c =>
          simp only [eventCalls] at h
          split at h
          · cases h
          · exact hwill _ _ h
        | abort c => cases h
        | restart => simp [eventCalls] at h

/-- The server answers no packet with a PUBLISH. -/
theorem recv_no_publish (cfg : AuthConfig) (srv : Server) (c : Nat) (p : Packet) (q : PublishPacket) :
    .publish q ∉ (srv.step cfg (.recv c p)).2.sent := by
  cases ha : srv.at c with
  | none => simp only [Server.step]; rw [onConn_none ha]; simp
  | some s =>
    by_cases hd : ∃ d, p = .disconnect d
    · obtain ⟨d, rfl⟩ := hd
      obtain ⟨k, hk, hs, e⟩ := step_disconnect (cfg := cfg) (d := d) ha
      rw [e]; simp
    · obtain ⟨k, hk, hs, e⟩ := step_recv (cfg := cfg) ha (fun d h => hd ⟨d, h⟩)
      rw [e]
      have : ∀ res, (s.processIncoming srv.world cfg.manager c p).result = .ok res → .publish q ∉ res.toList := by
        intro res hres
        cases p with
        | publish x =>
          simp only [Session.processIncoming, Session.handlePublish] at hres
          split at hres
          · cases hres
          · simp only [Session.publishResponse] at hres
            split at hres <;> cases hres <;> simp
        | auth a =>
          simp only [Session.processIncoming, Session.handleAuth] at hres
          split at hres
          · cases hres
          · split at hres
            all_goals
              simp only [Session.authStart, Session.authContinue] at hres
              repeat' split at hres
              all_goals first | (cases hres; simp [Session.authSuccess, Session.authChallenge]) | cases hres
        | _ => first | (cases hres; simp) | cases hres
      cases hr : (s.processIncoming srv.world cfg.manager c p).result with
      | error x => simp
      | ok res => simpa using this res hr

/-- C116 (partial): in every history in which no publisher sets the duplicate flag, the PUBLISH packets with the
duplicate flag are exactly those that are sent, again, in answer to a CONNECT, to a client that resumes its session:
whatever happens, of the packets the server sends then, these are marked, and no others.
Missing, because it is false: publishers that set the flag, see the next theorem. -/
theorem C116_marked_partial (cfg : AuthConfig) (es : List Event)
    (hes : ∀ c p, Event.recv c (.publish p) ∈ es → p.dup = false) (e : Event) (q : PublishPacket)
    (h : .publish q ∈ ((Server.init.run cfg es).step cfg e).2.sent) :
    q.dup = true ↔ ∃ c p uuid, e = .first c (.connect p) uuid true := by
  cases e with
  | first c p uuid w =>
    refine iff_of_true ?_ ?_
    all_goals
      simp only [Server.step] at h
      split at h
      · simp at h
      · cases p with
        | connect p =>
          simp only [Server.connect] at h
          split at h
          · simp [refusal] at h
          · cases w with
            | false => simp [Server.start] at h
            | true =>
              first
                | exact ⟨c, p, uuid, rfl⟩
                | (obtain ⟨ack, hack⟩ := start_sent (Server.init.run cfg es) c p uuid
                   rw [hack] at h
                   simp only [List.mem_cons, reduceCtorEq, List.mem_map, false_or] at h
                   obtain ⟨i, _, e⟩ := h
                   simp only [retryPacket, Packet.publish.injEq] at e
                   subst e; rfl)
        | _ => simp at h
  | recv c p => exact absurd h (recv_no_publish cfg _ c p q)
  | deliver c f =>
    obtain ⟨t, m, h1, _, _, h3⟩ := deliver_sent ⟨es, rfl⟩ c f _ h
    obtain ⟨src, hs⟩ := publications_mem h1
    simp only [forwarded, Packet.publish.injEq] at h3
    subst h3
    have := publish_dup cfg es hes src t m hs
    simp [this]
  | close c =>
    simp only [Server.step, onConn] at h
    split at h
    · simp at h
    · split at h <;> simp at h
  | abort c => simp [Server.step] at h
  | restart => simp [Server.step] at h

/-- C116 is false if a publisher sets the flag, always: a client subscribes to a filter which matches no retained
message, another client publishes a message with the duplicate flag to a topic it matches (because it sends it a second time, the
first one having been lost), and the server sends it to the subscriber.  Although it is sent there for the first
time, it is marked as a duplicate. -/
theorem C116_passed_on_false (cfg : AuthConfig) (srv : Server) (hr : srv.Reachable cfg) (c : Nat)
    (hopen : srv.isOpen c) (p : SubscribePacket) (f : Str) (hf : f ∈ p.payload.map (·.topicFilter))
    (hvf : ValidFilter f)
    (hret : ∀ t, Matches f t → retainedOf t (Call.publications srv.world.log) = none)
    (d : Nat) (q : PublishPacket) (hq : Accepted (.publish q)) (hm : Matches f q.topicName) (hdup : q.dup = true) :
    let srv1 := (srv.step cfg (.recv c (.subscribe p))).1
    let es : List Event := [.recv d (.publish q), .deliver c f]
    srv1.isOpen d → CalmRun cfg c f srv1 es →
    ∃ x : PublishPacket, srv1.delivered cfg c f es = [.publish x] ∧ x.payload = q.payload ∧ x.dup = true := by
  intro srv1 es hd hc
  have hi : Inv srv1 := hr.inv.step cfg _
  obtain ⟨_, _, h3⟩ := recv_publish cfg hi hd hq
  have h4 : published cfg srv1 es = [(q.topicName, Session.messageOf q)] := by
    show published cfg srv1 [_, _] = _
    rw [published_cons, h3, published_one]; rfl
  obtain ⟨topics, _, t2, t3⟩ := C112_newest_sixteen cfg srv hr c hopen p f hf hvf es hc
    (by intro x hx; rw [h4] at hx; simp only [List.mem_singleton] at hx; subst hx; exact hq.1)
  have hnil : topics = [] := by
    cases topics with
    | nil => rfl
    | cons t ts =>
      obtain ⟨g1, g2⟩ := (t2 t).mp (by simp)
      rw [hret t g1] at g2; simp at g2
  subst hnil
  refine ⟨⟨q.dup, q.qos, false, f, q.packetId, none, q.payload⟩, ?_, rfl, hdup⟩
  rw [t3]
  have h5 : matching f (published cfg srv1 [.recv d (.publish q)]) = [Session.messageOf q] := by
    rw [h3]; simp [matching, hm]
  have h6 : ∀ srv2 : Server, matching f (published cfg srv2 [.deliver c f]) = [] := by
    intro srv2; rw [published_one]; rfl
  show List.map (forwarded f) (drawn cfg c f srv1 ⟨[], []⟩ [_, _]) = _
  simp only [drawn, h5, h6, reduceCtorEq, if_false, if_true]
  rfl

/-- A message with the duplicate flag, sent to the subscriber for the first time. -/
example :
    let q : PublishPacket := { dup := true, qos := .atLeastOnce, topicName := str "a/b", packetId := some 1 }
    let es : List Event := [.recv 1 (.publish q), .deliver 0 (str "a/+")]
    exListening.isOpen 1 ∧ CalmRun exCfg 0 (str "a/+") exListening es ∧
    (∀ x ∈ Call.publications twoClients.world.log, x.2.retain = false) ∧
    exListening.delivered exCfg 0 (str "a/+") es =
      [.publish { dup := true, qos := .atLeastOnce, topicName := str "a/+", packetId := some 1 }] := by
  exact ⟨by rw [isOpen_iff]; decide +kernel, calmB_sound _ _ _ _ _ (by decide +kernel), by decide +kernel,
    by decide +kernel⟩

/-- No publisher sets the flag; what is sent again is marked, what is sent for the first time is not. -/
example : (∀ e ∈ exRestart, ∀ c p, e = Event.recv c (.publish p) → p.dup = false) ∧
    ((Server.init.run exCfg exRestart).step exCfg
      (.first 3 (.connect (exConnect (str "x") false)) (str "w") true)).2.sent.drop 1 =
      [.publish ⟨true, .exactlyOnce, false, str "a/+", some 7, none, some (str "22")⟩] ∧
    ((Server.init.run exCfg (exRestart.take 3)).step exCfg (.deliver 0 (str "a/+"))).2.sent =
      [.publish ⟨false, .exactlyOnce, false, str "a/+", some 7, none, some (str "22")⟩] := by
  refine ⟨?_, by decide +kernel, by decide +kernel⟩
  intro e he c p h
  subst h
  simp only [exRestart, List.mem_cons, reduceCtorEq, Event.recv.injEq, Packet.publish.injEq, List.not_mem_nil] at he
  obtain ⟨_, rfl⟩ : c = 0 ∧ p = exPublish := by simpa using he
  rfl

end Mercurio
