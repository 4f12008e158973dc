import Verif.Props.V3
import Verif.Props.Inflight

/-!
# C87: packet identifiers of the messages the server sends
-/

namespace Mercurio

open Spec Server

/-- A PUBLISH has a packet identifier exactly if its QoS is 1 or 2. -/
def Spec.WellNumbered (p : PublishPacket) : Prop := p.packetId.isSome ↔ p.qos ≠ .atMostOnce

/-! ## Lemmas -/

theorem publish_origin (cfg : AuthConfig) (es : List Event)
    (hes : ∀ c p, Event.recv c (.publish p) ∈ es → WellNumbered p) :
    ∀ src t m, Call.publish src t m ∈ (Server.init.run cfg es).world.log →
      (∀ c, src = .client c → (m.packetId.isSome ↔ m.qos ≠ .atMostOnce)) ∧
      (∀ c, src = .will c → m.packetId = none) := by
  induction es using snoc_induction with
  | h0 => intro src t m h; cases h
  | hs l a ih =>
    intro src t m h
    rw [run_snoc, step_log, List.mem_append] at h
    rcases h with h | h
    · exact ih (fun c p hp => hes c p (by simp [hp])) src t m h
    · have hwill : ∀ c s, Call.publish src t m ∈ willCalls c s →
          (∀ c, src = .client c → (m.packetId.isSome ↔ m.qos ≠ .atMostOnce)) ∧
          (∀ c, src = .will c → m.packetId = none) := by
        intro c s hw
        unfold willCalls at hw
        cases hs : s.will with
        | none => rw [hs] at hw; cases hw
        | some w =>
          rw [hs] at hw
          simp only [List.mem_singleton, Call.publish.injEq] at hw
          obtain ⟨rfl, _, rfl⟩ := hw
          exact ⟨fun c h => (by cases h), fun _ _ => rfl⟩
      cases a with
      | first c p uuid w =>
        simp only [eventCalls] at h
        split at h
        · split at h
          · simp at h
          · cases h
        · cases h
      | recv c p =>
        simp only [eventCalls] at h
        split at h
        · cases h
        · rename_i s hs
          rw [List.mem_append] at h
          rcases h with h | h
          · cases p with
            | publish p =>
              simp only [packetCalls] at h
              split at h
              · simp only [List.mem_singleton, Call.publish.injEq] at h
                obtain ⟨rfl, _, rfl⟩ := h
                exact ⟨fun _ _ => hes c p (by simp), fun c h => (by cases h)⟩
              · cases h
            | subscribe p => simp [packetCalls] at h
            | _ => cases h
          · split at h
            · cases h
            · exact hwill _ _ h
      | deliver c f => cases h
      | close c =>
        simp only [eventCalls] at h
        split at h
        · cases h
        · exact hwill _ _ h
      | abort c => cases h
      | restart => simp [eventCalls] at h

theorem publications_mem {log : List Call} {t : Str} {m : Message} (h : (t, m) ∈ Call.publications log) :
    ∃ src, Call.publish src t m ∈ log := by
  induction log with
  | nil => cases h
  | cons a log ih =>
    cases a with
    | publish src t' m' =>
      rcases List.mem_cons.mp h with h | h
      · cases h; exact ⟨src, by simp⟩
      · obtain ⟨s, hs⟩ := ih h; exact ⟨s, List.mem_cons_of_mem _ hs⟩
    | subscribe f => obtain ⟨s, hs⟩ := ih h; exact ⟨s, List.mem_cons_of_mem _ hs⟩
    | restart => obtain ⟨s, hs⟩ := ih h; exact ⟨s, List.mem_cons_of_mem _ hs⟩

/-! ## The theorems -/

/-- C87 (partial): in every history in which the clients' PUBLISH packets have an identifier exactly if
their QoS is 1 or 2, so has every PUBLISH the server forwards, unless it is the will of a client; a will is
always sent without one.  Missing, because false: wills, and that identifiers in use are distinct. -/
theorem C87_numbered_partial (cfg : AuthConfig) (es : List Event)
    (hes : ∀ c p, Event.recv c (.publish p) ∈ es → WellNumbered p) (c : Nat) (f : Str) (p : Packet)
    (h : p ∈ ((Server.init.run cfg es).step cfg (.deliver c f)).2.sent) :
    ∃ src t m q, Call.publish src t m ∈ (Server.init.run cfg es).world.log ∧ Matches f t ∧
      p = .publish q ∧ q.payload = m.payload ∧
      (∀ k, src = .client k → WellNumbered q) ∧ (∀ k, src = .will k → q.packetId = none) := by
  obtain ⟨t, m, h1, h2, _, h3⟩ := deliver_sent ⟨es, rfl⟩ c f p h
  obtain ⟨src, hs⟩ := publications_mem h1
  obtain ⟨g1, g2⟩ := publish_origin cfg es hes src t m hs
  exact ⟨src, t, m, _, hs, h2, h3, rfl, g1, g2⟩

/-- C87 is false for wills with QoS 1 or 2, always: what a subscriber is sent for one (to any filter, of any
payload) cannot be read as a PUBLISH with that payload, whatever follows it. -/
theorem C87_will_unreadable_false (f : Str) (hf : TextField f) (w : StoredWill)
    (hq : w.qos = .atLeastOnce ∨ w.qos = .exactlyOnce) (hl : f.length + w.payload.length + 3 < 2 ^ 28) :
    ∃ bytes, (forwarded f ⟨none, w.topic, false, w.qos, w.retain, some w.payload⟩).encode = .ok bytes ∧
      ∀ (m : Mode) (v : ProtocolVersion) (rest : Buf),
        ¬ ∃ q r, parseWithVersion m v (bytes ++ rest) = .ok (.publish q, r) ∧ q.payload = some w.payload := by
  let x : PublishPacket := ⟨false, w.qos, false, f, none, none, some w.payload⟩
  obtain ⟨bytes, hb⟩ : ∃ b, x.encode = .ok b := ⟨_, rfl⟩
  refine ⟨bytes, hb, ?_⟩
  rintro m v rest ⟨p, r, hp, hpl⟩
  have hbody : x.body = encodeStr f ++ (0 :: w.payload) := by
    simp [PublishPacket.body, x, encodeOpt, optProps]
    rfl
  have hlen : x.body.length = binSize f + 1 + w.payload.length := by
    rw [hbody]; simp [binSize, encodeStr_length]; omega
  have hbin : binSize f = f.length + 2 := by simp [binSize]
  rw [PublishPacket.encode_inv hb, frame_eq rfl (by omega)] at hp
  obtain ⟨_, hqos, _, hk, _⟩ := publish_header x (by show w.qos ≠ .invalid; rcases hq with h | h <;> rw [h] <;> simp)
  have hp' := (parse_publish m v x.header hk _).symm.trans hp
  obtain ⟨p', r', hd, hd'⟩ := Dec.bind_inv hp'
  cases hd'
  rw [decodePublish_def] at hd
  obtain ⟨c, b1, h1, g1⟩ := Dec.bind_inv hd
  cases h1
  obtain ⟨n, b2, h2, g2⟩ := Dec.bind_inv g1
  have hv := decodeVbi_encode m x.body.length (by omega) (x.body ++ rest)
  rw [encodeVbi_eq_vbi (by omega), ← List.append_assoc] at hv
  cases hv.symm.trans h2
  obtain ⟨t, b3, h3, g3⟩ := Dec.bind_inv g2
  rw [hbody, List.append_assoc, decodeStr_text hf] at h3
  cases h3
  obtain ⟨id', b4, h4, g4⟩ := Dec.bind_inv g3
  obtain ⟨q, b5, h5, g5⟩ := Dec.bind_inv g4
  obtain ⟨bs, b6, h6, g6⟩ := Dec.bind_inv g5
  obtain ⟨hbs, rfl⟩ := liftRes_inv h6
  obtain ⟨k, b7, h7, g7⟩ := Dec.bind_inv g6
  obtain ⟨hk7, rfl⟩ := liftRes_inv h7
  obtain ⟨bs', hbs', hb1, hb2⟩ := publishProps_bounds h5
  rw [hbs'] at hbs
  cases hbs
  have hid : ∃ i, id' = some i := by
    rw [hqos] at h4
    rcases hq with h | h
    · rw [show x.qos = .atLeastOnce from h] at h4
      obtain ⟨i, _, _, h5⟩ := Dec.bind_inv h4
      cases h5; exact ⟨i, rfl⟩
    · rw [show x.qos = .exactlyOnce from h] at h4
      obtain ⟨i, _, _, h5⟩ := Dec.bind_inv h4
      cases h5; exact ⟨i, rfl⟩
  obtain ⟨i, rfl⟩ := hid
  simp only [Dec.of_apply] at g7
  split at g7
  · cases g7
  · rename_i hlen'
    cases g7
    simp only [Option.some.injEq] at hpl
    have hpl' : w.payload.length = k := by
      rw [← hpl, List.length_take]; omega
    simp only [optSize] at hk7
    unfold usizeSub at hk7
    split at hk7
    · cases hk7; omega
    · cases m with
      | debug => cases hk7
      | release => cases hk7; omega

/-- C87 is false for messages in flight: identifiers are those of the publishers, so a message may come under
the identifier of one the client has not acknowledged yet; then, in any state, the older one is
forgotten. -/
theorem C87_replaced_false (cfg : AuthConfig) (srv : Server) (c : Nat) (f cid : Str) (id : UInt16)
    (old : Inflight) (_hold : srv.store.getInflight cid id = some old) (hc : srv.nameOf c = some cid)
    (q : PublishPacket) (hs : (srv.step cfg (.deliver c f)).2.sent = [.publish q])
    (hid : q.packetId = some id) (hq : q.qos = .atLeastOnce ∨ q.qos = .exactlyOnce) :
    (srv.step cfg (.deliver c f)).1.store.getInflight cid id =
      some ⟨id, q.topicName, q.payload, q.qos, q.dup⟩ := by
  rw [step_inflight]
  simp only [inflightAfter, hs]
  have : recordOf id (.publish q) = some ⟨id, q.topicName, q.payload, q.qos, q.dup⟩ := by
    simp [recordOf, hid, hq]
  rw [this, if_pos ⟨hc, rfl⟩]

/-- Two publishers use identifier 5; client `s` is sent both messages and acknowledges neither. -/
def exCollision : List Event :=
  let p (b : UInt8) : PublishPacket :=
    { topicName := str "t", qos := .atLeastOnce, packetId := some 5, payload := some [b] }
  let con (id : Str) : Packet := .connect
    { protocolVersion := .v5, flags := {}, keepalive := 60, properties := none, payload := { clientId := id } }
  [.first 0 (con (str "s")) [] true, .first 1 (con (str "p")) [] true, .first 2 (con (str "q")) [] true,
   .recv 0 (.subscribe ⟨1, none, [⟨str "t", {}⟩]⟩), .recv 1 (.publish (p 1)), .recv 2 (.publish (p 2)),
   .deliver 0 (str "t")]

/-- C87 is false: this history and one more event use one identifier for two messages that are both
unacknowledged, and after a restart only the second one is sent again, although all PUBLISH packets have
identifiers as they should. -/
theorem C87_collision_false :
    (∀ c p, Event.recv c (.publish p) ∈ exCollision → WellNumbered p) ∧
    let srv := Server.init.run {} exCollision
    srv.store.getInflight (str "s") 5 = some ⟨5, str "t", some [1], .atLeastOnce, false⟩ ∧
    srv.nameOf 0 = some (str "s") ∧
    (srv.step {} (.deliver 0 (str "t"))).2.sent =
      [.publish { topicName := str "t", qos := .atLeastOnce, packetId := some 5, payload := some [2] }] ∧
    ((((srv.step {} (.deliver 0 (str "t"))).1.step {} .restart).1.step {} (.first 0 (.connect
        { protocolVersion := .v5, flags := {}, keepalive := 60, properties := none, payload := { clientId := str "s" } })
        [] true)).2.sent.drop 1 =
      [.publish { dup := true, topicName := str "t", qos := .atLeastOnce, packetId := some 5, payload := some [2] }]) := by
  refine ⟨?_, by decide +kernel, by decide +kernel, by decide +kernel, by decide +kernel⟩
  intro c p h
  simp only [exCollision, List.mem_cons, reduceCtorEq, Event.recv.injEq, Packet.publish.injEq, false_or,
    List.not_mem_nil, or_false, and_false] at h
  rcases h with ⟨_, rfl⟩ | ⟨_, rfl⟩ <;> simp [WellNumbered]

/-- A case for `C87_will_unreadable_false`: the will "bye" with QoS 1, sent to a subscriber of "gone". A reader
takes what is sent for the beginning of a longer packet. -/
example : TextField (str "gone") ∧
    (forwarded (str "gone") (willMessage ⟨str "gone", str "bye", .atLeastOnce, false⟩)).encode =
      .ok [0x32, 10, 0, 4, 0x67, 0x6f, 0x6e, 0x65, 0, 0x62, 0x79, 0x65] ∧
    parse .release [0x32, 10, 0, 4, 0x67, 0x6f, 0x6e, 0x65, 0, 0x62, 0x79, 0x65] =
      .err .incomplete := by
  refine ⟨by decide +kernel, by decide +kernel, by decide +kernel⟩

/-- A case for `C87_numbered_partial`. -/
example : (((Server.init.run {} exCollision).step {} (.deliver 0 (str "t"))).2.sent).length = 1 := by
  decide +kernel

end Mercurio
