import Verif.Lemmas.Tame
import Verif.Props.Client
import Verif.Props.Delivery

/-!
# Packets of ordinary size can be encoded

and what a server with ordinary clients sends survives the way to the client.
-/

namespace Mercurio

open Spec Server

/-- The packet can be encoded and is within MQTT's size limit. -/
def Fits (p : Packet) : Prop := ∃ b, p.encode = .ok b ∧ FitsMqtt b

/-- The packet can be sent to a client of version `v`. -/
def OkTo (v : ProtocolVersion) (p : Packet) : Prop := p.SurvivesTo v ∧ Fits p

theorem encodeBlock_nil : (encodeBlock []).length = 1 := by decide

theorem fits_publish (p : PublishPacket) (hp : p.properties = none)
    (hl : p.topicName.length + (p.payload.getD []).length + 10 ≤ 2 ^ 28) : Fits (.publish p) := by
  have h1 : optProps PublishProperties.toProps p.properties = [] := by rw [hp]; rfl
  obtain ⟨b, hb⟩ : ∃ b, (Packet.publish p).encode = .ok b := by
    simp only [Packet.encode, PublishPacket.encode_def, h1, blockSize_nil]
    exact ⟨_, rfl⟩
  refine ⟨b, hb, ?_⟩
  rw [PublishPacket.encode_inv hb]
  apply fits_frame
  have e1 : (encodeOpt encodeU16 p.packetId).length ≤ 2 := by
    rw [encodeOpt_length _ (fun _ => 2) encodeU16_length]
    cases p.packetId <;> simp [optSize]
  have e2 : (encodeOpt (fun b => b) p.payload).length = (p.payload.getD []).length := by
    cases p.payload <;> rfl
  simp only [PublishPacket.body, List.length_append, str_len, h1, encodeBlock_nil, e2]
  omega

theorem fits_ack (f : AckPacket → Packet) (h : UInt8) (hf : ∀ p, (f p).encode = p.encode h) (id : UInt16) :
    Fits (f { packetId := id }) := by
  refine ⟨frame h 2 (encodeU16 id), by rw [hf]; rfl, ?_⟩
  have := fits_frame h (encodeU16 id) (by rw [encodeU16_length]; decide)
  rwa [encodeU16_length] at this

theorem fits_subAck (p : SubAckPacket) (hp : p.properties = none) (hl : p.payload.length + 4 < 2 ^ 28) :
    Fits (.subAck p) := by
  have h1 : optProps AckProperties.toProps p.properties = [] := by rw [hp]; rfl
  obtain ⟨b, hb⟩ : ∃ b, (Packet.subAck p).encode = .ok b := by
    simp only [Packet.encode, SubAckPacket.encode_def, h1, blockSize_nil]
    cases p.protocolVersion.supportsProperties <;> exact ⟨_, rfl⟩
  refine ⟨b, hb, ?_⟩
  rw [SubAckPacket.encode_inv hb]
  apply fits_frame
  have e := ite_length_le (c := p.protocolVersion.supportsProperties) (x := encodeBlock []) (k := 1)
    (by decide)
  simp only [SubAckPacket.body, List.length_append, encodeU16_length, h1, flatMap_reason_length]
  omega

theorem fits_unsubAck (p : UnsubAckPacket) (hp : p.properties = none)
    (hl : p.payload.length + 4 < 2 ^ 28) : Fits (.unsubAck p) := by
  have h1 : optProps AckProperties.toProps p.properties = [] := by rw [hp]; rfl
  obtain ⟨b, hb⟩ : ∃ b, (Packet.unsubAck p).encode = .ok b := by
    simp only [Packet.encode, UnsubAckPacket.encode_def, h1, blockSize_nil]
    cases p.protocolVersion.supportsProperties <;> exact ⟨_, rfl⟩
  refine ⟨b, hb, ?_⟩
  rw [UnsubAckPacket.encode_inv hb]
  apply fits_frame
  simp only [UnsubAckPacket.body, h1, List.length_append, encodeU16_length]
  split
  · simp only [List.length_append, encodeBlock_nil, flatMap_reason_length]; omega
  · simp

theorem fits_connAck (p : ConnAckPacket) (hp : p.properties = none ∨
    ∃ uuid, p.properties = some { assignedClientId := some uuid } ∧ uuid.length ≤ 65535) :
    Fits (.connAck p) := by
  have hx : ∃ x : List Property, optProps ConnAckProperties.toProps p.properties = x ∧
      ((∃ n, blockSize x = .ok n)) ∧ (encodeBlock x).length ≤ 65600 := by
    rcases hp with hp | ⟨uuid, hp, hl⟩
    · exact ⟨[], by rw [hp]; rfl, ⟨1, blockSize_nil⟩, by decide⟩
    · have hs : propsSize [Property.assignedClientIdentifier uuid] = uuid.length + 3 := by
        have h1 : Property.vbiLen (Property.assignedClientIdentifier uuid).id = 1 := rfl
        have h2 : (Property.assignedClientIdentifier uuid).valueSize = uuid.length + 2 := rfl
        simp [propsSize, Property.size, h1, h2]
        omega
      refine ⟨[.assignedClientIdentifier uuid], by rw [hp]; rfl, ?_, ?_⟩
      · exact ⟨_, blockSize_ok (by rfl) (by rw [hs]; omega)⟩
      · have hv := encodeVbi_length_le (n := uuid.length + 3) (by omega)
        have hsz := propsSize_eq [Property.assignedClientIdentifier uuid] (by rfl)
        rw [encodeBlock, List.length_append, ← hsz, hs, Nat.mod_eq_of_lt (by omega)]
        omega
  obtain ⟨x, h1, ⟨n, hn⟩, h3⟩ := hx
  obtain ⟨b, hb⟩ : ∃ b, (Packet.connAck p).encode = .ok b := by
    simp only [Packet.encode, ConnAckPacket.encode_def, h1, hn]
    cases p.protocolVersion.supportsProperties <;> exact ⟨_, rfl⟩
  refine ⟨b, hb, ?_⟩
  rw [ConnAckPacket.encode_inv hb]
  apply fits_frame
  simp only [ConnAckPacket.body, h1]
  split <;> simp only [List.length_append, List.length_cons, List.length_nil, encodeReason_length] <;> omega

/-! ## What a server with ordinary clients sends -/

theorem okTo_publish (v : ProtocolVersion) (p : PublishPacket) (hp : p.properties = none)
    (ht : TextField p.topicName) (hq : p.qos ≠ .invalid) (hi : p.packetId.isSome ↔ p.qos ≠ .atMostOnce)
    (hl : (p.payload.getD []).length + 65545 ≤ 2 ^ 28) : OkTo v (.publish p) :=
  ⟨⟨ht, hq, hi, by rw [hp]; simp⟩, fits_publish p hp (by have := ht.2; omega)⟩

theorem okTo_connAck (v : ProtocolVersion) (p : ConnAckPacket) (hv : p.protocolVersion = v)
    (hp : p.properties = none ∨
      ∃ uuid, p.properties = some { assignedClientId := some uuid } ∧ TextField uuid) :
    OkTo v (.connAck p) := by
  refine ⟨⟨by rw [hv], fun _ q hq => ?_⟩, fits_connAck p ?_⟩
  · rcases hp with hp | ⟨uuid, hp, hu⟩
    · rw [hp] at hq; cases hq
    · rw [hp] at hq; cases hq
      refine ⟨fun x hx => (by cases hx; exact hu), ?_, ?_, ?_, ?_, ?_, ?_⟩ <;> (intro x hx; cases hx)
  · rcases hp with hp | ⟨uuid, hp, hu⟩
    · exact Or.inl hp
    · exact Or.inr ⟨uuid, hp, hu.2⟩

theorem begin_connAck (s : Session) (uuid : Str) (resume : Bool) :
    (s.begin uuid resume).2.protocolVersion = s.connect.protocolVersion ∧
    ((s.begin uuid resume).2.properties = none ∨
      (s.begin uuid resume).2.properties = some { assignedClientId := some uuid }) := by
  unfold Session.begin
  split
  · refine ⟨rfl, ?_⟩
    simp only
    split
    · exact Or.inr rfl
    · exact Or.inl rfl
  · exact ⟨rfl, Or.inl rfl⟩

theorem enter_connect {srv : Server} (p : ConnectPacket) :
    ((srv.discard p.payload.clientId p.flags.cleanStart).enter p).2.2.connect = p := by
  obtain ⟨_, _, _, _, h5⟩ := enter_discard srv p
  rcases h5 with ⟨_, _, ⟨s, hs, e⟩, _, _⟩ | ⟨_, _, e, _⟩
  · rw [e]; rfl
  · rw [e]; rfl

/-- What `processIncoming` answers to an ordinary packet. -/
theorem processIncoming_out {W : StoredWill → Prop} {s : Session} (w : World) (m : Option AuthManager)
    (c : Nat) {p : Packet} (hp : GoodPacket W p) (hd : ∀ d, p ≠ .disconnect d) {q : Packet}
    (h : (s.processIncoming w m c p).result = .ok (some q)) :
    OkTo s.connect.protocolVersion q ∧ ∀ x, q ≠ .publish x := by
  have ack : ∀ (f : AckPacket → Packet) (h : UInt8) (id : UInt16), (∀ p, (f p).encode = p.encode h) →
      (f { packetId := id }).SurvivesTo s.connect.protocolVersion → (∀ x, f { packetId := id } ≠ .publish x) →
      OkTo s.connect.protocolVersion (f { packetId := id }) ∧ ∀ x, f { packetId := id } ≠ .publish x :=
    fun f h id hf hs hx => ⟨⟨hs, fits_ack f h hf id⟩, hx⟩
  have adm : ∀ id : UInt16, AckPacket.Admissible { packetId := id } := fun id q hq => by cases hq
  cases p with
  | publish p =>
    simp only [Session.processIncoming, Session.handlePublish] at h
    cases hv : validatePublishTopic p.topicName with
    | error e => rw [hv] at h; cases h
    | ok u =>
      rw [hv] at h
      simp only [Session.publishResponse] at h
      split at h
      · cases h
      · cases h; exact ack .pubAck _ _ (fun _ => rfl) (adm _) (by simp)
      · cases h; exact ack .pubRec _ _ (fun _ => rfl) (adm _) (by simp)
      · cases h
  | pubAck p => cases h
  | pubRec p => cases h; exact ack .pubRel _ _ (fun _ => rfl) (adm _) (by simp)
  | pubRel p => cases h; exact ack .pubComp _ _ (fun _ => rfl) (adm _) (by simp)
  | pubComp p => cases h
  | subscribe p =>
    cases h
    have hlen : ∀ (fs : List Str) (s : Session) (w : World), (s.subscribeLoop w fs).2.2.length = fs.length := by
      intro fs
      induction fs with
      | nil => intro s w; rfl
      | cons f fs ih =>
        intro s w
        unfold Session.subscribeLoop
        split <;> simp [ih]
    have hl := hlen (p.payload.map (·.topicFilter)) s w
    rw [List.length_map] at hl
    refine ⟨⟨⟨Iff.rfl, fun _ => ⟨fun q hq => (by cases hq), ?_⟩⟩, fits_subAck _ rfl ?_⟩, by simp⟩
    · intro he
      rw [List.eq_nil_iff_length_eq_zero] at he
      have : p.payload.length = 0 := by rw [← hl]; exact he
      exact hp.1 (List.eq_nil_iff_length_eq_zero.mpr this)
    · have := hp.2.2
      show (s.subscribeLoop w (p.payload.map (·.topicFilter))).2.2.length + 4 < _
      omega
  | unsubscribe p =>
    cases h
    have hlen : ∀ (fs : List Str) (m : Map Str SubStream), (Session.unsubscribeLoop m fs).2.length = fs.length := by
      intro fs
      induction fs with
      | nil => intro m; rfl
      | cons f fs ih => intro m; simp [Session.unsubscribeLoop, ih]
    have hl := hlen p.payload s.subscriptions
    refine ⟨⟨⟨Iff.rfl, fun _ => ⟨fun q hq => (by cases hq), ?_⟩⟩, fits_unsubAck _ rfl ?_⟩, by simp⟩
    · intro he
      rw [List.eq_nil_iff_length_eq_zero] at he
      have : p.payload.length = 0 := by rw [← hl]; exact he
      exact hp.1 (List.eq_nil_iff_length_eq_zero.mpr this)
    · have := hp.2
      show (Session.unsubscribeLoop s.subscriptions p.payload).2.length + 4 < _
      omega
  | pingReq => cases h; exact ⟨⟨trivial, [0xd0, 0], by decide, by unfold FitsMqtt; decide⟩, by simp⟩
  | disconnect p => exact absurd rfl (hd p)
  | auth p => exact hp.elim
  | connect p => cases h
  | connAck p => cases h
  | subAck p => cases h
  | unsubAck p => cases h
  | pingResp => cases h

/-- Answers of a server with ordinary clients to a packet of an open connection. -/
theorem recv_out {W : StoredWill → Prop} (cfg : AuthConfig) {srv : Server} {c : Nat} {s : Session} {p : Packet}
    (hs : srv.at c = some s) (he : GoodPacket W p) :
    ∀ q ∈ (srv.step cfg (.recv c p)).2.sent, OkTo s.connect.protocolVersion q ∧ ∀ x, q ≠ .publish x := by
  by_cases hd : ∃ d, p = .disconnect d
  · obtain ⟨d, rfl⟩ := hd
    obtain ⟨k, hk, hs, e⟩ := step_disconnect (cfg := cfg) (d := d) hs
    rw [e]; simp
  · obtain ⟨k, hk, hs, e⟩ := step_recv (cfg := cfg) (p := p) hs (fun d he => hd ⟨d, he⟩)
    rw [e]
    intro q hq
    cases hr : (s.processIncoming srv.world cfg.manager c p).result with
    | error err => rw [hr] at hq; simp at hq
    | ok res =>
      rw [hr] at hq
      cases res with
      | none => simp at hq
      | some x =>
        simp only [Option.toList_some, List.mem_singleton] at hq
        subst hq
        exact processIncoming_out srv.world cfg.manager c he (fun d he => hd ⟨d, he⟩) hr

/-- Messages a server with ordinary clients sends on. -/
theorem deliver_out {W : StoredWill → Prop} (cfg : AuthConfig) {srv : Server} (hr : srv.Reachable cfg)
    (h : Tame W srv) (c : Nat) (f : Str) (v : ProtocolVersion) :
    ∀ q ∈ (srv.step cfg (.deliver c f)).2.sent, OkTo v q := by
  intro q hq
  obtain ⟨t, m, h1, h2, h3, rfl⟩ := deliver_sent hr c f q hq
  have hg := (h.log _ h1).1
  refine okTo_publish v _ rfl ?_ hg.qos hg.id hg.size
  cases ha : srv.at c with
  | none =>
    rw [show srv.step cfg (.deliver c f) = (srv, {}) by simp only [Server.step]; exact onConn_none ha _] at hq
    simp at hq
  | some s =>
    obtain ⟨k, hk, hs, e⟩ := onConn_at ha (fun r s => srv.deliver c r s f)
    have e' : srv.step cfg (.deliver c f) = srv.deliver c k.session s f := e
    rw [e'] at hq
    unfold Server.deliver at hq
    rcases processOutgoing_cases s srv.world.broker.tree f with
      ⟨h1, _⟩ | ⟨st, m, st', hst, hp, _⟩
    · rw [h1] at hq; simp at hq
    · exact (h.sessions _ _ hs).filters f (by rw [hst]; rfl)

/-- Answers of a server with ordinary clients to a CONNECT. -/
theorem first_out {W : StoredWill → Prop} (cfg : AuthConfig) {srv : Server} (h : Tame W srv) (c : Nat)
    (p : ConnectPacket) (uuid : Str) (hu : TextField uuid) (w : Bool) :
    ∀ q ∈ (srv.step cfg (.first c (.connect p) uuid w)).2.sent, OkTo p.protocolVersion q := by
  intro q hq
  simp only [Server.step] at hq
  split at hq
  · simp at hq
  · unfold Server.connect at hq
    split at hq
    · simp only [List.mem_singleton] at hq
      subst hq
      exact okTo_connAck _ _ rfl (Or.inl rfl)
    · unfold Server.start at hq
      cases w with
      | false => simp at hq
      | true =>
        simp only [if_true, List.mem_cons, List.mem_map] at hq
        rcases hq with rfl | ⟨i, hi, rfl⟩
        · obtain ⟨b1, b2⟩ := begin_connAck
            ((srv.discard p.payload.clientId p.flags.cleanStart).enter p).2.2 uuid
            (srv.find p.payload.clientId p.flags.cleanStart).resume
          refine okTo_connAck _ _ (by rw [b1, enter_connect]) ?_
          rcases b2 with b2 | b2
          · exact Or.inl b2
          · exact Or.inr ⟨uuid, b2, hu⟩
        · have hg := (find_tame h p.payload.clientId p.flags.cleanStart).2.2 i hi
          refine okTo_publish _ _ rfl hg.topic ?_ ?_ hg.size
          · show i.qos ≠ _
            rcases hg.qos with h | h <;> simp [h]
          · show _ ↔ i.qos ≠ _
            rcases hg.qos with h | h <;> simp [h]

end Mercurio
