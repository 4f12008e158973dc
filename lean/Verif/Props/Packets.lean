import Verif.Lemmas.Wire
import Verif.Lemmas.NoPanic

/-!
# C07 - C16, C21: properties, packets, the completeness check, version negotiation
-/

namespace Mercurio

open Spec

/-! ## C07 -/

/-- C07: a property other than Request Response Information survives the wire, and its bytes are the
ones the standard prescribes.
Missing: Request Response Information, for which the claim is false (next theorem). -/
theorem C07_property_roundtrip_partial (m : Mode) (p : Property) (hp : p.Admissible)
    (hn : ∀ v, p ≠ .requestResponseInformation v) (rest : Buf) :
    p.encode = p.wire ∧ decodeProperty m (p.encode ++ rest) = .ok (p, rest) := by
  refine ⟨p.encode_wire hp, decodeProperty_encode m p hp ?_ rest⟩
  cases p <;> first | trivial | exact absurd rfl (hn _)

/-- C07 is false for Request Response Information: whatever its value, it comes back as Request
Problem Information. -/
theorem C07_request_response_information_false (m : Mode) (v : UInt8) (rest : Buf) :
    (Property.requestResponseInformation v).encode = [0x19, v] ∧
    decodeProperty m ((Property.requestResponseInformation v).encode ++ rest) =
      .ok (.requestProblemInformation v, rest) := by
  have hw : (Property.requestResponseInformation v).encode = [0x19, v] :=
    (Property.requestResponseInformation v).encode_wire trivial
  refine ⟨hw, ?_⟩
  have h : [0x19, v] ++ rest = encodeVbi 0x19 ++ (v :: rest) := by
    rw [show encodeVbi 0x19 = [0x19] from by decide]; rfl
  rw [hw, h, decodeProperty, Dec.bind_ok (decodeVbi_encode m 0x19 (by decide) _)]
  rfl

/-- C07: an identifier outside the table of the standard is rejected as malformed. -/
theorem C07_unknown_identifier (m : Mode) (id : Nat) (hid : id < 2 ^ 28)
    (hu : id ∉ [0x01, 0x02, 0x03, 0x08, 0x09, 0x0b, 0x11, 0x12, 0x13, 0x15, 0x16, 0x17, 0x18, 0x19,
      0x1a, 0x1c, 0x1f, 0x21, 0x22, 0x23, 0x24, 0x25, 0x26, 0x27, 0x28, 0x29, 0x2a]) (rest : Buf) :
    decodeProperty m (vbi id ++ rest) = .err (.mqtt .malformedPacket) := by
  rw [← encodeVbi_eq_vbi (by omega), decodeProperty, Dec.bind_ok (decodeVbi_encode m id hid rest)]
  simp only [List.mem_cons, List.not_mem_nil, or_false, not_or] at hu
  unfold decodeWithId
  split <;> first | (exfalso; omega) | rfl

example := C07_unknown_identifier .debug 0x04 (by decide) (by decide) [1]

example : (Property.userProperty (str "k") (str "v")).Admissible
    ∧ (Property.userProperty (str "k") (str "v")).wire = [0x26, 0, 1, 107, 0, 1, 118] := by
  constructor
  · exact ⟨by decide, by decide⟩
  · decide
example : (Property.subscriptionIdentifier 300).Admissible := by
  show (300 : UInt32).toNat < 2 ^ 28
  decide

/-! ## C08 -/

/-- C08: the announced size of a property is the number of bytes it is encoded to (the announcement
aborts only for a subscription identifier of 2^28 or more). -/
theorem C08_property_size (p : Property) (hp : ∀ v, p = .subscriptionIdentifier v → v.toNat < 2 ^ 28) :
    propsSizeRes [p] = .ok p.encode.length := by
  have h : p.sizePanics = false := by
    cases p <;> simp only [Property.sizePanics]
    case subscriptionIdentifier v => have := hp v rfl; simp; omega
  simp [propsSizeRes, h, propsSize, p.size_eq h]

/-- C08: whenever a property list, a property block or a CONNECT payload announces a size, that is the
number of bytes it appends. -/
theorem C08_announced_sizes :
    (∀ (ps : List Property) (n : Nat), propsSizeRes ps = .ok n → (encodeProps ps).length = n) ∧
    (∀ (ps : List Property) (n : Nat), blockSize ps = .ok n → (encodeBlock ps).length = n) ∧
    (∀ (p : ConnectPayload) v f n, p.sizeFor v f = .ok n → (p.encodeFor v f).length = n) ∧
    (∀ x : Buf, (encodeBin x).length = binSize x) ∧ (∀ x : Str, (encodeStr x).length = binSize x) := by
  refine ⟨fun ps n h => (propsSizeRes_inv h).symm, fun ps n h => ?_, fun p v f n h => ?_,
    encodeBin_length, encodeStr_length⟩
  · exact (blockSize_inv h).2.symm
  · exact (ConnectPayload.sizeFor_inv h).symm

/-- C08: the size each kind of property record announces is the number of bytes it writes. -/
theorem C08_records :
    (∀ (q : ConnectProperties) (n : Nat), propsSizeRes q.counted = .ok n → (encodeProps q.toProps).length = n) ∧
    (∀ (q : WillProperties) (n : Nat), propsSizeRes q.counted = .ok n → (encodeProps q.toProps).length = n) ∧
    (∀ (q : ConnAckProperties) (n : Nat), propsSizeRes q.counted = .ok n → (encodeProps q.toProps).length = n) ∧
    (∀ (q : PublishProperties) (n : Nat), propsSizeRes q.counted = .ok n → (encodeProps q.toProps).length = n) ∧
    (∀ (q : AckProperties) (n : Nat), propsSizeRes q.counted = .ok n → (encodeProps q.toProps).length = n) ∧
    (∀ (q : SubscribeProperties) (n : Nat), propsSizeRes q.counted = .ok n → (encodeProps q.toProps).length = n) ∧
    (∀ (q : UnsubscribeProperties) (n : Nat), propsSizeRes q.counted = .ok n → (encodeProps q.toProps).length = n) ∧
    (∀ (q : DisconnectProperties) (n : Nat), propsSizeRes q.counted = .ok n → (encodeProps q.toProps).length = n) ∧
    (∀ (q : AuthProperties) (n : Nat), propsSizeRes q.counted = .ok n → (encodeProps q.toProps).length = n) :=
  ⟨fun _ _ h => (propsSizeRes_inv h).symm, fun _ _ h => (propsSizeRes_inv h).symm,
    fun _ _ h => (propsSizeRes_inv h).symm, fun _ _ h => (propsSizeRes_inv h).symm,
    fun _ _ h => (propsSizeRes_inv h).symm, fun _ _ h => (propsSizeRes_inv h).symm,
    fun _ _ h => (propsSizeRes_inv h).symm, fun _ _ h => (propsSizeRes_inv h).symm,
    fun _ _ h => (propsSizeRes_inv h).symm⟩

example : propsSizeRes (ConnectProperties.counted
    { userProperty := some [(str "a", str "b"), (str "c", [])], receiveMaximum := some 5 }) = .ok 16 := by
  decide

/-- C08: the announcement of a block succeeds unless the block is 2^28 bytes or more (or carries an
oversized subscription identifier). -/
theorem C08_block_announced (ps : List Property)
    (hp : ∀ v, Property.subscriptionIdentifier v ∈ ps → v.toNat < 2 ^ 28)
    (hl : (encodeProps ps).length < 2 ^ 28) : blockSize ps = .ok (encodeBlock ps).length := by
  have hnp : ps.any Property.sizePanics = false := by
    rw [List.any_eq_false]
    intro p hm
    cases p <;> simp only [Property.sizePanics, Bool.false_eq_true, not_false_eq_true]
    case subscriptionIdentifier v => have := hp v hm; simp; omega
  exact blockSize_ok hnp (by rw [propsSize_eq ps hnp]; exact hl)

example : blockSize [.reasonString (str "no"), .userProperty (str "a") (str "b")] = .ok 13 := by decide
example : propsSizeRes [.subscriptionIdentifier 128] = .ok 3 := by decide

/-! ## C09 -/

theorem Packet.header_fixed (p : Packet) (hq : ∀ q, p = .publish q → q.qos ≠ .invalid) :
    p.header.toNat = p.fixedHeader := by
  cases p <;> first | rfl | skip
  case publish p => exact (publish_header p (hq p rfl)).2.2.2.2

/-- C09: an encoded packet within the size limit is the type and flags byte of the standard, the
variable byte integer (least number of bytes) of n, and exactly n further bytes. -/
theorem C09_header_exact (p : Packet) (hq : ∀ q, p = .publish q → q.qos ≠ .invalid) (bytes : Buf)
    (he : p.encode = .ok bytes) (hf : FitsMqtt bytes) :
    ∃ first body, bytes = first :: (vbi body.length ++ body) ∧ first.toNat = p.fixedHeader
      ∧ body.length < 2 ^ 28 := by
  obtain ⟨body, hb⟩ := p.encode_frame he
  subst hb
  have h28 := frame_inj_body rfl hf
  refine ⟨p.header, body, ?_, p.header_fixed hq, h28⟩
  rw [frame, Nat.mod_eq_of_lt (by omega), encodeVbi_eq_vbi (by omega)]

/-- An outcome that is not an error. -/
structure Res.NoErr {α : Type} (x : Res α) : Prop where
  ne : ∀ e, x ≠ .err e

theorem Res.NoErr.ok {α : Type} (a : α) : Res.NoErr (.ok a) := ⟨fun _ h => by cases h⟩
theorem Res.NoErr.pure {α : Type} (a : α) : Res.NoErr (Pure.pure a : Res α) := ⟨fun _ h => by cases h⟩

theorem Res.NoErr.bind {α β : Type} {x : Res α} {f : α → Res β} (hx : x.NoErr)
    (hf : ∀ a, (f a).NoErr) : (x >>= f).NoErr := by
  refine ⟨fun e h => ?_⟩
  cases x with
  | ok a => exact (hf a).ne e h
  | err e' => exact hx.ne e' rfl
  | panic => cases h

theorem Res.NoErr.ite {α : Type} {c : Prop} [Decidable c] {x y : Res α} (hx : x.NoErr)
    (hy : y.NoErr) : (if c then x else y).NoErr := by split <;> assumption

theorem propsSizeRes_noErr (ps : List Property) : (propsSizeRes ps).NoErr := by
  refine ⟨fun e h => ?_⟩
  rw [propsSizeRes] at h
  split at h <;> cases h

theorem blockSize_noErr (ps : List Property) : (blockSize ps).NoErr := by
  rw [blockSize]
  refine Res.NoErr.bind (propsSizeRes_noErr ps) (fun n => ?_)
  refine Res.NoErr.bind ⟨fun e' h' => ?_⟩ (fun k => Res.NoErr.pure _)
  rcases Nat.lt_or_ge (n % 2 ^ 32) (2 ^ 28) with h1 | h1
  · rw [vbiSize_ok h1] at h'; cases h'
  · rw [vbiSize_panic h1] at h'; cases h'

/-- C09: an encoder never returns an error. -/
theorem C09_encode_no_error (p : Packet) (e : Err) : p.encode ≠ .err e := by
  have main : p.encode.NoErr := by
    cases p <;> simp only [Packet.encode, ConnectPacket.encode_def, ConnectPayload.sizeFor_def,
      ConnAckPacket.encode_def, PublishPacket.encode_def, AckPacket.encode_def, SubscribePacket.encode_def,
      SubAckPacket.encode_def, UnsubscribePacket.encode_def, UnsubAckPacket.encode_def, DisconnectPacket.encode_def,
      AuthPacket.encode_def, encodePing] <;>
    repeat' first
      | with_reducible exact Res.NoErr.ok _
      | with_reducible exact Res.NoErr.pure _
      | with_reducible exact blockSize_noErr _
      | with_reducible exact propsSizeRes_noErr _
      | intro _
      | with_reducible apply Res.NoErr.ite
      | with_reducible apply Res.NoErr.bind
  exact main.ne e

/-- A sample PUBLISH: QoS 1, retained, packet id 10, one user property. -/
def samplePublish : PublishPacket :=
  { qos := .atLeastOnce, retain := true, topicName := str "a/b", packetId := some 10,
    properties := some { userProperty := some [(str "k", str "v")] }, payload := some [1, 2, 3] }

example : (Packet.publish samplePublish).encode =
    .ok [0x33, 18, 0, 3, 97, 47, 98, 0, 10, 7, 0x26, 0, 1, 107, 0, 1, 118, 1, 2, 3] := by decide
example : FitsMqtt [0x33, 18, 0, 3, 97, 47, 98, 0, 10, 7, 0x26, 0, 1, 107, 0, 1, 118, 1, 2, 3] := by
  unfold FitsMqtt; decide

/-! ## C10 - C14 -/

/-- C10: a consistent and admissible CONNECT, of any protocol version and read by a peer of any
version, survives the wire. -/
theorem C10_connect_roundtrip (m : Mode) (v : ProtocolVersion) (p : ConnectPacket)
    (hc : p.Consistent) (ha : p.Admissible) (bytes rest : Buf)
    (he : (Packet.connect p).encode = .ok bytes) (hf : FitsMqtt bytes)
    (hr : (bytes ++ rest).length < 2 ^ 32) :
    parseWithVersion m v (bytes ++ rest) = .ok (.connect p.received, rest) :=
  parse_encode m v (.connect p) ⟨hc, ha⟩ trivial bytes rest he hf hr

/-- A sample CONNECT: MQTT 5, clean start, will (QoS 1), user name and password, properties. -/
def sampleConnect : ConnectPacket :=
  { protocolVersion := .v5
    flags := { userName := true, password := true, willFlag := true, willQos := .atLeastOnce,
               cleanStart := true }
    keepalive := 60
    properties := some { receiveMaximum := some 20 }
    payload := { clientId := str "c1", willProperties := some { willDelayInterval := some 5 },
                 willTopic := some (str "w"), willPayload := some [9], userName := some (str "u"),
                 password := some [1, 2] } }

example : sampleConnect.Consistent :=
  ⟨rfl, rfl, fun _ => ⟨rfl, rfl⟩, fun _ => rfl, by decide, fun h => (by cases h), rfl, rfl⟩
example : sampleConnect.Admissible where
  clientId := by decide
  willTopic := by intro s h; cases h; decide
  willPayload := by intro s h; cases h; decide
  userName := by intro s h; cases h; decide
  password := by intro s h; cases h; decide
  properties := by
    intro q h; cases h
    exact ⟨⟨fun _ h => (by cases h), fun _ h => (by cases h), fun _ h => (by cases h)⟩, rfl⟩
  willProperties := by
    intro q h; cases h
    exact ⟨fun _ h => (by cases h), fun _ h => (by cases h), fun _ h => (by cases h),
      fun _ h => (by cases h)⟩
example : ∃ bytes, (Packet.connect sampleConnect).encode = .ok bytes ∧ bytes.length = 39 := by
  refine ⟨_, rfl, ?_⟩; decide

/-- C10, MQTT 3.1.1 sample: no properties at all; it reads back as it was sent. -/
def sampleConnect3 : ConnectPacket :=
  { protocolVersion := .v3_1_1, flags := { cleanStart := true }, keepalive := 10, properties := none,
    payload := { clientId := str "x" } }

example : sampleConnect3.Consistent :=
  ⟨rfl, rfl, fun h => (by cases h), fun h => (by cases h), by decide, fun _ => rfl, rfl, rfl⟩
example : sampleConnect3.received = sampleConnect3 := rfl

/-- C11: an admissible MQTT 5 CONNACK survives the wire. -/
theorem C11_connack_roundtrip (m : Mode) (p : ConnAckPacket) (hv : p.protocolVersion = .v5)
    (ha : p.Admissible) (bytes rest : Buf)
    (he : (Packet.connAck p).encode = .ok bytes) (hf : FitsMqtt bytes)
    (hr : (bytes ++ rest).length < 2 ^ 32) :
    parseWithVersion m .v5 (bytes ++ rest) = .ok (.connAck p.received, rest) :=
  parse_encode m .v5 (.connAck p) ⟨hv, ha⟩ rfl bytes rest he hf hr

example := C11_connack_roundtrip .debug { reasonCode := .notAuthorized } rfl (fun _ h => by cases h)
  [0x20, 3, 0, 0x87, 0] [1] (by decide) (by unfold FitsMqtt; decide) (by decide)

/-- C11: a CONNACK for MQTT 3.x is four bytes with the return code of the standard and is read back, in
3.x, with the same session-present flag and the reason of that return code. -/
theorem C11_connack_v3_roundtrip (m : Mode) (p : ConnAckPacket) (hv : p.protocolVersion ≠ .v5)
    (v : ProtocolVersion) (hv' : v ≠ .v5) (rest : Buf) :
    (Packet.connAck p).encode =
      .ok [0x20, 2, if p.sessionPresent then 1 else 0, (Spec.returnCode3 p.reasonCode).2] ∧
    ∀ bytes, (Packet.connAck p).encode = .ok bytes →
      parseWithVersion m v (bytes ++ rest) =
        .ok (.connAck { protocolVersion := .v3_1_1, sessionPresent := p.sessionPresent,
                        reasonCode := (Spec.returnCode3 p.reasonCode).1, properties := none },
             rest) := by
  have hs := not_supports hv
  have h1 : (Packet.connAck p).encode =
      .ok [0x20, 2, if p.sessionPresent then 1 else 0, (Spec.returnCode3 p.reasonCode).2] := by
    simp only [Packet.encode, ConnAckPacket.encode_def, hs, Bool.false_eq_true, if_false, Res.pure_eq]
    cases p.sessionPresent <;> cases p.reasonCode <;> rfl
  refine ⟨h1, fun bytes he => ?_⟩
  have hb := ConnAckPacket.encode_inv he
  have hd := decodeConnAckV3_encode m p hv rest
  have hr : connAckReasonOfReturnCode (connAckReturnCode p.reasonCode) =
      (Spec.returnCode3 p.reasonCode).1 := by cases p.reasonCode <;> rfl
  rw [hr] at hd
  rw [hb]
  have hp : parseWithVersion m v (frame 0x20 p.body.length p.body ++ rest) =
      (do let p ← decodeConnAckV3 m; return .connAck p : Dec Packet)
        (frame 0x20 p.body.length p.body ++ rest) := by
    cases v <;> first | rfl | exact absurd rfl hv'
  rw [hp, Dec.bind_ok hd]
  rfl

example : (Packet.connAck { reasonCode := .notAuthorized }).encode = .ok [0x20, 3, 0, 0x87, 0] := by
  decide
example : (Packet.connAck { protocolVersion := .v3_1, reasonCode := .serverBusy }).encode
    = .ok [0x20, 2, 0, 3] := by decide

/-- C12: an admissible PUBLISH survives the wire. -/
theorem C12_publish_roundtrip (m : Mode) (v : ProtocolVersion) (p : PublishPacket)
    (ha : p.Admissible) (bytes rest : Buf)
    (he : (Packet.publish p).encode = .ok bytes) (hf : FitsMqtt bytes)
    (hr : (bytes ++ rest).length < 2 ^ 32) :
    parseWithVersion m v (bytes ++ rest) = .ok (.publish p.received, rest) :=
  parse_encode m v (.publish p) ha trivial bytes rest he hf hr

example : samplePublish.Admissible where
  topicName := by decide
  qos := by decide
  packetId := by simp [samplePublish]
  properties := by
    intro q h; cases h
    refine ⟨fun _ h => (by cases h), fun _ h => (by cases h), ?_, fun _ h => (by cases h),
      fun _ h => (by cases h)⟩
    intro l hl kv hkv
    cases hl
    simp at hkv
    subst hkv
    decide
example : samplePublish.received = samplePublish := rfl

/-- C13: PUBACK, PUBREC, PUBREL and PUBCOMP survive the wire. -/
theorem C13_ack_roundtrip (m : Mode) (v : ProtocolVersion) (mk : AckPacket → Packet)
    (hmk : mk = .pubAck ∨ mk = .pubRec ∨ mk = .pubRel ∨ mk = .pubComp) (p : AckPacket)
    (ha : p.Admissible) (bytes rest : Buf)
    (he : (mk p).encode = .ok bytes) (hf : FitsMqtt bytes) (hr : (bytes ++ rest).length < 2 ^ 32) :
    parseWithVersion m v (bytes ++ rest) = .ok (mk p.received, rest) := by
  rcases hmk with rfl | rfl | rfl | rfl
  · exact parse_encode m v (.pubAck p) ha trivial bytes rest he hf hr
  · exact parse_encode m v (.pubRec p) ha trivial bytes rest he hf hr
  · exact parse_encode m v (.pubRel p) ha trivial bytes rest he hf hr
  · exact parse_encode m v (.pubComp p) ha trivial bytes rest he hf hr

example := C13_ack_roundtrip .debug .v5 .pubRel (.inr (.inr (.inl rfl)))
  { packetId := 7, reason := .packetIdentifierNotFound } (fun _ h => by cases h)
  [0x62, 4, 0, 7, 0x92, 0] [1] (by decide) (by unfold FitsMqtt; decide) (by decide)

example : (Packet.pubRel { packetId := 7, reason := .packetIdentifierNotFound }).encode
    = .ok [0x62, 4, 0, 7, 0x92, 0] := by decide
example : (Packet.pubAck { packetId := 7 }).encode = .ok [0x40, 2, 0, 7] := by decide

/-- C14: a SUBSCRIBE with at least one entry survives the wire, entries in order. -/
theorem C14_subscribe_roundtrip (m : Mode) (v : ProtocolVersion) (p : SubscribePacket)
    (ha : p.Admissible) (bytes rest : Buf)
    (he : (Packet.subscribe p).encode = .ok bytes) (hf : FitsMqtt bytes)
    (hr : (bytes ++ rest).length < 2 ^ 32) :
    parseWithVersion m v (bytes ++ rest) = .ok (.subscribe p.received, rest) :=
  parse_encode m v (.subscribe p) ha trivial bytes rest he hf hr

/-- C14: so does an UNSUBSCRIBE. -/
theorem C14_unsubscribe_roundtrip (m : Mode) (v : ProtocolVersion) (p : UnsubscribePacket)
    (ha : p.Admissible) (bytes rest : Buf)
    (he : (Packet.unsubscribe p).encode = .ok bytes) (hf : FitsMqtt bytes)
    (hr : (bytes ++ rest).length < 2 ^ 32) :
    parseWithVersion m v (bytes ++ rest) = .ok (.unsubscribe p.received, rest) :=
  parse_encode m v (.unsubscribe p) ha trivial bytes rest he hf hr

example := C14_unsubscribe_roundtrip .debug .v5 { packetId := 1, payload := [str "a"] }
  ⟨fun _ h => (by cases h), by decide, by decide⟩
  [0xa2, 6, 0, 1, 0, 0, 1, 97] [1] (by decide) (by unfold FitsMqtt; decide) (by decide)

/-- C14: an MQTT 5 SUBACK survives the wire. -/
theorem C14_suback_roundtrip (m : Mode) (p : SubAckPacket) (hv : p.protocolVersion = .v5)
    (ha : p.Admissible) (bytes rest : Buf)
    (he : (Packet.subAck p).encode = .ok bytes) (hf : FitsMqtt bytes)
    (hr : (bytes ++ rest).length < 2 ^ 32) :
    parseWithVersion m .v5 (bytes ++ rest) = .ok (.subAck p.received, rest) :=
  parse_encode m .v5 (.subAck p) ⟨hv, ha⟩ rfl bytes rest he hf hr

example := C14_suback_roundtrip .debug
  { packetId := 1, payload := [.grantedQoS1, .topicFilterInvalid] } rfl
  ⟨fun _ h => (by cases h), by decide⟩
  [0x90, 5, 0, 1, 0, 1, 0x8f] [1] (by decide) (by unfold FitsMqtt; decide) (by decide)

/-- C14: an MQTT 5 UNSUBACK survives the wire. -/
theorem C14_unsuback_roundtrip (m : Mode) (p : UnsubAckPacket) (hv : p.protocolVersion = .v5)
    (ha : p.Admissible) (bytes rest : Buf)
    (he : (Packet.unsubAck p).encode = .ok bytes) (hf : FitsMqtt bytes)
    (hr : (bytes ++ rest).length < 2 ^ 32) :
    parseWithVersion m .v5 (bytes ++ rest) = .ok (.unsubAck p.received, rest) :=
  parse_encode m .v5 (.unsubAck p) ⟨hv, ha⟩ rfl bytes rest he hf hr

example := C14_unsuback_roundtrip .debug { packetId := 1, payload := [.success] } rfl
  ⟨fun _ h => (by cases h), by decide⟩
  [0xb0, 4, 0, 1, 0, 0] [1] (by decide) (by unfold FitsMqtt; decide) (by decide)

/-- C14: an MQTT 3.x SUBACK is read back, in 3.x, with the same id, one result per entry in order. -/
theorem C14_suback_v3_roundtrip (m : Mode) (p : SubAckPacket) (hv : p.protocolVersion ≠ .v5)
    (v : ProtocolVersion) (hv' : v ≠ .v5) (bytes rest : Buf)
    (he : (Packet.subAck p).encode = .ok bytes) (hf : FitsMqtt bytes) :
    parseWithVersion m v (bytes ++ rest) =
      .ok (.subAck { protocolVersion := .v3_1_1, packetId := p.packetId, properties := none,
                     payload := p.payload.map Spec.subAckRead3 }, rest) := by
  have hb := SubAckPacket.encode_inv he
  have hl : p.body.length < 2 ^ 28 := by subst hb; exact frame_inj_body rfl hf
  have hd := decodeSubAckV3_encode m p hv rest hl
  have hr : (fun r : ReasonCode => subAckReasonOfReturnCode r.code) = Spec.subAckRead3 := by
    funext r; cases r <;> rfl
  rw [hr] at hd
  rw [hb]
  have hp : parseWithVersion m v (frame 0x90 p.body.length p.body ++ rest) =
      (do let p ← decodeSubAckV3 m; return .subAck p : Dec Packet)
        (frame 0x90 p.body.length p.body ++ rest) := by
    cases v <;> first | rfl | exact absurd rfl hv'
  rw [hp, Dec.bind_ok hd]
  rfl

example := C14_suback_v3_roundtrip .debug
  { protocolVersion := .v3_1_1, packetId := 1, payload := [.grantedQoS1] } (by decide) .v3_1 (by decide)
  [0x90, 3, 0, 1, 1] [1] (by decide) (by unfold FitsMqtt; decide)

/-- C14: an MQTT 3.x UNSUBACK is read back with the same id (it carries nothing else). -/
theorem C14_unsuback_v3_roundtrip (m : Mode) (p : UnsubAckPacket) (hv : p.protocolVersion ≠ .v5)
    (v : ProtocolVersion) (hv' : v ≠ .v5) (bytes rest : Buf)
    (he : (Packet.unsubAck p).encode = .ok bytes) :
    parseWithVersion m v (bytes ++ rest) =
      .ok (.unsubAck { protocolVersion := .v3_1_1, packetId := p.packetId, properties := none,
                       payload := [] }, rest) := by
  have hb := UnsubAckPacket.encode_inv he
  have hd := decodeUnsubAckV3_encode m p hv rest
  rw [hb]
  have hp : parseWithVersion m v (frame 0xb0 p.body.length p.body ++ rest) =
      (do let p ← decodeUnsubAckV3 m; return .unsubAck p : Dec Packet)
        (frame 0xb0 p.body.length p.body ++ rest) := by
    cases v <;> first | rfl | exact absurd rfl hv'
  rw [hp, Dec.bind_ok hd]
  rfl

example := C14_unsuback_v3_roundtrip .debug
  { protocolVersion := .v3_1_1, packetId := 1, payload := [] } (by decide) .v3_1 (by decide)
  [0xb0, 2, 0, 1] [1] (by decide)

/-- A sample SUBSCRIBE with two entries. -/
def sampleSubscribe : SubscribePacket :=
  { packetId := 5, properties := some { subscriptionId := some 300 }
    payload := [{ topicFilter := str "a/+", opts := { qos := .exactlyOnce, noLocal := true } },
                { topicFilter := str "#", opts := { retainHandling := .doNotSendRetained } }] }

example : sampleSubscribe.Admissible where
  properties := by
    intro q h; cases h
    exact ⟨fun i h => (by cases h; decide), fun _ h => (by cases h)⟩
  nonEmpty := by simp [sampleSubscribe]
  entries := by
    intro e he
    simp only [sampleSubscribe, List.mem_cons, List.not_mem_nil, or_false] at he
    rcases he with rfl | rfl
    · exact ⟨by decide, by decide, by decide⟩
    · exact ⟨by decide, by decide, by decide⟩
example : (Packet.subscribe sampleSubscribe).encode =
    .ok [0x82, 16, 0, 5, 3, 0x0b, 0xac, 0x02, 0, 3, 97, 47, 43, 0x06, 0, 1, 35, 0x20] := by decide
example : (Packet.unsubscribe { packetId := 1, payload := [str "a"] }).encode =
    .ok [0xa2, 6, 0, 1, 0, 0, 1, 97] := by decide
example : (Packet.subAck { packetId := 1, payload := [.grantedQoS1, .topicFilterInvalid] }).encode =
    .ok [0x90, 5, 0, 1, 0, 1, 0x8f] := by decide
example : (Packet.subAck { protocolVersion := .v3_1_1, packetId := 1, payload := [.grantedQoS1] }).encode
    = .ok [0x90, 3, 0, 1, 1] := by decide
example : (Packet.unsubAck { packetId := 1, payload := [.success] }).encode =
    .ok [0xb0, 4, 0, 1, 0, 0] := by decide
example : (Packet.unsubAck { protocolVersion := .v3_1_1, packetId := 1, payload := [] }).encode =
    .ok [0xb0, 2, 0, 1] := by decide

/-! ## C15 -/

/-- C15: a DISCONNECT without properties survives the wire.
Missing (and false, see below): DISCONNECT with properties, AUTH, PINGREQ, PINGRESP. -/
theorem C15_disconnect_roundtrip_partial (m : Mode) (v : ProtocolVersion) (r : ReasonCode)
    (bytes rest : Buf) (he : (Packet.disconnect { reason := r }).encode = .ok bytes) :
    bytes = [0xe0, 1, UInt8.ofNat r.number] ∧
    parseWithVersion m v (bytes ++ rest) =
      .ok (.disconnect { reason := r.received, properties := none }, rest) := by
  have hb : bytes = [0xe0, 1, r.code] := by
    have h0 : (Packet.disconnect { reason := r }).encode = .ok [0xe0, 1, r.code] := by
      cases r <;> decide
    rw [h0] at he; injection he with he; exact he.symm
  refine ⟨by rw [hb]; cases r <;> rfl, ?_⟩
  subst hb
  have h := decodeDisconnect_encode m r rest
  exact (parse_disconnect m v _).trans (Dec.bind_ok h)

/-- C15 is false for the pings: their length byte stays unread, whatever follows. -/
theorem C15_ping_false (m : Mode) (v : ProtocolVersion) (rest : Buf) :
    Packet.pingReq.encode = .ok [0xc0, 0] ∧ Packet.pingResp.encode = .ok [0xd0, 0] ∧
    parseWithVersion m v ([0xc0, 0] ++ rest) = .ok (.pingReq, 0 :: rest) ∧
    parseWithVersion m v ([0xd0, 0] ++ rest) = .ok (.pingResp, 0 :: rest) :=
  ⟨by decide, by decide, rfl, rfl⟩

/-- C15 is false for every AUTH packet: none reads back as it was sent. -/
theorem C15_auth_false (m : Mode) (v : ProtocolVersion) (p : AuthPacket) (bytes : Buf)
    (he : (Packet.auth p).encode = .ok bytes) (hf : FitsMqtt bytes) :
    parseWithVersion m v bytes ≠
      .ok (.auth { reason := p.reason.received, properties := p.properties.received }, []) :=
  auth_never m v p bytes he hf

example : (Packet.auth ⟨.continueAuthentication, { authMethod := some (str "PLAIN") }⟩).encode =
    .ok [0xf0, 9, 0x18, 0x15, 0, 5, 80, 76, 65, 73, 78] := by decide

/-- C15 is false for every DISCONNECT with at least one property. -/
theorem C15_disconnect_properties_false (m : Mode) (v : ProtocolVersion) (p : DisconnectPacket)
    (bytes : Buf) (he : (Packet.disconnect p).encode = .ok bytes) (hf : FitsMqtt bytes)
    (q : DisconnectProperties) (hq : p.properties = some q) (hne : q.received ≠ {}) :
    parseWithVersion m v bytes ≠
      .ok (.disconnect { reason := p.reason.received, properties := some q.received }, []) :=
  disconnect_never m v p bytes he hf q hq hne

example := C15_disconnect_properties_false .debug .v5
  { reason := .success, properties := some { sessionExpiryInterval := some 60 } } _
  rfl (by unfold FitsMqtt; decide) { sessionExpiryInterval := some 60 } rfl (by decide)

/-- The same, on a concrete packet: a DISCONNECT with a session expiry interval is refused. -/
theorem C15_disconnect_expiry_false :
    ∃ p : DisconnectPacket, ∃ bytes, (Packet.disconnect p).encode = .ok bytes ∧
      p.properties = some { sessionExpiryInterval := some 60 } ∧
      ∀ m v, parseWithVersion m v bytes = .err .incomplete := by
  refine ⟨{ reason := .success, properties := some { sessionExpiryInterval := some 60 } }, _, rfl, rfl,
    ?_⟩
  intro m v
  cases m <;> cases v <;> decide

/-! ## C16 -/

/-- C16: the completeness check answers "incomplete" for every strict prefix of an encoded packet and
"complete" for the packet followed by anything. -/
theorem C16_check_exact (m : Mode) (p : Packet) (bytes : Buf) (he : p.encode = .ok bytes)
    (hf : FitsMqtt bytes) :
    (∀ k, k < bytes.length → check m (bytes.take k) = .err .incomplete) ∧
    (∀ rest, check m (bytes ++ rest) = .ok ()) := by
  obtain ⟨body, rfl⟩ := p.encode_frame he
  have h28 := frame_inj_body rfl hf
  exact ⟨fun k hk => check_frame_take m _ _ h28 k hk, fun rest => check_frame m _ _ _ h28⟩

/-- C16, for arbitrary bytes behind a length field in its shortest form: the check accepts exactly if
the announced number of bytes is there. -/
theorem C16_check_any_bytes (h : UInt8) (n : Nat) (hn : n < 2 ^ 28) (m : Mode) (tail : Buf) :
    check m (h :: (vbi n ++ tail)) = .ok () ↔ n ≤ tail.length := by
  rw [← encodeVbi_eq_vbi (by omega), check_of_vbi m h n hn]
  split <;> simp_all

example : check .debug [0x40, 2, 0] = .err .incomplete ∧ check .debug [0x40, 2, 0, 7, 99] = .ok () := by
  decide

/-! ## C21 -/

/-- The protocol names and levels of the three versions (MQTT 3.1 section 3.1, MQTT 3.1.1 and 5
section 3.1.2). -/
def Spec.versionTable : List (Str × UInt8 × ProtocolVersion) :=
  [([77, 81, 73, 115, 100, 112], 3, .v3_1), ([77, 81, 84, 84], 4, .v3_1_1), ([77, 81, 84, 84], 5, .v5)]

theorem fromNameAndLevel_table (name : Str) (level : UInt8) (v : ProtocolVersion) :
    ProtocolVersion.fromNameAndLevel name level = some v ↔ (name, level, v) ∈ Spec.versionTable := by
  have e1 : str "MQIsdp" = [77, 81, 73, 115, 100, 112] := by decide
  have e2 : str "MQTT" = [77, 81, 84, 84] := by decide
  simp only [ProtocolVersion.fromNameAndLevel, Spec.versionTable, e1, e2, List.mem_cons,
    List.not_mem_nil, or_false, Prod.mk.injEq]
  by_cases h1 : name = [77, 81, 73, 115, 100, 112] ∧ level = 3
  · rw [if_pos h1]
    obtain ⟨rfl, rfl⟩ := h1
    cases v <;> simp
  · rw [if_neg h1]
    by_cases h2 : name = [77, 81, 84, 84] ∧ level = 4
    · rw [if_pos h2]
      obtain ⟨rfl, rfl⟩ := h2
      cases v <;> simp
    · rw [if_neg h2]
      by_cases h3 : name = [77, 81, 84, 84] ∧ level = 5
      · rw [if_pos h3]
        obtain ⟨rfl, rfl⟩ := h3
        cases v <;> simp
      · rw [if_neg h3]
        simp only [reduceCtorEq, false_iff]
        rintro (⟨a, b, -⟩ | ⟨a, b, -⟩ | ⟨a, b, -⟩)
        · exact h1 ⟨a, b⟩
        · exact h2 ⟨a, b⟩
        · exact h3 ⟨a, b⟩

/-- C21: a version is recognised exactly for the pairs of the table, and the name and level a version
announces lead back to it. -/
theorem C21_version_table :
    (∀ name level v, ProtocolVersion.fromNameAndLevel name level = some v ↔
      (name, level, v) ∈ Spec.versionTable) ∧
    (∀ v : ProtocolVersion, (v.name, v.level, v) ∈ Spec.versionTable) := by
  refine ⟨fromNameAndLevel_table, fun v => ?_⟩
  cases v <;> decide

theorem decodeConnect_version (m : Mode) (h : UInt8) (n : Nat) (hn : n < 2 ^ 28) (name : Str)
    (hname : TextField name) (level : UInt8) (rest : Buf) :
    decodeConnect m (h :: (vbi n ++ (field name ++ level :: rest))) =
      (match ProtocolVersion.fromNameAndLevel name level with
        | none => Dec.fail (.mqtt .unsupportedProtocolVersion)
        | some version => do
          let flags ← decodeConnectFlags
          let keepalive ← decodeU16
          let properties ← decodeIf version.supportsProperties (decodeConnectProperties m)
          let clientId ← decodeStr
          let willProperties ←
            decodeIf (flags.willFlag && version.supportsProperties) (decodeWillProperties m)
          let willTopic ← decodeIf flags.willFlag decodeStr
          let willPayload ← decodeIf flags.willFlag decodeBin
          let userName ← decodeIf flags.userName decodeStr
          let password ← decodeIf flags.password decodeBin
          return { protocolVersion := version, flags, keepalive, properties,
                   payload := { clientId, willProperties, willTopic, willPayload, userName,
                                password } } : Dec ConnectPacket) rest := by
  rw [← encodeVbi_eq_vbi (by omega)]
  have hfield : field name = encodeStr name := (encodeStr_field hname).symm
  rw [hfield, decodeConnect, Dec.bind_ok (show advance1 (h :: _) = .ok ((), _) from rfl),
    Dec.bind_ok (decodeVbi_encode m n hn _), Dec.bind_ok (decodeStr_text hname _),
    Dec.bind_ok (show decodeU8 (level :: rest) = .ok (level, rest) from rfl)]
  rfl

/-- C21: a CONNECT (any length field, any bytes after the level) whose name and level are not in the
table is refused as "unsupported protocol version". -/
theorem C21_other_versions_refused (m : Mode) (v : ProtocolVersion) (h : UInt8) (hh : h >>> 4 = 1)
    (n : Nat) (hn : n < 2 ^ 28) (name : Str) (hname : TextField name) (level : UInt8)
    (hv : ∀ v, (name, level, v) ∉ Spec.versionTable) (rest : Buf) :
    parseWithVersion m v (h :: (vbi n ++ (field name ++ level :: rest))) =
      .err (.mqtt .unsupportedProtocolVersion) := by
  have hnone : ProtocolVersion.fromNameAndLevel name level = none := by
    cases hx : ProtocolVersion.fromNameAndLevel name level with
    | none => rfl
    | some x => exact absurd ((fromNameAndLevel_table _ _ _).mp hx) (hv x)
  have hc := decodeConnect_version m h n hn name hname level rest
  rw [hnone] at hc
  have hp : ∀ t, parseWithVersion m v (h :: t) =
      (do let p ← decodeConnect m; return .connect p : Dec Packet) (h :: t) := by
    intro t
    simp only [parseWithVersion, hh]
    rfl
  rw [hp, Dec.bind_err (by rw [hc]; rfl)]

example := C21_other_versions_refused .debug .v5 0x10 (by decide) 13 (by decide) (str "MQTT") (by decide) 3
  (by intro v; cases v <;> decide) [2, 0, 60]

/-- C21: a CONNECT that is accepted has the version of its name and level. -/
theorem C21_accepted_version (m : Mode) (v : ProtocolVersion) (h : UInt8) (hh : h >>> 4 = 1)
    (n : Nat) (hn : n < 2 ^ 28) (name : Str) (hname : TextField name) (level : UInt8)
    (rest rest' : Buf) (p : Packet)
    (ha : parseWithVersion m v (h :: (vbi n ++ (field name ++ level :: rest))) = .ok (p, rest')) :
    ∃ c, p = .connect c ∧ (name, level, c.protocolVersion) ∈ Spec.versionTable := by
  have hp : ∀ t, parseWithVersion m v (h :: t) =
      (do let p ← decodeConnect m; return .connect p : Dec Packet) (h :: t) := by
    intro t
    simp only [parseWithVersion, hh]
    rfl
  rw [hp] at ha
  obtain ⟨c, b', h1, h2⟩ := Dec.bind_inv ha
  rw [decodeConnect_version m h n hn name hname level rest] at h1
  cases h2
  refine ⟨c, rfl, ?_⟩
  cases hx : ProtocolVersion.fromNameAndLevel name level with
  | none => rw [hx] at h1; cases h1
  | some x =>
    rw [hx] at h1
    obtain ⟨_, _, _, h1⟩ := Dec.bind_inv h1
    obtain ⟨_, _, _, h1⟩ := Dec.bind_inv h1
    obtain ⟨_, _, _, h1⟩ := Dec.bind_inv h1
    obtain ⟨_, _, _, h1⟩ := Dec.bind_inv h1
    obtain ⟨_, _, _, h1⟩ := Dec.bind_inv h1
    obtain ⟨_, _, _, h1⟩ := Dec.bind_inv h1
    obtain ⟨_, _, _, h1⟩ := Dec.bind_inv h1
    obtain ⟨_, _, _, h1⟩ := Dec.bind_inv h1
    obtain ⟨_, _, _, h1⟩ := Dec.bind_inv h1
    cases h1
    exact (fromNameAndLevel_table _ _ _).mp hx

example : ∀ v, (str "MQTT", (3 : UInt8), v) ∉ Spec.versionTable := by
  intro v; cases v <;> decide
example : ∃ c, parse .debug [0x10, 13, 0, 4, 77, 81, 84, 84, 4, 2, 0, 60, 0, 1, 120] =
    .ok (.connect c, []) := ⟨_, rfl⟩

end Mercurio
