import Verif.Lemmas.Frames

/-! # Decoding what the encoders write, packet by packet -/

namespace Mercurio

open Spec

theorem ReasonCode.canon_eq_received (r : ReasonCode) : r.canon = r.received := by cases r <;> rfl

theorem usizeSub_ok (m : Mode) {a b : Nat} (h : b ≤ a) : usizeSub m a b = .ok (a - b) := by
  unfold usizeSub; rw [if_pos h]

theorem block_decode {P : Type} (m : Mode) (short : Err) (dflt : P)
    (set : P → Property → Option P) (ps : List Property) (s' : P) (rest : Buf)
    (ha : ∀ p ∈ ps, p.Admissible ∧ p.NotRRI) (hs : ps.foldlM set dflt = some s')
    (hl : (encodeBlock ps).length < 2 ^ 28) (hr : (encodeBlock ps ++ rest).length < 2 ^ 32) :
    decodeBlock m short dflt set (encodeBlock ps ++ rest) = .ok (s', rest) := by
  have hsz := propsSize_eq ps (any_no_panic (fun p hp => (ha p hp).1))
  rw [encodeBlock, List.length_append] at hl
  rw [List.length_append, encodeBlock, List.length_append] at hr
  exact decodeBlock_encode m short dflt set ps s' rest ha hs (by omega)
    (by rw [List.length_append]; omega)

theorem connectProps_decode (m : Mode) (o : Option ConnectProperties) (rest : Buf)
    (ha : ∀ q, o = some q → q.Admissible ∧ q.requestResponseInformation = none)
    (hl : (encodeBlock (optProps ConnectProperties.toProps o)).length < 2 ^ 28)
    (hr : (encodeBlock (optProps ConnectProperties.toProps o) ++ rest).length < 2 ^ 32) :
    decodeConnectProperties m (encodeBlock (optProps ConnectProperties.toProps o) ++ rest) =
      .ok ((o.getD {}).received, rest) := by
  cases o with
  | none => exact block_decode m _ _ _ [] _ rest (by simp) rfl hl hr
  | some p =>
    obtain ⟨h1, h2⟩ := ha p rfl
    exact block_decode m _ _ _ p.toProps _ rest (h1.props h2) (p.fold h2) hl hr

theorem willProps_decode (m : Mode) (o : Option WillProperties) (rest : Buf)
    (ha : ∀ q, o = some q → q.Admissible)
    (hl : (encodeBlock (optProps WillProperties.toProps o)).length < 2 ^ 28)
    (hr : (encodeBlock (optProps WillProperties.toProps o) ++ rest).length < 2 ^ 32) :
    decodeWillProperties m (encodeBlock (optProps WillProperties.toProps o) ++ rest) =
      .ok ((o.getD {}).received, rest) := by
  cases o with
  | none => exact block_decode m _ _ _ [] _ rest (by simp) rfl hl hr
  | some p => exact block_decode m _ _ _ p.toProps _ rest (ha p rfl).props p.fold hl hr

theorem connAckProps_decode (m : Mode) (o : Option ConnAckProperties) (rest : Buf)
    (ha : ∀ q, o = some q → q.Admissible)
    (hl : (encodeBlock (optProps ConnAckProperties.toProps o)).length < 2 ^ 28)
    (hr : (encodeBlock (optProps ConnAckProperties.toProps o) ++ rest).length < 2 ^ 32) :
    decodeConnAckProperties m (encodeBlock (optProps ConnAckProperties.toProps o) ++ rest) =
      .ok ((o.getD {}).received, rest) := by
  cases o with
  | none => exact block_decode m _ _ _ [] _ rest (by simp) rfl hl hr
  | some p => exact block_decode m _ _ _ p.toProps _ rest (ha p rfl).props p.fold hl hr

theorem publishProps_decode (m : Mode) (o : Option PublishProperties) (rest : Buf)
    (ha : ∀ q, o = some q → q.Admissible)
    (hl : (encodeBlock (optProps PublishProperties.toProps o)).length < 2 ^ 28)
    (hr : (encodeBlock (optProps PublishProperties.toProps o) ++ rest).length < 2 ^ 32) :
    decodePublishProperties m (encodeBlock (optProps PublishProperties.toProps o) ++ rest) =
      .ok ((o.getD {}).received, rest) := by
  cases o with
  | none => exact block_decode m _ _ _ [] _ rest (by simp) rfl hl hr
  | some p => exact block_decode m _ _ _ p.toProps _ rest (ha p rfl).props p.fold hl hr

theorem ackProps_decode (m : Mode) (o : Option AckProperties) (rest : Buf)
    (ha : ∀ q, o = some q → q.Admissible)
    (hl : (encodeBlock (optProps AckProperties.toProps o)).length < 2 ^ 28)
    (hr : (encodeBlock (optProps AckProperties.toProps o) ++ rest).length < 2 ^ 32) :
    decodeAckProperties m (encodeBlock (optProps AckProperties.toProps o) ++ rest) =
      .ok ((o.getD {}).received, rest) := by
  cases o with
  | none => exact block_decode m _ _ _ [] _ rest (by simp) rfl hl hr
  | some p => exact block_decode m _ _ _ p.toProps _ rest (ha p rfl).props p.fold hl hr

theorem subscribeProps_decode (m : Mode) (o : Option SubscribeProperties) (rest : Buf)
    (ha : ∀ q, o = some q → q.Admissible)
    (hl : (encodeBlock (optProps SubscribeProperties.toProps o)).length < 2 ^ 28)
    (hr : (encodeBlock (optProps SubscribeProperties.toProps o) ++ rest).length < 2 ^ 32) :
    decodeSubscribeProperties m (encodeBlock (optProps SubscribeProperties.toProps o) ++ rest) =
      .ok ((o.getD {}).received, rest) := by
  cases o with
  | none => exact block_decode m _ _ _ [] _ rest (by simp) rfl hl hr
  | some p => exact block_decode m _ _ _ p.toProps _ rest (ha p rfl).props p.fold hl hr

theorem unsubscribeProps_decode (m : Mode) (o : Option UnsubscribeProperties) (rest : Buf)
    (ha : ∀ q, o = some q → q.Admissible)
    (hl : (encodeBlock (optProps UnsubscribeProperties.toProps o)).length < 2 ^ 28)
    (hr : (encodeBlock (optProps UnsubscribeProperties.toProps o) ++ rest).length < 2 ^ 32) :
    decodeUnsubscribeProperties m (encodeBlock (optProps UnsubscribeProperties.toProps o) ++ rest) =
      .ok ((o.getD {}).received, rest) := by
  cases o with
  | none => exact block_decode m _ _ _ [] _ rest (by simp) rfl hl hr
  | some p => exact block_decode m _ _ _ p.toProps _ rest (ha p rfl).props p.fold hl hr

/-! ## Fixed header -/

theorem advance1_frame (h : UInt8) (rl : Nat) (body rest : Buf) :
    advance1 (frame h rl body ++ rest) = .ok ((), encodeVbi (rl % 2 ^ 32) ++ (body ++ rest)) := by
  simp [frame, advance1]

theorem getU8_frame (h : UInt8) (rl : Nat) (body rest : Buf) :
    getU8 (frame h rl body ++ rest) = .ok (h, encodeVbi (rl % 2 ^ 32) ++ (body ++ rest)) := by
  simp [frame, getU8]

theorem decodeVbi_frame (m : Mode) {n : Nat} (hn : n < 2 ^ 28) (x : Buf) :
    decodeVbi m (encodeVbi (n % 2 ^ 32) ++ x) = .ok (n, x) := by
  rw [Nat.mod_eq_of_lt (by omega)]
  exact decodeVbi_encode m n hn x

/-! ## CONNECT -/

theorem fromNameAndLevel_self (v : ProtocolVersion) :
    ProtocolVersion.fromNameAndLevel v.name v.level = some v := by
  cases v <;> decide

theorem version_name_text (v : ProtocolVersion) : TextField v.name := by
  cases v <;> decide

theorem flags_roundtrip (f : ConnectFlags) (h1 : f.willQos ≠ .invalid)
    (h2 : f.willFlag = false → f.willQos = .atMostOnce) :
    ConnectFlags.ofByte f.toByte = some f := by
  obtain ⟨a, b, c, q, d, e⟩ := f
  simp only at h1 h2
  cases d
  · have := h2 rfl
    subst this
    cases a <;> cases b <;> cases c <;> cases e <;> decide
  · cases q <;> first | exact absurd rfl h1 | skip
    all_goals cases a <;> cases b <;> cases c <;> cases e <;> decide

theorem decodeConnectFlags_byte (f : ConnectFlags) (h1 : f.willQos ≠ .invalid)
    (h2 : f.willFlag = false → f.willQos = .atMostOnce) (rest : Buf) :
    decodeConnectFlags (f.toByte :: rest) = .ok (f, rest) := by
  rw [decodeConnectFlags, Dec.bind_ok (show decodeU8 (f.toByte :: rest) = .ok (f.toByte, rest) from rfl),
    flags_roundtrip f h1 h2]
  rfl

theorem decodeIf_false {α : Type} (d : Dec α) (b : Buf) : decodeIf false d b = .ok (none, b) := rfl

theorem decodeIf_true {α : Type} {d : Dec α} {b b' : Buf} {a : α} (h : d b = .ok (a, b')) :
    decodeIf true d b = .ok (some a, b') := by
  simp only [decodeIf, if_true]
  rw [Dec.bind_ok h]; rfl

theorem decodeIf_opt {α : Type} {c : Bool} {d : Dec α} {enc : α → Buf} {o : Option α}
    (hc : o.isSome = c) (h : ∀ a, o = some a → ∀ r, d (enc a ++ r) = .ok (a, r)) (rest : Buf) :
    decodeIf c d (encodeOpt enc o ++ rest) = .ok (o, rest) := by
  subst hc
  cases o with
  | none => rfl
  | some a => exact decodeIf_true (h a rfl rest)

theorem if_opt {α : Type} {c : Bool} {enc : α → Buf} {o : Option α} (hc : o.isSome = c) :
    (if c then encodeOpt enc o else []) = encodeOpt enc o := by
  subst hc; cases o <;> rfl

theorem decodeIf_text {c : Bool} {o : Option Str} (hc : o.isSome = c) (h : OptText o) (rest : Buf) :
    decodeIf c decodeStr ((if c then encodeOpt encodeStr o else []) ++ rest) = .ok (o, rest) := by
  rw [if_opt hc]
  exact decodeIf_opt hc (fun a ha r => decodeStr_text (h a ha) r) rest

theorem decodeIf_binary {c : Bool} {o : Option Buf} (hc : o.isSome = c) (h : OptBinary o)
    (rest : Buf) :
    decodeIf c decodeBin ((if c then encodeOpt encodeBin o else []) ++ rest) = .ok (o, rest) := by
  rw [if_opt hc]
  exact decodeIf_opt hc (fun a ha r => decodeBin_binary (h a ha) r) rest

theorem supports_iff (v : ProtocolVersion) : v.supportsProperties = true ↔ v = .v5 := by
  cases v <;> decide

/-- Body of a CONNECT in the order it is read, every optional part with its own flag. -/
theorem ConnectPacket.body_eq (p : ConnectPacket) :
    p.body = encodeStr p.protocolVersion.name ++ (encodeU8 p.protocolVersion.level
      ++ ([p.flags.toByte] ++ (encodeU16 p.keepalive
      ++ ((if p.protocolVersion.supportsProperties then
            encodeBlock (optProps ConnectProperties.toProps p.properties) else [])
      ++ (encodeStr p.payload.clientId
      ++ ((if p.flags.willFlag && p.protocolVersion.supportsProperties then
            encodeBlock (optProps WillProperties.toProps p.payload.willProperties) else [])
      ++ ((if p.flags.willFlag then encodeOpt encodeStr p.payload.willTopic else [])
      ++ ((if p.flags.willFlag then encodeOpt encodeBin p.payload.willPayload else [])
      ++ ((if p.flags.userName then encodeOpt encodeStr p.payload.userName else [])
      ++ (if p.flags.password then encodeOpt encodeBin p.payload.password else [])))))))))) := by
  rw [ConnectPacket.body, ConnectPayload.encodeFor_def]
  cases p.flags.willFlag <;> cases p.protocolVersion.supportsProperties <;> simp

theorem decodeConnect_encode (m : Mode) (p : ConnectPacket) (hc : p.Consistent) (ha : p.Admissible)
    (rest : Buf) (hb : p.body.length < 2 ^ 28)
    (hr : (p.body ++ rest).length < 2 ^ 32) :
    decodeConnect m (frame 0x10 p.body.length p.body ++ rest) = .ok (p.received, rest) := by
  rw [decodeConnect, Dec.bind_ok (advance1_frame _ _ _ _), Dec.bind_ok (decodeVbi_frame m hb _)]
  rw [p.body_eq] at hb hr ⊢
  simp only [List.append_assoc]
  rw [Dec.bind_ok (decodeStr_text (version_name_text _) _), Dec.bind_ok (decodeU8_encode _ _),
    fromNameAndLevel_self]
  simp only [List.length_append, encodeStr_length, encodeU16_length, encodeU8_length] at hb hr
  simp only
  rw [List.cons_append, List.nil_append,
    Dec.bind_ok (decodeConnectFlags_byte p.flags hc.willQos hc.noWillQos _),
    Dec.bind_ok (decodeU16_encode _ _)]
  have htext := ha.clientId
  have tail : ∀ (pr : Option ConnectProperties) (wp : Option WillProperties),
      (do
        let willTopic ← decodeIf p.flags.willFlag decodeStr
        let willPayload ← decodeIf p.flags.willFlag decodeBin
        let userName ← decodeIf p.flags.userName decodeStr
        let password ← decodeIf p.flags.password decodeBin
        return ({ protocolVersion := p.protocolVersion, flags := p.flags, keepalive := p.keepalive,
                  properties := pr,
                  payload := { clientId := p.payload.clientId, willProperties := wp, willTopic,
                               willPayload, userName, password } } : ConnectPacket) : Dec ConnectPacket)
      ((if p.flags.willFlag then encodeOpt encodeStr p.payload.willTopic else [])
        ++ ((if p.flags.willFlag then encodeOpt encodeBin p.payload.willPayload else [])
        ++ ((if p.flags.userName then encodeOpt encodeStr p.payload.userName else [])
        ++ ((if p.flags.password then encodeOpt encodeBin p.payload.password else [])
        ++ rest)))) =
      .ok ({ p with properties := pr, payload := { p.payload with willProperties := wp } }, rest) := by
    intro pr wp
    rw [Dec.bind_ok (decodeIf_text hc.willTopic ha.willTopic _),
      Dec.bind_ok (decodeIf_binary hc.willPayload ha.willPayload _),
      Dec.bind_ok (decodeIf_text hc.userName ha.userName _),
      Dec.bind_ok (decodeIf_binary hc.password ha.password _)]
    rfl
  by_cases hv : p.protocolVersion = .v5
  · have hs := (supports_iff p.protocolVersion).mpr hv
    rw [hs]
    rw [hs] at hb hr
    simp only [if_true, Bool.and_true] at hb hr ⊢
    rw [Dec.bind_ok (decodeIf_true (connectProps_decode m p.properties _ ha.properties
      (by omega) (by simp only [List.length_append, encodeStr_length]; omega))),
      Dec.bind_ok (decodeStr_text htext _)]
    cases hw : p.flags.willFlag with
    | false =>
      simp only [hw, Bool.false_eq_true, if_false, List.nil_append] at tail ⊢
      rw [Dec.bind_ok (decodeIf_false _ _), tail]
      simp [ConnectPacket.received, hv, hw]
    | true =>
      simp only [hw, if_true] at tail hb hr ⊢
      rw [Dec.bind_ok (decodeIf_true (willProps_decode m p.payload.willProperties _
        ha.willProperties (by omega) (by simp only [List.length_append]; omega))), tail]
      simp [ConnectPacket.received, hv, hw]
  · have hs : p.protocolVersion.supportsProperties = false := by
      cases h : p.protocolVersion.supportsProperties with
      | false => rfl
      | true => exact absurd ((supports_iff _).mp h) hv
    have hp : p.properties = none := by
      cases h : p.properties with
      | none => rfl
      | some q => exact absurd (hc.props (by simp [h])) hv
    have hwp : p.payload.willProperties = none := by
      cases h : p.payload.willProperties with
      | none => rfl
      | some q => exact absurd (hc.willProps (by simp [h])).2 hv
    rw [hs]
    simp only [Bool.false_eq_true, if_false, Bool.and_false, List.nil_append]
    rw [Dec.bind_ok (decodeIf_false _ _), Dec.bind_ok (decodeStr_text htext _),
      Dec.bind_ok (decodeIf_false _ _), tail]
    simp only [ConnectPacket.received, hv, if_false, Res.ok.injEq, Prod.mk.injEq, and_true]
    clear tail ha hc hb hr
    obtain ⟨_, _, _, _, ⟨_, _, _, _, _, _⟩⟩ := p
    simp_all

/-! ## CONNACK -/

theorem decodeConnAckFlags_byte (b : Bool) (rest : Buf) :
    decodeConnAckFlags ((1 &&& (if b then 1 else 0) : UInt8) :: rest) = .ok (b, rest) := by
  cases b <;> rfl

theorem decodeReason_received (r : ReasonCode) (rest : Buf) :
    decodeReason (encodeReason r ++ rest) = .ok (r.received, rest) := by
  rw [decodeReason_encode, ReasonCode.canon_eq_received]

theorem decodeConnAck_encode (m : Mode) (p : ConnAckPacket) (hv : p.protocolVersion = .v5)
    (ha : p.Admissible) (rest : Buf) (hb : p.body.length < 2 ^ 28)
    (hr : (p.body ++ rest).length < 2 ^ 32) :
    decodeConnAck m (frame 0x20 p.body.length p.body ++ rest) = .ok (p.received, rest) := by
  rw [decodeConnAck, Dec.bind_ok (advance1_frame _ _ _ _), Dec.bind_ok (decodeVbi_frame m hb _)]
  have hs := (supports_iff p.protocolVersion).mpr hv
  simp only [ConnAckPacket.body, hs, if_true, List.append_assoc, List.cons_append,
    List.nil_append] at hb hr ⊢
  simp only [List.length_append, List.length_cons] at hb hr
  rw [Dec.bind_ok (decodeConnAckFlags_byte _ _), Dec.bind_ok (decodeReason_received _ _),
    Dec.bind_ok (connAckProps_decode m p.properties rest ha (by omega)
      (by simp only [List.length_append]; omega))]
  simp [ConnAckPacket.received, hv]

theorem decodeConnAckV3_encode (m : Mode) (p : ConnAckPacket) (hv : p.protocolVersion ≠ .v5)
    (rest : Buf) :
    decodeConnAckV3 m (frame 0x20 p.body.length p.body ++ rest) =
      .ok ({ protocolVersion := .v3_1_1, sessionPresent := p.sessionPresent,
             reasonCode := connAckReasonOfReturnCode (connAckReturnCode p.reasonCode),
             properties := none }, rest) := by
  have hs : p.protocolVersion.supportsProperties = false := by
    cases h : p.protocolVersion.supportsProperties with
    | false => rfl
    | true => exact absurd ((supports_iff _).mp h) hv
  have hb : p.body.length < 2 ^ 28 := by simp [ConnAckPacket.body, hs]
  rw [decodeConnAckV3, Dec.bind_ok (advance1_frame _ _ _ _), Dec.bind_ok (decodeVbi_frame m hb _)]
  simp only [ConnAckPacket.body, hs, Bool.false_eq_true, if_false, List.append_assoc,
    List.cons_append, List.nil_append]
  rw [Dec.bind_ok (decodeConnAckFlags_byte _ _)]
  rfl

/-! ## PUBLISH -/

theorem PublishProperties.toProps_received (p : PublishProperties) :
    p.received.toProps = p.toProps := by
  obtain ⟨_, _, _, _, _, u, _, _⟩ := p
  cases u with
  | none => rfl
  | some l => cases l <;> rfl

theorem optProps_getD {P : Type} (toProps : P → List Property) (d : P) (hd : toProps d = [])
    (o : Option P) : optProps toProps o = toProps (o.getD d) := by
  cases o <;> simp [optProps, hd]

theorem publish_header (p : PublishPacket) (hq : p.qos ≠ .invalid) :
    decide (p.header &&& 0x08 ≠ 0) = p.dup ∧ QoS.ofU8 ((p.header &&& 0x06) >>> 1) = p.qos
      ∧ decide (p.header &&& 0x01 ≠ 0) = p.retain ∧ p.header >>> 4 = 3
      ∧ p.header.toNat = (Packet.publish p).fixedHeader := by
  have key : ∀ d r : Bool, ∀ q ∈ [QoS.atMostOnce, .atLeastOnce, .exactlyOnce],
      let h : UInt8 := (((0x30 : UInt8) ||| (b2u d <<< 3)) ||| (q.toU8 <<< 1)) ||| b2u r
      decide (h &&& 0x08 ≠ 0) = d ∧ QoS.ofU8 ((h &&& 0x06) >>> 1) = q ∧ decide (h &&& 0x01 ≠ 0) = r
        ∧ h >>> 4 = 3
        ∧ h.toNat = 0x30 + (if d then 8 else 0) + 2 * q.level + (if r then 1 else 0) := by
    decide
  exact key p.dup p.retain p.qos (by cases h : p.qos <;> simp_all)

/-- The part of a PUBLISH before its payload. -/
def PublishPacket.head (p : PublishPacket) : Buf :=
  encodeStr p.topicName ++ (encodeOpt encodeU16 p.packetId
    ++ encodeBlock (optProps PublishProperties.toProps p.properties))

/-- Decoding a PUBLISH whose payload may have been cut off. -/
theorem decodePublish_head (m : Mode) (p : PublishPacket) (ha : p.Admissible) (tail : Buf)
    (hb : p.body.length < 2 ^ 28) (hr : (p.head ++ tail).length < 2 ^ 32) :
    decodePublish m (frame p.header p.body.length (p.head ++ tail)) =
      if tail.length < (p.payload.getD []).length then .err (.mqtt .malformedPacket)
      else .ok ({ p.received with payload := some (tail.take (p.payload.getD []).length) },
                tail.drop (p.payload.getD []).length) := by
  obtain ⟨hd, hq, hrt, _, _⟩ := publish_header p ha.qos
  have hpid : (p.body.length - (binSize p.topicName + optSize (fun _ => 2) p.packetId
      + (encodeBlock (optProps PublishProperties.toProps p.properties)).length)
        = (p.payload.getD []).length)
      ∧ binSize p.topicName + optSize (fun _ => 2) p.packetId
      + (encodeBlock (optProps PublishProperties.toProps p.properties)).length ≤ p.body.length := by
    have e1 : (encodeOpt encodeU16 p.packetId).length = optSize (fun _ => 2) p.packetId :=
      encodeOpt_length _ _ encodeU16_length _
    have e2 : (encodeOpt (fun b => b) p.payload).length = (p.payload.getD []).length := by
      cases p.payload <;> rfl
    simp only [PublishPacket.body, List.length_append, encodeStr_length, e1, e2]
    omega
  have hfr : frame p.header p.body.length (p.head ++ tail)
      = frame p.header p.body.length p.head ++ tail := by simp [frame]
  rw [hfr, decodePublish_def, Dec.bind_ok (getU8_frame _ _ _ _), Dec.bind_ok (decodeVbi_frame m hb _)]
  have hbl := hb
  rw [PublishPacket.body] at hb
  rw [PublishPacket.head] at hr ⊢
  simp only [List.length_append, encodeStr_length] at hb hr
  simp only [List.append_assoc]
  rw [Dec.bind_ok (decodeStr_text ha.topicName _), hq]
  have hid : decodePublishId p.qos
      (encodeOpt encodeU16 p.packetId ++ (encodeBlock (optProps PublishProperties.toProps p.properties)
        ++ tail)) =
      .ok (p.packetId, encodeBlock (optProps PublishProperties.toProps p.properties)
        ++ tail) := by
    have h1 := ha.packetId
    have h2 := ha.qos
    cases hq' : p.qos with
    | invalid => exact absurd hq' h2
    | atMostOnce =>
      rw [hq'] at h1
      cases hp : p.packetId with
      | none => rfl
      | some i => rw [hp] at h1; simp at h1
    | atLeastOnce =>
      rw [hq'] at h1
      cases hp : p.packetId with
      | none => rw [hp] at h1; simp at h1
      | some i =>
        rw [decodePublishId, encodeOpt, Dec.bind_ok (decodeU16_encode _ _)]; rfl
    | exactlyOnce =>
      rw [hq'] at h1
      cases hp : p.packetId with
      | none => rw [hp] at h1; simp at h1
      | some i =>
        rw [decodePublishId, encodeOpt, Dec.bind_ok (decodeU16_encode _ _)]; rfl
  rw [Dec.bind_ok hid, Dec.bind_ok (publishProps_decode m p.properties _ ha.properties (by omega)
    (by simp only [List.length_append]; omega))]
  have hprops : ((p.properties.getD {}).received).toProps
      = optProps PublishProperties.toProps p.properties := by
    rw [PublishProperties.toProps_received, optProps_getD PublishProperties.toProps {} rfl]
  have hadm : ∀ q ∈ optProps PublishProperties.toProps p.properties, q.Admissible := by
    intro q hq
    cases hp : p.properties with
    | none => rw [hp] at hq; simp [optProps] at hq
    | some pr => rw [hp] at hq; exact ((ha.properties pr hp).props q hq).1
  have hbs : blockSize (optProps PublishProperties.toProps p.properties) =
      .ok (encodeBlock (optProps PublishProperties.toProps p.properties)).length := by
    have hnp := any_no_panic hadm
    refine blockSize_ok hnp ?_
    have := propsSize_eq _ hnp
    rw [encodeBlock, List.length_append] at hb
    omega
  rw [hprops, hbs, Dec.bind_ok (show liftRes (Res.ok _) _ = .ok (_, _) from rfl)]
  rw [usizeSub_ok m hpid.2, Dec.bind_ok (show liftRes (Res.ok _) _ = .ok (_, _) from rfl), hpid.1]
  rw [Dec.of_apply, hd, hrt]
  split <;> rfl

theorem PublishPacket.body_head (p : PublishPacket) : p.body = p.head ++ p.payload.getD [] := by
  have hpay : encodeOpt (fun b => b) p.payload = p.payload.getD [] := by cases p.payload <;> rfl
  simp [PublishPacket.body, PublishPacket.head, hpay]

theorem decodePublish_encode (m : Mode) (p : PublishPacket) (ha : p.Admissible) (rest : Buf)
    (hb : p.body.length < 2 ^ 28) (hr : (p.body ++ rest).length < 2 ^ 32) :
    decodePublish m (frame p.header p.body.length p.body ++ rest) = .ok (p.received, rest) := by
  have hfr : frame p.header p.body.length p.body ++ rest
      = frame p.header p.body.length (p.head ++ (p.payload.getD [] ++ rest)) := by
    conv in frame p.header p.body.length p.body => rw [frame, p.body_head]
    simp only [frame, p.body_head]; simp
  have hr' : (p.head ++ (p.payload.getD [] ++ rest)).length < 2 ^ 32 := by
    rw [← List.append_assoc, ← p.body_head]; exact hr
  rw [hfr, decodePublish_head m p ha _ hb hr', if_neg (by simp), List.take_left, List.drop_left]
  rfl

/-! ## Acknowledgements -/

theorem decodeAck_encode (m : Mode) (h : UInt8) (p : AckPacket) (ha : p.Admissible) (rest : Buf)
    (hb : p.body.length < 2 ^ 28) (hr : (p.body ++ rest).length < 2 ^ 32) :
    decodeAck m (frame h p.body.length p.body ++ rest) = .ok (p.received, rest) := by
  rw [decodeAck, Dec.bind_ok (advance1_frame _ _ _ _), Dec.bind_ok (decodeVbi_frame m hb _)]
  rw [AckPacket.body] at hb hr ⊢
  simp only [List.append_assoc] at hr ⊢
  rw [Dec.bind_ok (decodeU16_encode _ _), Dec.ite_apply]
  cases hc : (p.properties.isSome || p.reason != .success) with
  | false =>
    simp only [Bool.false_eq_true, if_false, List.append_nil, encodeU16_length, if_true,
      List.nil_append]
    have : p.properties = none ∧ p.reason = .success := by
      cases hp : p.properties <;> cases hq : p.reason <;> simp_all
    rw [Dec.pure_apply, AckPacket.received, if_pos this]
    obtain ⟨_, _, _⟩ := p
    obtain ⟨h1, h2⟩ := this
    simp only at h1 h2
    rw [h1, h2]
  | true =>
    rw [hc] at hb hr
    simp only [if_true, List.length_append, encodeU16_length, encodeReason_length,
      List.append_assoc] at hb hr ⊢
    rw [if_neg (by omega), Dec.bind_ok (decodeReason_received _ _),
      Dec.bind_ok (ackProps_decode m p.properties rest ha (by omega)
        (by simp only [List.length_append]; omega))]
    have : ¬ (p.properties = none ∧ p.reason = .success) := by
      rintro ⟨h1, h2⟩
      rw [h1, h2] at hc
      simp at hc
    rw [AckPacket.received, if_neg this]
    rfl

/-! ## Entry lists -/

theorem payloadLoop_encode {α : Type} (dec : Dec α) (enc : α → Buf) (f : α → α) (rest : Buf)
    (l : List α) (hd : ∀ a ∈ l, ∀ r, dec (enc a ++ r) = .ok (f a, r))
    (hp : ∀ a, 0 < (enc a).length) : ∀ fuel, l.length ≤ fuel →
    payloadLoop dec rest.length fuel (l.flatMap enc ++ rest) = .ok (l.map f, rest) := by
  induction l with
  | nil =>
    intro fuel _
    cases fuel <;> simp [payloadLoop]
  | cons a l ih =>
    intro fuel hf
    obtain ⟨fuel, rfl⟩ : ∃ k, fuel = k + 1 := ⟨fuel - 1, by simp at hf; omega⟩
    have h0 := hp a
    rw [payloadLoop, if_pos (by simp; omega), List.flatMap_cons, List.append_assoc,
      hd a (by simp), ]
    simp only
    rw [ih (fun b hb => hd b (by simp [hb])) fuel (by simpa using hf)]
    rfl

theorem flatMap_length_ge {α : Type} (enc : α → Buf) (hp : ∀ a, 0 < (enc a).length) (l : List α) :
    l.length ≤ (l.flatMap enc).length := by
  induction l with
  | nil => simp
  | cons a l ih => have := hp a; simp only [List.flatMap_cons, List.length_append, List.length_cons]; omega

theorem payloadList_encode {α : Type} (dec : Dec α) (enc : α → Buf) (f : α → α) (rest : Buf)
    (l : List α) (hd : ∀ a ∈ l, ∀ r, dec (enc a ++ r) = .ok (f a, r))
    (hp : ∀ a, 0 < (enc a).length) :
    payloadList dec rest.length (l.flatMap enc ++ rest) = .ok (l.map f, rest) := by
  rw [payloadList]
  apply payloadLoop_encode dec enc f rest l hd hp
  have := flatMap_length_ge enc hp l
  rw [List.length_append]; omega

theorem decodeEntries_encode {α : Type} (m : Mode) (dec : Dec α) (enc : α → Buf) (f : α → α)
    (bl rl : Nat) (rest : Buf) (hbl : bl = rl + rest.length)
    (l : List α) (hne : l ≠ []) (hd : ∀ a ∈ l, ∀ r, dec (enc a ++ r) = .ok (f a, r))
    (hp : ∀ a, 0 < (enc a).length) :
    decodeEntries m bl rl dec (l.flatMap enc ++ rest) = .ok (l.map f, rest) := by
  rw [decodeEntries, Dec.bind_ok (show remaining _ = .ok (_, _) from rfl), if_neg,
    show usizeSub m bl rl = .ok rest.length by
      rw [usizeSub_ok m (by omega), hbl, Nat.add_sub_cancel_left],
    Dec.bind_ok (show liftRes (Res.ok _) _ = .ok (_, _) from rfl)]
  · exact payloadList_encode dec enc f rest l hd hp
  · have h1 := flatMap_length_ge enc hp l
    have h2 : 0 < l.length := by cases l <;> simp_all
    rw [List.length_append]; omega

/-! ## SUBSCRIBE and UNSUBSCRIBE -/

theorem options_roundtrip (o : SubscriptionOptions) (h : o.Admissible) :
    SubscriptionOptions.ofByte o.toByte = some o := by
  obtain ⟨q, a, b, r⟩ := o
  obtain ⟨h1, h2⟩ := h
  cases q <;> cases r <;> simp_all <;> cases a <;> cases b <;> decide

theorem decodeSubscribePayload_encode (e : SubscribePayload) (h : TextField e.topicFilter)
    (ho : e.opts.Admissible) (rest : Buf) :
    decodeSubscribePayload (e.encode ++ rest) = .ok (e, rest) := by
  rw [decodeSubscribePayload, SubscribePayload.encode, List.append_assoc,
    Dec.bind_ok (decodeStr_text h _), List.cons_append, List.nil_append,
    Dec.bind_ok (show getU8 (_ :: _) = .ok (_, _) from rfl), options_roundtrip _ ho]
  rfl

theorem decodeSubscribe_encode (m : Mode) (p : SubscribePacket) (ha : p.Admissible) (rest : Buf)
    (hb : p.body.length < 2 ^ 28) (hr : (p.body ++ rest).length < 2 ^ 32) :
    decodeSubscribe m (frame 0x82 p.body.length p.body ++ rest) = .ok (p.received, rest) := by
  rw [decodeSubscribe, Dec.bind_ok (advance1_frame _ _ _ _), Dec.bind_ok (decodeVbi_frame m hb _),
    Dec.bind_ok (show remaining _ = .ok (_, _) from rfl)]
  have hbl : (p.body ++ rest).length = p.body.length + rest.length := List.length_append
  generalize hB : (p.body ++ rest).length = bl at hbl ⊢
  generalize hR : p.body.length = rl at hbl ⊢
  clear hB hR
  rw [SubscribePacket.body] at hb hr ⊢
  simp only [List.append_assoc, List.length_append, encodeU16_length] at hb hr hbl ⊢
  rw [Dec.bind_ok (decodeU16_encode _ _),
    Dec.bind_ok (subscribeProps_decode m p.properties _ ha.properties (by omega)
        (by simp only [List.length_append]; omega)),
    Dec.bind_ok (decodeEntries_encode m decodeSubscribePayload SubscribePayload.encode id _ _ rest
      hbl p.payload ha.nonEmpty
      (fun a h r => decodeSubscribePayload_encode a (ha.entries a h).1 (ha.entries a h).2 r)
      (fun a => by simp [SubscribePayload.encode]))]
  simp [SubscribePacket.received]

theorem decodeUnsubscribe_encode (m : Mode) (p : UnsubscribePacket) (ha : p.Admissible) (rest : Buf)
    (hb : p.body.length < 2 ^ 28) (hr : (p.body ++ rest).length < 2 ^ 32) :
    decodeUnsubscribe m (frame 0xa2 p.body.length p.body ++ rest) = .ok (p.received, rest) := by
  rw [decodeUnsubscribe, Dec.bind_ok (advance1_frame _ _ _ _), Dec.bind_ok (decodeVbi_frame m hb _),
    Dec.bind_ok (show remaining _ = .ok (_, _) from rfl)]
  have hbl : (p.body ++ rest).length = p.body.length + rest.length := List.length_append
  generalize hB : (p.body ++ rest).length = bl at hbl ⊢
  generalize hR : p.body.length = rl at hbl ⊢
  clear hB hR
  rw [UnsubscribePacket.body] at hb hr ⊢
  simp only [List.append_assoc, List.length_append, encodeU16_length] at hb hr ⊢
  rw [Dec.bind_ok (decodeU16_encode _ _),
    Dec.bind_ok (unsubscribeProps_decode m p.properties _ ha.properties (by omega)
        (by simp only [List.length_append]; omega)),
    Dec.bind_ok (decodeEntries_encode m decodeStr encodeStr id _ _ rest
      hbl p.payload ha.nonEmpty
      (fun a h r => decodeStr_text (ha.entries a h) r)
      (fun a => by simp [binSize]))]
  simp [UnsubscribePacket.received]

/-! ## SUBACK and UNSUBACK -/

theorem decodeSubAck_encode (m : Mode) (p : SubAckPacket) (hv : p.protocolVersion = .v5)
    (ha : p.Admissible) (rest : Buf)
    (hb : p.body.length < 2 ^ 28) (hr : (p.body ++ rest).length < 2 ^ 32) :
    decodeSubAck m (frame 0x90 p.body.length p.body ++ rest) = .ok (p.received, rest) := by
  have hs := (supports_iff p.protocolVersion).mpr hv
  rw [decodeSubAck, Dec.bind_ok (advance1_frame _ _ _ _), Dec.bind_ok (decodeVbi_frame m hb _),
    Dec.bind_ok (show remaining _ = .ok (_, _) from rfl)]
  have hbl : (p.body ++ rest).length = p.body.length + rest.length := List.length_append
  generalize hB : (p.body ++ rest).length = bl at hbl ⊢
  generalize hR : p.body.length = rl at hbl ⊢
  clear hB hR
  rw [SubAckPacket.body, hs] at hb hr ⊢
  simp only [if_true, List.append_assoc, List.length_append, encodeU16_length] at hb hr ⊢
  rw [Dec.bind_ok (decodeU16_encode _ _),
    Dec.bind_ok (ackProps_decode m p.properties _ ha.properties (by omega)
        (by simp only [List.length_append]; omega)),
    Dec.bind_ok (decodeEntries_encode m decodeReason encodeReason ReasonCode.received _ _ rest
      hbl p.payload ha.nonEmpty (fun a _ r => decodeReason_received a r) (fun a => by simp))]
  simp [SubAckPacket.received, hv]

theorem decodeUnsubAck_encode (m : Mode) (p : UnsubAckPacket) (hv : p.protocolVersion = .v5)
    (ha : p.Admissible) (rest : Buf)
    (hb : p.body.length < 2 ^ 28) (hr : (p.body ++ rest).length < 2 ^ 32) :
    decodeUnsubAck m (frame 0xb0 p.body.length p.body ++ rest) = .ok (p.received, rest) := by
  have hs := (supports_iff p.protocolVersion).mpr hv
  rw [decodeUnsubAck, Dec.bind_ok (advance1_frame _ _ _ _), Dec.bind_ok (decodeVbi_frame m hb _),
    Dec.bind_ok (show remaining _ = .ok (_, _) from rfl)]
  have hbl : (p.body ++ rest).length = p.body.length + rest.length := List.length_append
  generalize hB : (p.body ++ rest).length = bl at hbl ⊢
  generalize hR : p.body.length = rl at hbl ⊢
  clear hB hR
  rw [UnsubAckPacket.body, hs] at hb hr ⊢
  simp only [if_true, List.append_assoc, List.length_append, encodeU16_length] at hb hr ⊢
  rw [Dec.bind_ok (decodeU16_encode _ _),
    Dec.bind_ok (ackProps_decode m p.properties _ ha.properties (by omega)
        (by simp only [List.length_append]; omega)),
    Dec.bind_ok (decodeEntries_encode m decodeReason encodeReason ReasonCode.received _ _ rest
      hbl p.payload ha.nonEmpty (fun a _ r => decodeReason_received a r) (fun a => by simp))]
  simp [UnsubAckPacket.received, hv]

theorem not_supports {v : ProtocolVersion} (hv : v ≠ .v5) : v.supportsProperties = false := by
  cases h : v.supportsProperties with
  | false => rfl
  | true => exact absurd ((supports_iff _).mp h) hv

theorem decodeSubAckV3_encode (m : Mode) (p : SubAckPacket) (hv : p.protocolVersion ≠ .v5)
    (rest : Buf) (hb : p.body.length < 2 ^ 28) :
    decodeSubAckV3 m (frame 0x90 p.body.length p.body ++ rest) =
      .ok ({ protocolVersion := .v3_1_1, packetId := p.packetId, properties := none,
             payload := p.payload.map fun r => subAckReasonOfReturnCode r.code }, rest) := by
  have hs := not_supports hv
  rw [decodeSubAckV3, Dec.bind_ok (advance1_frame _ _ _ _), Dec.bind_ok (decodeVbi_frame m hb _),
    Dec.bind_ok (show remaining _ = .ok (_, _) from rfl)]
  have hsub : usizeSub m (p.body ++ rest).length p.body.length = .ok rest.length := by
    rw [usizeSub_ok m (by simp)]; simp
  rw [hsub, SubAckPacket.body, hs]
  simp only [Bool.false_eq_true, if_false, List.append_nil, List.append_assoc]
  rw [Dec.bind_ok (decodeU16_encode _ _),
    Dec.bind_ok (show liftRes (Res.ok _) _ = .ok (_, _) from rfl),
    Dec.bind_ok (payloadList_encode decodeSubAckReturnCode encodeReason
      (fun r => subAckReasonOfReturnCode r.code) rest p.payload (fun a _ r => rfl)
      (fun a => by simp))]
  rfl

theorem decodeUnsubAckV3_encode (m : Mode) (p : UnsubAckPacket) (hv : p.protocolVersion ≠ .v5)
    (rest : Buf) :
    decodeUnsubAckV3 m (frame 0xb0 p.body.length p.body ++ rest) =
      .ok ({ protocolVersion := .v3_1_1, packetId := p.packetId, properties := none,
             payload := [] }, rest) := by
  have hs := not_supports hv
  have hb : p.body.length < 2 ^ 28 := by simp [UnsubAckPacket.body, hs]
  rw [decodeUnsubAckV3, Dec.bind_ok (advance1_frame _ _ _ _), Dec.bind_ok (decodeVbi_frame m hb _)]
  simp only [UnsubAckPacket.body, hs, Bool.false_eq_true, if_false, List.append_nil]
  rw [Dec.bind_ok (decodeU16_encode _ _)]
  rfl

/-! ## DISCONNECT -/

theorem decodeDisconnect_encode (m : Mode) (r : ReasonCode) (rest : Buf) :
    decodeDisconnect m (frame 0xe0 1 (encodeReason r) ++ rest) =
      .ok ({ reason := r.received, properties := none }, rest) := by
  rw [decodeDisconnect, Dec.bind_ok (getU8_frame _ _ _ _), if_neg (by decide),
    Dec.bind_ok (decodeVbi_frame m (by decide) _), decodeDisconnectReason, if_neg (by decide),
    Dec.bind_ok (decodeReason_received _ _), show decide (2 ≤ 1) = false from rfl,
    Dec.bind_ok (decodeIf_false _ _)]
  rfl

/-! ## All packets, through the dispatcher -/

/-- What a well-formed frame looks like to the receiver. -/
theorem frame_bounds {p : Packet} {bytes body : Buf} (hf : FitsMqtt bytes)
    (hb : bytes = frame p.header body.length body) (rest : Buf)
    (hr : (bytes ++ rest).length < 2 ^ 32) :
    body.length < 2 ^ 28 ∧ (body ++ rest).length < 2 ^ 32 := by
  subst hb
  refine ⟨frame_inj_body rfl hf, ?_⟩
  simp only [frame, List.length_append, List.length_cons] at hr ⊢
  omega

theorem parse_connect (m : Mode) (v : ProtocolVersion) (t : Buf) :
    parseWithVersion m v (0x10 :: t) = (do let p ← decodeConnect m; return .connect p : Dec Packet) (0x10 :: t) := rfl
theorem parse_connAck (m : Mode) (t : Buf) :
    parseWithVersion m .v5 (0x20 :: t) = (do let p ← decodeConnAck m; return .connAck p : Dec Packet) (0x20 :: t) := rfl
theorem parse_publish (m : Mode) (v : ProtocolVersion) (h : UInt8) (hh : h >>> 4 = 3) (t : Buf) :
    parseWithVersion m v (h :: t) = (do let p ← decodePublish m; return .publish p : Dec Packet) (h :: t) := by
  simp only [parseWithVersion, hh]; rfl
theorem parse_pubAck (m : Mode) (v : ProtocolVersion) (t : Buf) :
    parseWithVersion m v (0x40 :: t) = (do let p ← decodeAck m; return .pubAck p : Dec Packet) (0x40 :: t) := rfl
theorem parse_pubRec (m : Mode) (v : ProtocolVersion) (t : Buf) :
    parseWithVersion m v (0x50 :: t) = (do let p ← decodeAck m; return .pubRec p : Dec Packet) (0x50 :: t) := rfl
theorem parse_pubRel (m : Mode) (v : ProtocolVersion) (t : Buf) :
    parseWithVersion m v (0x62 :: t) = (do let p ← decodeAck m; return .pubRel p : Dec Packet) (0x62 :: t) := rfl
theorem parse_pubComp (m : Mode) (v : ProtocolVersion) (t : Buf) :
    parseWithVersion m v (0x70 :: t) = (do let p ← decodeAck m; return .pubComp p : Dec Packet) (0x70 :: t) := rfl
theorem parse_subscribe (m : Mode) (v : ProtocolVersion) (t : Buf) :
    parseWithVersion m v (0x82 :: t) = (do let p ← decodeSubscribe m; return .subscribe p : Dec Packet) (0x82 :: t) := rfl
theorem parse_subAck (m : Mode) (t : Buf) :
    parseWithVersion m .v5 (0x90 :: t) = (do let p ← decodeSubAck m; return .subAck p : Dec Packet) (0x90 :: t) := rfl
theorem parse_unsubscribe (m : Mode) (v : ProtocolVersion) (t : Buf) :
    parseWithVersion m v (0xa2 :: t) = (do let p ← decodeUnsubscribe m; return .unsubscribe p : Dec Packet) (0xa2 :: t) := rfl
theorem parse_unsubAck (m : Mode) (t : Buf) :
    parseWithVersion m .v5 (0xb0 :: t) = (do let p ← decodeUnsubAck m; return .unsubAck p : Dec Packet) (0xb0 :: t) := rfl
theorem parse_disconnect (m : Mode) (v : ProtocolVersion) (t : Buf) :
    parseWithVersion m v (0xe0 :: t) = (do let p ← decodeDisconnect m; return .disconnect p : Dec Packet) (0xe0 :: t) := rfl

/-- Which protocol version the receiver may assume: any, except that CONNACK, SUBACK and UNSUBACK are
read in the version of the connection. -/
def Packet.ReadAs (v : ProtocolVersion) : Packet → Prop
  | .connAck _ | .subAck _ | .unsubAck _ => v = .v5
  | _ => True

theorem parse_encode (m : Mode) (v : ProtocolVersion) (p : Packet) (hs : p.Survives)
    (hv : p.ReadAs v) (bytes rest : Buf) (he : p.encode = .ok bytes) (hf : FitsMqtt bytes)
    (hr : (bytes ++ rest).length < 2 ^ 32) :
    parseWithVersion m v (bytes ++ rest) = .ok (p.received, rest) := by
  have key : ∀ {α : Type} (d : Dec α) (c : α → Packet) (b : Buf) (a : α),
      d b = .ok (a, rest) → (do let p ← d; return c p : Dec Packet) b = .ok (c a, rest) := by
    intro α d c b a h
    rw [Dec.bind_ok h]; rfl
  cases p with
  | connect p =>
    have hb := (ConnectPacket.encode_inv he).1
    obtain ⟨h1, h2⟩ := frame_bounds (p := .connect p) hf hb rest hr
    rw [hb]
    exact (parse_connect m v _).trans (key _ _ _ _ (decodeConnect_encode m p hs.1 hs.2 rest h1 h2))
  | connAck p =>
    have hb := ConnAckPacket.encode_inv he
    obtain ⟨h1, h2⟩ := frame_bounds (p := .connAck p) hf hb rest hr
    rw [hb, show v = .v5 from hv]
    exact (parse_connAck m _).trans (key _ _ _ _ (decodeConnAck_encode m p hs.1 hs.2 rest h1 h2))
  | publish p =>
    have hb := PublishPacket.encode_inv he
    obtain ⟨h1, h2⟩ := frame_bounds (p := .publish p) hf hb rest hr
    rw [hb]
    exact (parse_publish m v _ (publish_header p hs.qos).2.2.2.1 _).trans
      (key _ _ _ _ (decodePublish_encode m p hs rest h1 h2))
  | pubAck p =>
    have hb := AckPacket.encode_inv he
    obtain ⟨h1, h2⟩ := frame_bounds (p := .pubAck p) hf hb rest hr
    rw [hb]
    exact (parse_pubAck m v _).trans (key _ _ _ _ (decodeAck_encode m _ p hs rest h1 h2))
  | pubRec p =>
    have hb := AckPacket.encode_inv he
    obtain ⟨h1, h2⟩ := frame_bounds (p := .pubRec p) hf hb rest hr
    rw [hb]
    exact (parse_pubRec m v _).trans (key _ _ _ _ (decodeAck_encode m _ p hs rest h1 h2))
  | pubRel p =>
    have hb := AckPacket.encode_inv he
    obtain ⟨h1, h2⟩ := frame_bounds (p := .pubRel p) hf hb rest hr
    rw [hb]
    exact (parse_pubRel m v _).trans (key _ _ _ _ (decodeAck_encode m _ p hs rest h1 h2))
  | pubComp p =>
    have hb := AckPacket.encode_inv he
    obtain ⟨h1, h2⟩ := frame_bounds (p := .pubComp p) hf hb rest hr
    rw [hb]
    exact (parse_pubComp m v _).trans (key _ _ _ _ (decodeAck_encode m _ p hs rest h1 h2))
  | subscribe p =>
    have hb := SubscribePacket.encode_inv he
    obtain ⟨h1, h2⟩ := frame_bounds (p := .subscribe p) hf hb rest hr
    rw [hb]
    exact (parse_subscribe m v _).trans (key _ _ _ _ (decodeSubscribe_encode m p hs rest h1 h2))
  | subAck p =>
    have hb := SubAckPacket.encode_inv he
    obtain ⟨h1, h2⟩ := frame_bounds (p := .subAck p) hf hb rest hr
    rw [hb, show v = .v5 from hv]
    exact (parse_subAck m _).trans (key _ _ _ _ (decodeSubAck_encode m p hs.1 hs.2 rest h1 h2))
  | unsubscribe p =>
    have hb := UnsubscribePacket.encode_inv he
    obtain ⟨h1, h2⟩ := frame_bounds (p := .unsubscribe p) hf hb rest hr
    rw [hb]
    exact (parse_unsubscribe m v _).trans (key _ _ _ _ (decodeUnsubscribe_encode m p hs rest h1 h2))
  | unsubAck p =>
    have hb := UnsubAckPacket.encode_inv he
    obtain ⟨h1, h2⟩ := frame_bounds (p := .unsubAck p) hf hb rest hr
    rw [hb, show v = .v5 from hv]
    exact (parse_unsubAck m _).trans (key _ _ _ _ (decodeUnsubAck_encode m p hs.1 hs.2 rest h1 h2))
  | pingReq => exact absurd hs id
  | pingResp => exact absurd hs id
  | auth p => exact absurd hs id
  | disconnect p =>
    obtain ⟨r, o⟩ := p
    have ho : o = none := hs
    subst ho
    obtain ⟨body, hb, hbody⟩ := DisconnectPacket.encode_inv he
    subst hbody
    rw [hb]
    exact (parse_disconnect m v _).trans (key _ _ _ _ (decodeDisconnect_encode m r rest))

end Mercurio
