import Verif.Lemmas.Announce

/-! # Every encoder writes a first byte, the length of the body, and the body -/

namespace Mercurio

open Spec

@[simp] theorem encodeOpt_length {α : Type} (enc : α → Buf) (size : α → Nat)
    (h : ∀ a, (enc a).length = size a) (o : Option α) : (encodeOpt enc o).length = optSize size o := by
  cases o <;> simp [encodeOpt, optSize, h]

theorem frame_inj_body {h : UInt8} {rl : Nat} {body : Buf} (hl : body.length = rl)
    (hf : (frame h rl body).length ≤ 2 ^ 28 + 4) : body.length < 2 ^ 28 := by
  rw [frame, List.length_cons, List.length_append] at hf
  have hp := encodeVbi_length_pos (rl % 2 ^ 32)
  by_cases hb : rl < 2 ^ 28
  · omega
  · by_cases h32 : rl < 2 ^ 32
    · exfalso
      rw [Nat.mod_eq_of_lt h32] at hf
      have : 5 ≤ (encodeVbi rl).length := by
        have h1 : rl / 128 > 0 := by omega
        have h2 : rl / 128 / 128 > 0 := by omega
        have h3 : rl / 128 / 128 / 128 > 0 := by omega
        have h4 : rl / 128 / 128 / 128 / 128 > 0 := by omega
        simp only [encodeVbi, encodeVbiLoop, h1, h2, h3, h4, if_true, List.length_cons]
        split <;> simp
      omega
    · omega

/-- Body of a CONNECT. -/
def ConnectPacket.body (p : ConnectPacket) : Buf :=
  encodeStr p.protocolVersion.name ++ encodeU8 p.protocolVersion.level ++ [p.flags.toByte]
    ++ encodeU16 p.keepalive
    ++ (if p.protocolVersion.supportsProperties then
          encodeBlock (optProps ConnectProperties.toProps p.properties) else [])
    ++ p.payload.encodeFor p.protocolVersion p.flags

theorem ConnectPayload.sizeFor_inv {p : ConnectPayload} {v : ProtocolVersion} {f : ConnectFlags}
    {n : Nat} (h : p.sizeFor v f = .ok n) : n = (p.encodeFor v f).length := by
  have e1 : (encodeOpt encodeStr p.willTopic).length = optSize binSize p.willTopic :=
    encodeOpt_length _ _ encodeStr_length _
  have e2 : (encodeOpt encodeBin p.willPayload).length = optSize binSize p.willPayload :=
    encodeOpt_length _ _ encodeBin_length _
  have e3 : (encodeOpt encodeStr p.userName).length = optSize binSize p.userName :=
    encodeOpt_length _ _ encodeStr_length _
  have e4 : (encodeOpt encodeBin p.password).length = optSize binSize p.password :=
    encodeOpt_length _ _ encodeBin_length _
  rw [ConnectPayload.sizeFor_def] at h
  cases hw : f.willFlag with
  | false =>
    rw [hw] at h
    simp at h
    rw [← h, ConnectPayload.encodeFor_def, hw]
    cases f.userName <;> cases f.password <;> simp +arith [e3, e4]
  | true =>
    rw [hw] at h
    cases hv : v.supportsProperties with
    | false =>
      rw [hv] at h
      simp at h
      rw [← h, ConnectPayload.encodeFor_def, hw, hv]
      cases f.userName <;> cases f.password <;> simp +arith [e1, e2, e3, e4]
    | true =>
      rw [hv] at h
      simp only [Bool.and_self, if_true] at h
      cases hb : blockSize (optProps WillProperties.toProps p.willProperties) with
      | err e => rw [hb] at h; cases h
      | panic => rw [hb] at h; cases h
      | ok k =>
        obtain ⟨_, hk⟩ := blockSize_inv hb
        rw [hb] at h
        simp at h
        rw [← h, ConnectPayload.encodeFor_def, hw, hv, hk]
        cases f.userName <;> cases f.password <;> simp +arith [e1, e2, e3, e4]

theorem ConnectPacket.encode_inv {p : ConnectPacket} {bytes : Buf} (h : p.encode = .ok bytes) :
    bytes = frame 0x10 p.body.length p.body ∧
      (p.protocolVersion = .v5 →
        (optProps ConnectProperties.toProps p.properties).any Property.sizePanics = false) := by
  rw [ConnectPacket.encode_def] at h
  cases hv : p.protocolVersion.supportsProperties with
  | false =>
    rw [hv] at h
    simp only [Bool.false_eq_true, if_false, Res.pure_eq, Res.bind_ok] at h
    cases hs : p.payload.sizeFor p.protocolVersion p.flags with
    | err e => rw [hs] at h; cases h
    | panic => rw [hs] at h; cases h
    | ok n =>
      rw [hs] at h
      injection h with h
      have hn := ConnectPayload.sizeFor_inv hs
      refine ⟨?_, fun h5 => by rw [h5] at hv; cases hv⟩
      rw [← h, ConnectPacket.body, hv]
      congr 1
      simp [hn]; omega
  | true =>
    rw [hv] at h
    simp only [if_true] at h
    cases hb : blockSize (optProps ConnectProperties.toProps p.properties) with
    | err e => rw [hb] at h; cases h
    | panic => rw [hb] at h; cases h
    | ok k =>
      obtain ⟨hp, hk⟩ := blockSize_inv hb
      rw [hb] at h
      simp only [Res.bind_ok] at h
      cases hs : p.payload.sizeFor p.protocolVersion p.flags with
      | err e => rw [hs] at h; cases h
      | panic => rw [hs] at h; cases h
      | ok n =>
        rw [hs] at h
        injection h with h
        have hn := ConnectPayload.sizeFor_inv hs
        refine ⟨?_, fun _ => hp⟩
        rw [← h, ConnectPacket.body, hv]
        congr 1
        simp [hn, hk]; omega

/-- Body of a CONNACK. -/
def ConnAckPacket.body (p : ConnAckPacket) : Buf :=
  if p.protocolVersion.supportsProperties then
    [1 &&& (if p.sessionPresent then 1 else 0)] ++ encodeReason p.reasonCode
      ++ encodeBlock (optProps ConnAckProperties.toProps p.properties)
  else [1 &&& (if p.sessionPresent then 1 else 0)] ++ [connAckReturnCode p.reasonCode]

theorem ConnAckPacket.encode_inv {p : ConnAckPacket} {bytes : Buf} (h : p.encode = .ok bytes) :
    bytes = frame 0x20 p.body.length p.body := by
  rw [ConnAckPacket.encode_def] at h
  cases hv : p.protocolVersion.supportsProperties with
  | false =>
    rw [hv] at h
    simp at h
    rw [← h, ConnAckPacket.body, hv]
    simp
  | true =>
    rw [hv] at h
    simp only [if_true] at h
    cases hb : blockSize (optProps ConnAckProperties.toProps p.properties) with
    | err e => rw [hb] at h; cases h
    | panic => rw [hb] at h; cases h
    | ok k =>
      obtain ⟨hp, hk⟩ := blockSize_inv hb
      rw [hb] at h
      injection h with h
      rw [← h, ConnAckPacket.body, hv]
      simp [hk]; congr 1; omega

/-- Body of a PUBLISH. -/
def PublishPacket.body (p : PublishPacket) : Buf :=
  encodeStr p.topicName ++ encodeOpt encodeU16 p.packetId
    ++ encodeBlock (optProps PublishProperties.toProps p.properties)
    ++ encodeOpt (fun b => b) p.payload

theorem PublishPacket.encode_inv {p : PublishPacket} {bytes : Buf} (h : p.encode = .ok bytes) :
    bytes = frame p.header p.body.length p.body := by
  rw [PublishPacket.encode_def] at h
  cases hb : blockSize (optProps PublishProperties.toProps p.properties) with
  | err e => rw [hb] at h; cases h
  | panic => rw [hb] at h; cases h
  | ok k =>
    obtain ⟨hp, hk⟩ := blockSize_inv hb
    rw [hb] at h
    injection h with h
    have e1 : (encodeOpt encodeU16 p.packetId).length = optSize (fun _ => 2) p.packetId :=
      encodeOpt_length _ _ encodeU16_length _
    have e2 : (encodeOpt (fun b => b) p.payload).length = optSize List.length p.payload :=
      encodeOpt_length _ _ (fun _ => rfl) _
    rw [← h, PublishPacket.body]
    congr 1
    simp only [List.length_append, encodeStr_length, e1, e2, hk]

/-- Body of an acknowledgement. -/
def AckPacket.body (p : AckPacket) : Buf :=
  encodeU16 p.packetId
    ++ (if p.properties.isSome || p.reason != .success then
          encodeReason p.reason ++ encodeBlock (optProps AckProperties.toProps p.properties)
        else [])

theorem AckPacket.encode_inv {h0 : UInt8} {p : AckPacket} {bytes : Buf}
    (h : p.encode h0 = .ok bytes) : bytes = frame h0 p.body.length p.body := by
  rw [AckPacket.encode_def] at h
  cases hc : (p.properties.isSome || p.reason != .success) with
  | false =>
    rw [hc] at h
    simp at h
    rw [← h, AckPacket.body, hc]
    simp
  | true =>
    rw [hc] at h
    simp only [if_true] at h
    cases hb : blockSize (optProps AckProperties.toProps p.properties) with
    | err e => rw [hb] at h; cases h
    | panic => rw [hb] at h; cases h
    | ok k =>
      obtain ⟨hp, hk⟩ := blockSize_inv hb
      rw [hb] at h
      simp at h
      rw [← h, AckPacket.body, hc]
      simp [hk]

/-- Body of a SUBSCRIBE. -/
def SubscribePacket.body (p : SubscribePacket) : Buf :=
  encodeU16 p.packetId ++ encodeBlock (optProps SubscribeProperties.toProps p.properties)
    ++ p.payload.flatMap SubscribePayload.encode

theorem flatMap_length {α : Type} (l : List α) (f : α → Buf) (g : α → Nat)
    (h : ∀ a, (f a).length = g a) : (l.flatMap f).length = (l.map g).sum := by
  induction l with
  | nil => rfl
  | cons a l ih => simp [h, ih]

theorem SubscribePacket.encode_inv {p : SubscribePacket} {bytes : Buf} (h : p.encode = .ok bytes) :
    bytes = frame 0x82 p.body.length p.body := by
  rw [SubscribePacket.encode_def] at h
  cases hb : blockSize (optProps SubscribeProperties.toProps p.properties) with
  | err e => rw [hb] at h; cases h
  | panic => rw [hb] at h; cases h
  | ok k =>
    obtain ⟨hp, hk⟩ := blockSize_inv hb
    rw [hb] at h
    injection h with h
    rw [← h, SubscribePacket.body]
    congr 1
    rw [List.length_append, List.length_append, hk, encodeU16_length,
      flatMap_length _ _ (fun e => binSize e.topicFilter + 1)
        (fun e => by simp [SubscribePayload.encode])]

/-- Body of a SUBACK. -/
def SubAckPacket.body (p : SubAckPacket) : Buf :=
  encodeU16 p.packetId
    ++ (if p.protocolVersion.supportsProperties then
          encodeBlock (optProps AckProperties.toProps p.properties) else [])
    ++ p.payload.flatMap encodeReason

theorem flatMap_reason_length (l : List ReasonCode) : (l.flatMap encodeReason).length = l.length := by
  induction l with
  | nil => rfl
  | cons a l ih => simp [ih]; omega

theorem SubAckPacket.encode_inv {p : SubAckPacket} {bytes : Buf} (h : p.encode = .ok bytes) :
    bytes = frame 0x90 p.body.length p.body := by
  rw [SubAckPacket.encode_def] at h
  cases hv : p.protocolVersion.supportsProperties with
  | false =>
    rw [hv] at h
    simp at h
    rw [← h, SubAckPacket.body, hv]
    simp only [Bool.false_eq_true, if_false, List.append_nil, List.length_append,
      flatMap_reason_length, encodeU16_length]
  | true =>
    rw [hv] at h
    simp only [if_true] at h
    cases hb : blockSize (optProps AckProperties.toProps p.properties) with
    | err e => rw [hb] at h; cases h
    | panic => rw [hb] at h; cases h
    | ok k =>
      obtain ⟨hp, hk⟩ := blockSize_inv hb
      rw [hb] at h
      injection h with h
      rw [← h, SubAckPacket.body, hv]
      simp only [if_true, List.length_append, flatMap_reason_length, encodeU16_length, hk,
        List.append_assoc, Nat.add_assoc]

/-- Body of an UNSUBSCRIBE. -/
def UnsubscribePacket.body (p : UnsubscribePacket) : Buf :=
  encodeU16 p.packetId ++ encodeBlock (optProps UnsubscribeProperties.toProps p.properties)
    ++ p.payload.flatMap encodeStr

theorem UnsubscribePacket.encode_inv {p : UnsubscribePacket} {bytes : Buf}
    (h : p.encode = .ok bytes) : bytes = frame 0xa2 p.body.length p.body := by
  rw [UnsubscribePacket.encode_def] at h
  cases hb : blockSize (optProps UnsubscribeProperties.toProps p.properties) with
  | err e => rw [hb] at h; cases h
  | panic => rw [hb] at h; cases h
  | ok k =>
    obtain ⟨hp, hk⟩ := blockSize_inv hb
    rw [hb] at h
    injection h with h
    rw [← h, UnsubscribePacket.body]
    congr 1
    rw [List.length_append, List.length_append, hk, encodeU16_length,
      flatMap_length _ _ binSize encodeStr_length]

/-- Body of an UNSUBACK. -/
def UnsubAckPacket.body (p : UnsubAckPacket) : Buf :=
  encodeU16 p.packetId
    ++ (if p.protocolVersion.supportsProperties then
          encodeBlock (optProps AckProperties.toProps p.properties)
            ++ p.payload.flatMap encodeReason
        else [])

theorem UnsubAckPacket.encode_inv {p : UnsubAckPacket} {bytes : Buf} (h : p.encode = .ok bytes) :
    bytes = frame 0xb0 p.body.length p.body := by
  rw [UnsubAckPacket.encode_def] at h
  cases hv : p.protocolVersion.supportsProperties with
  | false =>
    rw [hv] at h
    simp at h
    rw [← h, UnsubAckPacket.body, hv]
    simp
  | true =>
    rw [hv] at h
    simp only [if_true] at h
    cases hb : blockSize (optProps AckProperties.toProps p.properties) with
    | err e => rw [hb] at h; cases h
    | panic => rw [hb] at h; cases h
    | ok k =>
      obtain ⟨hp, hk⟩ := blockSize_inv hb
      rw [hb] at h
      injection h with h
      rw [← h, UnsubAckPacket.body, hv]
      simp only [if_true, List.length_append, flatMap_reason_length, encodeU16_length, hk,
        List.append_assoc, Nat.add_assoc]

theorem propsSizeRes_inv {ps : List Property} {n : Nat} (h : propsSizeRes ps = .ok n) :
    n = (encodeProps ps).length := by
  rw [propsSizeRes] at h
  cases hp : ps.any Property.sizePanics with
  | true => rw [hp] at h; simp at h
  | false =>
    rw [hp] at h
    simp at h
    rw [← h, propsSize_eq ps hp]

theorem DisconnectPacket.encode_inv {p : DisconnectPacket} {bytes : Buf} (h : p.encode = .ok bytes) :
    ∃ body, bytes = frame 0xe0 body.length body
      ∧ body = encodeReason p.reason
          ++ encodeProps (optProps DisconnectProperties.toProps p.properties) := by
  rw [DisconnectPacket.encode_def] at h
  cases hb : propsSizeRes (optProps DisconnectProperties.toProps p.properties) with
  | err e => rw [hb] at h; cases h
  | panic => rw [hb] at h; cases h
  | ok k =>
    have hk := propsSizeRes_inv hb
    rw [hb] at h
    injection h with h
    refine ⟨_, ?_, rfl⟩
    rw [← h]
    congr 1
    simp [hk]

theorem AuthPacket.encode_inv {p : AuthPacket} {bytes : Buf} (h : p.encode = .ok bytes) :
    ∃ body, bytes = frame 0xf0 body.length body
      ∧ body = encodeReason p.reason ++ encodeProps p.properties.toProps := by
  rw [AuthPacket.encode_def] at h
  cases hb : propsSizeRes p.properties.toProps with
  | err e => rw [hb] at h; cases h
  | panic => rw [hb] at h; cases h
  | ok k =>
    have hk := propsSizeRes_inv hb
    rw [hb] at h
    injection h with h
    refine ⟨_, ?_, rfl⟩
    rw [← h]
    congr 1
    simp [hk]

/-- First byte of a packet, as the encoders write it. -/
def Packet.header : Packet → UInt8
  | .connect _ => 0x10
  | .connAck _ => 0x20
  | .publish p => p.header
  | .pubAck _ => 0x40
  | .pubRec _ => 0x50
  | .pubRel _ => 0x62
  | .pubComp _ => 0x70
  | .subscribe _ => 0x82
  | .subAck _ => 0x90
  | .unsubscribe _ => 0xa2
  | .unsubAck _ => 0xb0
  | .pingReq => 0xc0
  | .pingResp => 0xd0
  | .disconnect _ => 0xe0
  | .auth _ => 0xf0

theorem Packet.encode_frame {p : Packet} {bytes : Buf} (h : p.encode = .ok bytes) :
    ∃ body, bytes = frame p.header body.length body := by
  cases p with
  | connect p => exact ⟨_, (ConnectPacket.encode_inv h).1⟩
  | connAck p => exact ⟨_, ConnAckPacket.encode_inv h⟩
  | publish p => exact ⟨_, PublishPacket.encode_inv h⟩
  | pubAck p => exact ⟨_, AckPacket.encode_inv h⟩
  | pubRec p => exact ⟨_, AckPacket.encode_inv h⟩
  | pubRel p => exact ⟨_, AckPacket.encode_inv h⟩
  | pubComp p => exact ⟨_, AckPacket.encode_inv h⟩
  | subscribe p => exact ⟨_, SubscribePacket.encode_inv h⟩
  | subAck p => exact ⟨_, SubAckPacket.encode_inv h⟩
  | unsubscribe p => exact ⟨_, UnsubscribePacket.encode_inv h⟩
  | unsubAck p => exact ⟨_, UnsubAckPacket.encode_inv h⟩
  | pingReq => refine ⟨[], ?_⟩; injection h with h; rw [← h]; rfl
  | pingResp => refine ⟨[], ?_⟩; injection h with h; rw [← h]; rfl
  | disconnect p => obtain ⟨b, h1, _⟩ := DisconnectPacket.encode_inv h; exact ⟨b, h1⟩
  | auth p => obtain ⟨b, h1, _⟩ := AuthPacket.encode_inv h; exact ⟨b, h1⟩

theorem encode_ne_nil {p : Packet} {bytes : Buf} (he : p.encode = .ok bytes) : bytes ≠ [] := by
  obtain ⟨body, hb⟩ := p.encode_frame he
  rw [hb]; simp [frame]

end Mercurio
