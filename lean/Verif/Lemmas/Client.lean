import Verif.Lemmas.Stream
import Verif.Props.Packets
import Verif.Spec.Client

/-! # Lemmas about the client: re-encoding what was read, and the reader -/

namespace Mercurio

open Spec

/-! ## Re-encoding a packet that was read -/

theorem optProps_received {P : Type} (toProps : P → List Property) (d : P) (hd : toProps d = [])
    (f : P → P) (hf : ∀ p, toProps (f p) = toProps p) (o : Option P) :
    optProps toProps (some (f (o.getD d))) = optProps toProps o := by
  cases o with
  | none => simp [optProps, hf, hd]
  | some p => simp [optProps, hf]

theorem AckProperties.toProps_received (p : AckProperties) : p.received.toProps = p.toProps := by
  obtain ⟨_, u⟩ := p
  cases u with
  | none => rfl
  | some l => cases l <;> rfl

theorem ConnAckProperties.toProps_received (p : ConnAckProperties) :
    p.received.toProps = p.toProps := by
  obtain ⟨_, _, _, _, _, _, _, _, u, _, _, _, _, _, _, _, _⟩ := p
  cases u with
  | none => rfl
  | some l => cases l <;> rfl

theorem publishProps_received (o : Option PublishProperties) :
    optProps PublishProperties.toProps (some (o.getD {}).received) =
      optProps PublishProperties.toProps o :=
  optProps_received _ _ rfl _ PublishProperties.toProps_received o

theorem ackProps_received (o : Option AckProperties) :
    optProps AckProperties.toProps (some (o.getD {}).received) = optProps AckProperties.toProps o :=
  optProps_received _ _ rfl _ AckProperties.toProps_received o

theorem connAckProps_received (o : Option ConnAckProperties) :
    optProps ConnAckProperties.toProps (some (o.getD {}).received) =
      optProps ConnAckProperties.toProps o :=
  optProps_received _ _ rfl _ ConnAckProperties.toProps_received o

theorem encodeReason_received (r : ReasonCode) : encodeReason r.received = encodeReason r := by
  cases r <;> rfl

theorem flatMap_reason_received (l : List ReasonCode) :
    (l.map ReasonCode.received).flatMap encodeReason = l.flatMap encodeReason := by
  induction l with
  | nil => rfl
  | cons a l ih => simp [encodeReason_received, ih]

theorem PublishPacket.encode_received (p : PublishPacket) : p.received.encode = p.encode := by
  have h1 : optSize List.length (some (p.payload.getD [])) = optSize List.length p.payload := by
    cases p.payload <;> rfl
  have h2 : encodeOpt (fun b : Buf => b) (some (p.payload.getD [])) = encodeOpt (fun b => b) p.payload := by
    cases p.payload <;> rfl
  simp only [PublishPacket.encode_def, PublishPacket.received, publishProps_received, h1, h2,
    PublishPacket.header]

theorem AckPacket.encode_received (h : UInt8) (p : AckPacket) :
    p.received.encode h = p.encode h := by
  unfold AckPacket.received
  split
  · rfl
  · rename_i hn
    have hc : (p.properties.isSome || p.reason != .success) = true := by
      by_cases hp : p.properties = none
      · have : p.reason ≠ .success := fun hr => hn ⟨hp, hr⟩
        simp [this]
      · cases hq : p.properties with
        | none => exact absurd hq hp
        | some q => simp
    simp only [AckPacket.encode_def, ackProps_received, encodeReason_received, hc, Option.isSome_some,
      Bool.true_or]

theorem ConnAckPacket.encode_received (p : ConnAckPacket) (hv : p.protocolVersion = .v5) :
    p.received.encode = p.encode := by
  have : p.protocolVersion.supportsProperties = true := by rw [hv]; rfl
  simp only [ConnAckPacket.encode_def, ConnAckPacket.received, connAckProps_received,
    encodeReason_received, this, if_true]

theorem SubAckPacket.encode_received (p : SubAckPacket) : p.received.encode = p.encode := by
  simp only [SubAckPacket.encode_def, SubAckPacket.received, ackProps_received,
    flatMap_reason_received, List.length_map]

theorem UnsubAckPacket.encode_received (p : UnsubAckPacket) : p.received.encode = p.encode := by
  simp only [UnsubAckPacket.encode_def, UnsubAckPacket.received, ackProps_received,
    flatMap_reason_received, List.length_map]

/-- What the client reads takes as many bytes when encoded again. -/
theorem reencode_length (v : ProtocolVersion) (p : Packet) (hs : p.SurvivesTo v) {bytes : Buf}
    (he : p.encode = .ok bytes) :
    ∃ b', (p.receivedBy v).encode = .ok b' ∧ b'.length = bytes.length := by
  cases p with
  | connAck p =>
    by_cases hv : v = .v5
    · refine ⟨bytes, ?_, rfl⟩
      rw [Packet.receivedBy, if_pos hv]
      exact (p.encode_received (hs.1.mpr hv)).trans he
    · have hp : p.protocolVersion ≠ .v5 := fun h => hv (hs.1.mp h)
      have h1 := (C11_connack_v3_roundtrip .release p hp v hv []).1
      have h2 := (C11_connack_v3_roundtrip .release
        { protocolVersion := .v3_1_1, sessionPresent := p.sessionPresent
          reasonCode := (returnCode3 p.reasonCode).1, properties := none } (by simp) v hv []).1
      rw [he] at h1
      injection h1 with h1
      refine ⟨_, by rw [Packet.receivedBy, if_neg hv]; exact h2, ?_⟩
      rw [h1]; rfl
  | publish p => exact ⟨bytes, (p.encode_received).trans he, rfl⟩
  | pubAck p => exact ⟨bytes, (p.encode_received _).trans he, rfl⟩
  | pubRec p => exact ⟨bytes, (p.encode_received _).trans he, rfl⟩
  | pubRel p => exact ⟨bytes, (p.encode_received _).trans he, rfl⟩
  | pubComp p => exact ⟨bytes, (p.encode_received _).trans he, rfl⟩
  | subAck p =>
    by_cases hv : v = .v5
    · refine ⟨bytes, ?_, rfl⟩
      rw [Packet.receivedBy, if_pos hv]
      exact (p.encode_received).trans he
    · have hp : p.protocolVersion ≠ .v5 := fun h => hv (hs.1.mp h)
      rw [Packet.receivedBy, if_neg hv]
      have hx := not_supports hp
      simp only [Packet.encode, SubAckPacket.encode_def, hx, Bool.false_eq_true, if_false, Res.pure_eq,
        Res.bind_ok] at he
      injection he with he
      refine ⟨_, rfl, ?_⟩
      rw [← he]
      have h3 : ProtocolVersion.v3_1_1.supportsProperties = false := rfl
      simp [frame, flatMap_reason_length, h3, Function.comp_def]
  | unsubAck p =>
    by_cases hv : v = .v5
    · refine ⟨bytes, ?_, rfl⟩
      rw [Packet.receivedBy, if_pos hv]
      exact (p.encode_received).trans he
    · have hp : p.protocolVersion ≠ .v5 := fun h => hv (hs.1.mp h)
      rw [Packet.receivedBy, if_neg hv]
      have hx := not_supports hp
      simp only [Packet.encode, UnsubAckPacket.encode_def, hx, Bool.false_eq_true, if_false,
        Res.pure_eq] at he
      injection he with he
      refine ⟨_, rfl, ?_⟩
      rw [← he]
  | pingResp => exact ⟨bytes, he, rfl⟩
  | disconnect p =>
    refine ⟨bytes, ?_, rfl⟩
    rw [← he]
    simp only [Packet.receivedBy, Packet.received, Packet.encode, DisconnectPacket.encode_def,
      encodeReason_received]
  | connect p => exact hs.elim
  | subscribe p => exact hs.elim
  | unsubscribe p => exact hs.elim
  | pingReq => exact hs.elim
  | auth p => exact hs.elim

/-- What the client parses, whatever follows in its buffer. -/
theorem parse_for_client_exact (m : Mode) (v : ProtocolVersion) (p : Packet) (hs : p.SurvivesTo v)
    {bytes : Buf} (he : p.encode = .ok bytes) (hf : FitsMqtt bytes) (rest : Buf)
    (hr : (bytes ++ rest).length < 2 ^ 32) :
    ∃ rest', (p ≠ .pingResp → rest' = rest) ∧
      parseWithVersion m v (bytes ++ rest) = .ok (p.receivedBy v, rest') := by
  cases p with
  | connAck p =>
    by_cases hv : v = .v5
    · subst hv
      refine ⟨rest, fun _ => rfl, ?_⟩
      rw [Packet.receivedBy, if_pos rfl]
      exact parse_encode m .v5 (.connAck p) ⟨hs.1.mpr rfl, hs.2 rfl⟩ rfl bytes rest he hf hr
    · have hp : p.protocolVersion ≠ .v5 := fun h => hv (hs.1.mp h)
      refine ⟨rest, fun _ => rfl, ?_⟩
      rw [Packet.receivedBy, if_neg hv]
      exact (C11_connack_v3_roundtrip m p hp v hv rest).2 bytes he
  | publish p => exact ⟨rest, fun _ => rfl, parse_encode m v (.publish p) hs trivial bytes rest he hf hr⟩
  | pubAck p => exact ⟨rest, fun _ => rfl, parse_encode m v (.pubAck p) hs trivial bytes rest he hf hr⟩
  | pubRec p => exact ⟨rest, fun _ => rfl, parse_encode m v (.pubRec p) hs trivial bytes rest he hf hr⟩
  | pubRel p => exact ⟨rest, fun _ => rfl, parse_encode m v (.pubRel p) hs trivial bytes rest he hf hr⟩
  | pubComp p => exact ⟨rest, fun _ => rfl, parse_encode m v (.pubComp p) hs trivial bytes rest he hf hr⟩
  | subAck p =>
    by_cases hv : v = .v5
    · subst hv
      refine ⟨rest, fun _ => rfl, ?_⟩
      rw [Packet.receivedBy, if_pos rfl]
      exact parse_encode m .v5 (.subAck p) ⟨hs.1.mpr rfl, hs.2 rfl⟩ rfl bytes rest he hf hr
    · have hp : p.protocolVersion ≠ .v5 := fun h => hv (hs.1.mp h)
      refine ⟨rest, fun _ => rfl, ?_⟩
      rw [Packet.receivedBy, if_neg hv]
      exact C14_suback_v3_roundtrip m p hp v hv bytes rest he hf
  | unsubAck p =>
    by_cases hv : v = .v5
    · subst hv
      refine ⟨rest, fun _ => rfl, ?_⟩
      rw [Packet.receivedBy, if_pos rfl]
      exact parse_encode m .v5 (.unsubAck p) ⟨hs.1.mpr rfl, hs.2 rfl⟩ rfl bytes rest he hf hr
    · have hp : p.protocolVersion ≠ .v5 := fun h => hv (hs.1.mp h)
      refine ⟨rest, fun _ => rfl, ?_⟩
      rw [Packet.receivedBy, if_neg hv]
      exact C14_unsuback_v3_roundtrip m p hp v hv bytes rest he
  | pingResp =>
    have : bytes = [0xd0, 0] := by
      have h : Packet.pingResp.encode = .ok [0xd0, 0] := by decide
      rw [h] at he; injection he with he; exact he.symm
    subst this
    exact ⟨0 :: rest, fun h => absurd rfl h, by cases v <;> rfl⟩
  | disconnect p => exact ⟨rest, fun _ => rfl, parse_encode m v (.disconnect p) hs trivial bytes rest he hf hr⟩
  | connect p => exact hs.elim
  | subscribe p => exact hs.elim
  | unsubscribe p => exact hs.elim
  | pingReq => exact hs.elim
  | auth p => exact hs.elim

theorem parse_for_client (m : Mode) (v : ProtocolVersion) (p : Packet) (hs : p.SurvivesTo v)
    {bytes : Buf} (he : p.encode = .ok bytes) (hf : FitsMqtt bytes) (rest : Buf)
    (hr : (bytes ++ rest).length < 2 ^ 32) :
    ∃ rest', parseWithVersion m v (bytes ++ rest) = .ok (p.receivedBy v, rest') := by
  obtain ⟨r, _, h⟩ := parse_for_client_exact m v p hs he hf rest hr
  exact ⟨r, h⟩

/-- The client's reader takes exactly the first packet off a buffer that starts with it. -/
theorem clientReadPacket_whole (m : Mode) (v : ProtocolVersion) (p : Packet) (hs : p.SurvivesTo v)
    {bytes : Buf} (he : p.encode = .ok bytes) (hf : FitsMqtt bytes) (rest : Buf)
    (hr : (bytes ++ rest).length < 2 ^ 32) (cs : List Buf) :
    clientReadPacket m v (bytes ++ rest) cs = (.packet (p.receivedBy v), rest, cs) := by
  obtain ⟨rest', hp⟩ := parse_for_client m v p hs he hf rest hr
  obtain ⟨b', hb, hl⟩ := reencode_length v p hs he
  have hd : (bytes ++ rest).drop b'.length = rest := by rw [hl, List.drop_left]
  have hle : b'.length ≤ (bytes ++ rest).length := by rw [hl, List.length_append]; omega
  obtain ⟨x, xs, hx⟩ : ∃ x xs, bytes ++ rest = x :: xs := by
    cases h : bytes ++ rest with
    | nil => exact absurd (List.append_eq_nil_iff.mp h).1 (encode_ne_nil he)
    | cons x xs => exact ⟨x, xs, rfl⟩
  rw [hx] at hp hd hle ⊢
  cases cs with
  | nil => rw [clientReadPacket]; simp only [hp, hb, hd, if_pos hle]
  | cons c cs => rw [clientReadPacket]; simp only [hp, hb, hd, if_pos hle]

/-- A buffer of whole packets is read off packet by packet. -/
theorem clientReadStream_buffer (m : Mode) (v : ProtocolVersion) {ps : List Packet} {b : Buf}
    (h : SentTo v ps b) : ∀ (hb : b.length < 2 ^ 32) (cs : List Buf) (n : Nat),
    clientReadStream m v (ps.length + n) b cs =
      (ps.map (Packet.receivedBy v) ++ (clientReadStream m v n [] cs).1,
        (clientReadStream m v n [] cs).2) := by
  induction h with
  | nil => intro _ cs n; simp
  | @cons p bytes ps bs hs he hf hrest ih =>
    intro hb cs n
    have hb' : bs.length < 2 ^ 32 := by rw [List.length_append] at hb; omega
    have e : (p :: ps).length + n = (ps.length + n) + 1 := by simp; omega
    rw [e, clientReadStream, clientReadPacket_whole m v p hs he hf bs hb cs]
    simp only [ih hb' cs n, List.map_cons, List.cons_append]

theorem clientReadPacket_nil_cons (m : Mode) (v : ProtocolVersion) (c : Buf) (cs : List Buf)
    (hc : c ≠ []) : clientReadPacket m v [] (c :: cs) = clientReadPacket m v c cs := by
  conv => lhs; rw [clientReadPacket]
  simp [hc]

theorem clientReadStream_nil_cons (m : Mode) (v : ProtocolVersion) (n : Nat) (c : Buf)
    (cs : List Buf) (hc : c ≠ []) :
    clientReadStream m v n [] (c :: cs) = clientReadStream m v n c cs := by
  cases n with
  | zero => rfl
  | succ n => rw [clientReadStream, clientReadStream, clientReadPacket_nil_cons m v c cs hc]

theorem SentTo.ne_nil {v : ProtocolVersion} {ps : List Packet} {b : Buf} (h : SentTo v ps b)
    (hp : ps ≠ []) : b ≠ [] := by
  cases h with
  | nil => exact absurd rfl hp
  | cons hs he hf hr =>
    intro hn
    exact encode_ne_nil he (List.append_eq_nil_iff.mp hn).1

theorem clientReadStream_whole (m : Mode) (v : ProtocolVersion) {ps : List Packet} {cs : List Buf}
    (h : WholePackets v ps cs) (n : Nat) (hn : ps.length < n) :
    clientReadStream m v n [] cs = (ps.map (Packet.receivedBy v), some .closed) := by
  induction h generalizing n with
  | nil =>
    obtain ⟨k, rfl⟩ : ∃ k, n = k + 1 := ⟨n - 1, by simp at hn; omega⟩
    rfl
  | @cons ps qs c cs hc hne hl hrest ih =>
    obtain ⟨k, rfl⟩ : ∃ k, n = ps.length + k := ⟨n - ps.length, by simp at hn; omega⟩
    rw [clientReadStream_nil_cons m v _ c cs (hc.ne_nil hne),
      clientReadStream_buffer m v hc hl cs k, ih k (by simp at hn; omega), List.map_append]

end Mercurio
