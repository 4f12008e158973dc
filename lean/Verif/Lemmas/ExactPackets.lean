import Verif.Lemmas.Records

/-! # Packet decoders accept exactly what the grammar says -/

namespace Mercurio

open Spec

theorem decodeConnectProperties_exact (m : Mode) : (decodeConnectProperties m).Exact ConnectBlock :=
  decodeBlock_held ConnectProperties.keeps m _
theorem decodeWillProperties_exact (m : Mode) : (decodeWillProperties m).Exact WillBlock :=
  decodeBlock_held WillProperties.keeps m _
theorem decodeConnAckProperties_exact (m : Mode) : (decodeConnAckProperties m).Exact ConnAckBlock :=
  decodeBlock_held ConnAckProperties.keeps m _
theorem decodePublishProperties_exact (m : Mode) : (decodePublishProperties m).Exact PublishBlock :=
  decodeBlock_held PublishProperties.keeps m _
theorem decodeAckProperties_exact (m : Mode) : (decodeAckProperties m).Exact AckBlock :=
  decodeBlock_held AckProperties.keeps m _
theorem decodeSubscribeProperties_exact (m : Mode) : (decodeSubscribeProperties m).Exact SubscribeBlock :=
  decodeBlock_held SubscribeProperties.keeps m _
theorem decodeUnsubscribeProperties_exact (m : Mode) : (decodeUnsubscribeProperties m).Exact UnsubscribeBlock :=
  decodeBlock_held UnsubscribeProperties.keeps m _
theorem decodeDisconnectProperties_exact (m : Mode) : (decodeDisconnectProperties m).Exact DisconnectBlock :=
  decodeBlock_held DisconnectProperties.keeps m _
theorem decodeAuthProperties_exact (m : Mode) : (decodeAuthProperties m).Exact AuthBlock :=
  decodeBlock_held AuthProperties.keeps m _

theorem decodeIf_exact {α : Type} {d : Dec α} {W : α → Buf → Prop} (hd : d.Exact W) (c : Bool) :
    (decodeIf c d).Exact (fun o w => o.isSome = c ∧ OptOf W o w) := by
  cases c with
  | false =>
    refine (Dec.Exact.pure none).iff fun o w => ⟨?_, ?_⟩
    · rintro ⟨rfl, rfl⟩; exact ⟨rfl, rfl⟩
    · rintro ⟨h, h'⟩; cases o with
      | none => exact ⟨rfl, h'⟩
      | some a => cases h
  | true =>
    refine (hd.map some).iff fun o w => ⟨?_, ?_⟩
    · rintro ⟨a, rfl, h⟩; exact ⟨rfl, h⟩
    · rintro ⟨h, h'⟩; cases o with
      | none => cases h
      | some a => exact ⟨a, rfl, h'⟩

/-- The CONNECT flags as a table. -/
theorem connectFlags_table : ∀ b : UInt8, ∀ f : ConnectFlags, ConnectFlags.ofByte b = some f ↔
    ∃ q, q ≤ 3 ∧ (if f.willFlag then q = f.willQos.level ∧ q < 3 else f.willQos = .atMostOnce) ∧
    b.toNat = 128 * bit f.userName + 64 * bit f.password + 32 * bit f.willRetain + 8 * q +
      4 * bit f.willFlag + 2 * bit f.cleanStart := by
  have h1 : ∀ b : UInt8, ∀ f ∈ ConnectFlags.ofByte b, ∃ q ∈ [(0 : Fin 4), 1, 2, 3],
        (if f.willFlag then q.val = f.willQos.level ∧ q.val < 3 else f.willQos = .atMostOnce) ∧
        b.toNat = 128 * bit f.userName + 64 * bit f.password + 32 * bit f.willRetain + 8 * q.val +
          4 * bit f.willFlag + 2 * bit f.cleanStart := by
    refine u8_forall ?_
    decide +kernel
  have h2 : ∀ u p r w c : Bool, ∀ q : Fin 4, ∀ k : QoS,
      (if w then q.val = k.level ∧ q.val < 3 else k = .atMostOnce) →
      ConnectFlags.ofByte (UInt8.ofNat (128 * bit u + 64 * bit p + 32 * bit r + 8 * q.val +
          4 * bit w + 2 * bit c)) = some ⟨u, p, r, k, w, c⟩ := by
    intro u p r w c q k
    revert u p r w c q
    cases k <;> decide +kernel
  intro b f
  constructor
  · intro h
    obtain ⟨q, _, h3, h4⟩ := h1 b f h
    exact ⟨q.val, by omega, h3, h4⟩
  · rintro ⟨q, hq, h3, h4⟩
    have := h2 f.userName f.password f.willRetain f.willFlag f.cleanStart ⟨q, by omega⟩ f.willQos h3
    rw [← h4, UInt8.ofNat_toNat] at this
    exact this

theorem decodeConnectFlags_exact : decodeConnectFlags.Exact ConnectFlags.Of := by
  have hf : ∀ b : UInt8, (match ConnectFlags.ofByte b with
      | some f => (Pure.pure f : Dec ConnectFlags)
      | none => Dec.fail (.mqtt .malformedPacket)).Exact
      (fun f w => w = [] ∧ ConnectFlags.ofByte b = some f) := by
    intro b
    cases h : ConnectFlags.ofByte b with
    | none => exact (Dec.Exact.fail _).iff fun f w => ⟨False.elim, fun h => by cases h.2⟩
    | some f =>
      refine (Dec.Exact.pure f).iff fun f' w => ⟨?_, ?_⟩
      · rintro ⟨rfl, rfl⟩; exact ⟨rfl, rfl⟩
      · rintro ⟨rfl, h⟩; cases h; exact ⟨rfl, rfl⟩
  refine (Dec.Exact.bind decodeU8_exact hf).iff fun f w => ⟨?_, ?_⟩
  · rintro ⟨b, u, v, rfl, rfl, rfl, h⟩
    obtain ⟨q, h1, h2, h3⟩ := (connectFlags_table b f).mp h
    exact ⟨b, q, rfl, h1, h2, h3⟩
  · rintro ⟨b, q, rfl, h1, h2, h3⟩
    exact ⟨b, [b], [], rfl, rfl, rfl, (connectFlags_table b f).mpr ⟨q, h1, h2, h3⟩⟩

/-- A fixed header: first byte and length, with what is said about the first byte and, given the
length, about the rest. -/
def Spec.Framed {α : Type} (H : UInt8 → Prop) (W : Nat → α → Buf → Prop) (p : α) (w : Buf) : Prop :=
  ∃ c n l body, w = c :: (l ++ body) ∧ H c ∧ VbiOf n l ∧ W n p body

theorem framed_exact {α : Type} (m : Mode) {f : Nat → Dec α} {W : Nat → α → Buf → Prop}
    (hf : ∀ n, (f n).Exact (W n)) :
    (do advance1; let n ← decodeVbi m; f n : Dec α).Exact (Framed (fun _ => True) W) := by
  refine (Dec.Exact.bind advance1_exact fun _ => Dec.Exact.bind (decodeVbi_exact m) hf).iff
    fun p w => ⟨?_, ?_⟩
  · rintro ⟨_, _, _, rfl, ⟨c, rfl⟩, n, l, body, rfl, h1, h2⟩
    exact ⟨c, n, l, body, rfl, trivial, h1, h2⟩
  · rintro ⟨c, n, l, body, rfl, _, h1, h2⟩
    exact ⟨(), [c], l ++ body, rfl, ⟨c, rfl⟩, n, l, body, rfl, h1, h2⟩

theorem framed0_exact {α : Type} (m : Mode) {f : Nat → Dec α} {W : Nat → α → Buf → Prop}
    (hf : ∀ n, (f n).Exact (W n)) :
    (do let h ← getU8
        if h &&& 0x0f ≠ 0 then Dec.fail (.mqtt .malformedPacket)
        else
          let n ← decodeVbi m
          f n : Dec α).Exact (Framed (fun c => c.toNat % 16 = 0) W) := by
  have h0 : ∀ c : UInt8, c &&& 0x0f ≠ 0 ↔ c.toNat % 16 ≠ 0 := by
    refine u8_forall ?_; decide +kernel
  have hb : ∀ c : UInt8, (if c &&& 0x0f ≠ 0 then Dec.fail (.mqtt .malformedPacket)
        else do
          let n ← decodeVbi m
          f n : Dec α).Exact (fun p w => c.toNat % 16 = 0 ∧ Seq VbiOf W p w) := by
    intro c
    split
    · rename_i h
      exact (Dec.Exact.fail _).iff fun _ _ => ⟨False.elim, fun h' => ((h0 c).mp h) h'.1⟩
    · rename_i h
      refine (Dec.Exact.bind (decodeVbi_exact m) hf).iff fun p w => ⟨fun h' => ⟨?_, h'⟩, fun h' => h'.2⟩
      exact Decidable.byContradiction fun e => h ((h0 c).mpr e)
  refine (Dec.Exact.bind getU8_exact hb).iff fun p w => ⟨?_, ?_⟩
  · rintro ⟨c, _, _, rfl, rfl, h, n, l, body, rfl, h1, h2⟩
    exact ⟨c, n, l, body, rfl, h, h1, h2⟩
  · rintro ⟨c, n, l, body, rfl, h, h1, h2⟩
    exact ⟨c, [c], l ++ body, rfl, rfl, h, n, l, body, rfl, h1, h2⟩

theorem protocol_table (name : Str) (level : UInt8) (v : ProtocolVersion) :
    ProtocolVersion.fromNameAndLevel name level = some v ↔
      TextField name ∧ field name ++ [level] = protocolOf v := by
  have e1 : str "MQIsdp" = [77, 81, 73, 115, 100, 112] := by decide
  have e2 : str "MQTT" = [77, 81, 84, 84] := by decide
  have inj : ∀ (a b : Str) (x y : UInt8), a.length < 65536 → b.length < 65536 →
      field a ++ [x] = field b ++ [y] → a = b ∧ x = y := by
    intro a b x y ha hb h
    have := List.append_inj' h rfl
    simp only [field, List.cons.injEq] at this
    exact ⟨this.1.2.2, by simpa using this.2⟩
  constructor
  · intro h
    simp only [ProtocolVersion.fromNameAndLevel, e1, e2] at h
    split at h
    · rename_i hh; obtain ⟨rfl, rfl⟩ := hh; cases h
      exact ⟨⟨⟨"MQIsdp".toList, by decide⟩, by simp [BinaryField]⟩, rfl⟩
    · split at h
      · rename_i hh; obtain ⟨rfl, rfl⟩ := hh; cases h
        exact ⟨⟨⟨"MQTT".toList, by decide⟩, by simp [BinaryField]⟩, rfl⟩
      · split at h
        · rename_i hh; obtain ⟨rfl, rfl⟩ := hh; cases h
          exact ⟨⟨⟨"MQTT".toList, by decide⟩, by simp [BinaryField]⟩, rfl⟩
        · cases h
  · rintro ⟨h1, h2⟩
    have hl := h1.2
    unfold BinaryField at hl
    cases v <;> obtain ⟨rfl, rfl⟩ := inj _ _ _ _ (by omega) (by decide) h2 <;> decide

theorem supports_eq (v : ProtocolVersion) (b : Bool) : b = v.supportsProperties ↔ (b = true ↔ v = .v5) := by
  cases v <;> cases b <;> simp [ProtocolVersion.supportsProperties]

theorem decodeConnect_exact (m : Mode) :
    (decodeConnect m).Exact (Framed (fun _ => True) (fun _ => ConnectPacket.BodyOf)) := by
  have tail : ∀ version : ProtocolVersion, (do
      let flags ← decodeConnectFlags
      let keepalive ← decodeU16
      let properties ← decodeIf version.supportsProperties (decodeConnectProperties m)
      let clientId ← decodeStr
      let willProperties ←
        decodeIf (flags.willFlag && version.supportsProperties) (decodeWillProperties m)
      let willTopic ← decodeIf flags.willFlag decodeStr
      let willPayload ← decodeIf flags.willFlag decodeBin
      let userName ← decodeIf flags.userName decodeStr
      let password ← decodeIf flags.password decodeBin
      return { protocolVersion := version, flags, keepalive, properties,
               payload := { clientId, willProperties, willTopic, willPayload, userName, password } } :
      Dec ConnectPacket).Exact (fun p w => p.protocolVersion = version ∧
        p.BodyOf (protocolOf version ++ w)) := by
    intro version
    refine (Dec.Exact.bind decodeConnectFlags_exact fun flags =>
      Dec.Exact.bind decodeU16_exact fun keepalive =>
      Dec.Exact.bind (decodeIf_exact (decodeConnectProperties_exact m) _) fun properties =>
      Dec.Exact.bind decodeStr_exact fun clientId =>
      Dec.Exact.bind (decodeIf_exact (decodeWillProperties_exact m) _) fun willProperties =>
      Dec.Exact.bind (decodeIf_exact decodeStr_exact _) fun willTopic =>
      Dec.Exact.bind (decodeIf_exact decodeBin_exact _) fun willPayload =>
      Dec.Exact.bind (decodeIf_exact decodeStr_exact _) fun userName =>
      Dec.Exact.map (decodeIf_exact decodeBin_exact _) fun password => _).iff fun p w => ⟨?_, ?_⟩
    · rintro ⟨flags, fl, _, rfl, h1, keepalive, _, _, rfl, rfl, properties, props, _, rfl, ⟨h2, h3⟩,
        clientId, id, _, rfl, h4, will, wp, _, rfl, ⟨h5, h6⟩, topic, wt, _, rfl, ⟨h7, h8⟩,
        payload, wl, _, rfl, ⟨h9, h10⟩, user, us, pw, rfl, ⟨h11, h12⟩, password, rfl, h13, h14⟩
      refine ⟨rfl, fl, props, id, wp, wt, wl, us, pw, by simp, h1, (supports_eq _ _).mp h2, h3, h4, ?_, h6,
        h7, h8, h9, h10, h11, h12, h13, h14⟩
      show _ ↔ flags.willFlag = true ∧ version = .v5
      rw [h5, Bool.and_eq_true, ← (supports_eq version _).mp rfl]
    · rintro ⟨rfl, fl, props, id, wp, wt, wl, us, pw, hw, h1, h2, h3, h4, h5, h6, h7, h8, h9, h10, h11,
        h12, h13, h14⟩
      have hw' : w = fl ++ (be16 p.keepalive.toNat ++ (props ++ (id ++ (wp ++ (wt ++ (wl ++ (us ++ pw))))))) := by
        simpa using hw
      have h5' : p.payload.willProperties.isSome = (p.flags.willFlag && p.protocolVersion.supportsProperties) := by
        rw [Bool.eq_iff_iff, h5, Bool.and_eq_true, ← (supports_eq p.protocolVersion _).mp rfl]
      exact ⟨_, _, _, hw', h1, _, _, _, rfl, rfl, _, _, _, rfl, ⟨(supports_eq _ _).mpr h2, h3⟩, _, _, _, rfl,
        h4, _, _, _, rfl, ⟨h5', h6⟩, _, _, _, rfl, ⟨h7, h8⟩, _, _, _, rfl, ⟨h9, h10⟩, _, _, _, rfl,
        ⟨h11, h12⟩, _, rfl, h13, h14⟩
  refine framed_exact m fun n => ?_
  have mid : ∀ (name : Str) (level : UInt8), (match ProtocolVersion.fromNameAndLevel name level with
      | none => Dec.fail (.mqtt .unsupportedProtocolVersion)
      | some version => (do
      let flags ← decodeConnectFlags
      let keepalive ← decodeU16
      let properties ← decodeIf version.supportsProperties (decodeConnectProperties m)
      let clientId ← decodeStr
      let willProperties ←
        decodeIf (flags.willFlag && version.supportsProperties) (decodeWillProperties m)
      let willTopic ← decodeIf flags.willFlag decodeStr
      let willPayload ← decodeIf flags.willFlag decodeBin
      let userName ← decodeIf flags.userName decodeStr
      let password ← decodeIf flags.password decodeBin
      return { protocolVersion := version, flags, keepalive, properties,
               payload := { clientId, willProperties, willTopic, willPayload, userName, password } } :
      Dec ConnectPacket)).Exact (fun p w =>
        ProtocolVersion.fromNameAndLevel name level = some p.protocolVersion ∧
        p.BodyOf (protocolOf p.protocolVersion ++ w)) := by
    intro name level
    cases h : ProtocolVersion.fromNameAndLevel name level with
    | none => exact (Dec.Exact.fail _).iff fun p w => ⟨False.elim, fun h => by cases h.1⟩
    | some version =>
      refine (tail version).iff fun p w => ⟨?_, ?_⟩
      · rintro ⟨rfl, hb⟩; exact ⟨rfl, hb⟩
      · rintro ⟨e, hb⟩; cases e; exact ⟨rfl, hb⟩
  refine (Dec.Exact.bind decodeStr_exact fun name => Dec.Exact.bind decodeU8_exact fun level =>
    mid name level).iff fun p w => ⟨?_, ?_⟩
  · rintro ⟨name, _, _, rfl, ⟨h1, rfl⟩, level, _, w, rfl, rfl, h2, h3⟩
    obtain ⟨_, h4⟩ := (protocol_table _ _ _).mp h2
    rw [← h4] at h3
    simpa using h3
  · intro h
    obtain ⟨fl, props, id, wp, wt, wl, us, pw, hw, hr⟩ := id h
    have hn : ∃ name level, TextField name ∧ field name ++ [level] = protocolOf p.protocolVersion := by
      cases p.protocolVersion
      · exact ⟨[77, 81, 73, 115, 100, 112], 3, ⟨⟨"MQIsdp".toList, by decide⟩, by simp⟩, rfl⟩
      · exact ⟨[77, 81, 84, 84], 4, ⟨⟨"MQTT".toList, by decide⟩, by simp⟩, rfl⟩
      · exact ⟨[77, 81, 84, 84], 5, ⟨⟨"MQTT".toList, by decide⟩, by simp⟩, rfl⟩
    obtain ⟨name, level, h1, h2⟩ := hn
    have hw' : w = protocolOf p.protocolVersion ++ (fl ++ be16 p.keepalive.toNat ++ props ++ id ++ wp ++
      wt ++ wl ++ us ++ pw) := by rw [hw]; simp
    rw [hw'] at h
    refine ⟨name, field name, level :: _, ?_, ⟨h1, rfl⟩, level, [level], _, rfl, rfl,
      (protocol_table _ _ _).mpr ⟨h1, h2⟩, h⟩
    rw [hw', ← h2]; simp

theorem decodeConnAckFlags_exact : decodeConnAckFlags.Exact (fun s w => w = [UInt8.ofNat (bit s)]) := by
  have table : ∀ b : UInt8, (if 0xfe &&& b ≠ 0 then none else some (decide ((0x01 &&& b) ≠ 0))) =
      if b = 0 then some false else if b = 1 then some true else none := by
    refine u8_forall ?_; decide +kernel
  constructor
  · intro b s r h
    obtain ⟨c, b', h1, h2⟩ := Dec.bind_inv h
    obtain ⟨w, rfl, rfl⟩ := getU8_exact.sound _ _ _ h1
    have := table c
    split at h2
    · cases h2
    · rename_i hc
      cases h2
      refine ⟨[c], rfl, ?_⟩
      rw [if_neg hc] at this
      split at this
      · rename_i h0; subst h0; cases this; rfl
      · split at this
        · rename_i h0; subst h0; cases this; rfl
        · cases this
  · rintro s w r rfl _
    cases s <;> rfl

theorem decodeConnAck_exact (m : Mode) : (decodeConnAck m).Exact (Framed (fun _ => True)
    (fun n p w => Packet.BodyOf .v5 n (.connAck p) w)) := by
  refine framed_exact m fun n => (Dec.Exact.bind decodeConnAckFlags_exact fun s =>
    Dec.Exact.bind decodeReason_exact fun r => (decodeConnAckProperties_exact m).map fun q => _).iff
    fun p w => ⟨?_, ?_⟩
  · rintro ⟨s, _, _, rfl, rfl, r, rw, x, rfl, h1, q, rfl, h2⟩
    exact ⟨rfl, rw, x, q, rfl, h1, rfl, h2⟩
  · rintro ⟨h0, rw, x, q, rfl, h1, h3, h2⟩
    refine ⟨p.sessionPresent, [_], _, rfl, rfl, p.reasonCode, rw, x, rfl, h1, q, ?_, h2⟩
    cases p; simp_all

theorem decodeConnAckV3_exact (m : Mode) {v : ProtocolVersion} (hv : v ≠ .v5) :
    (decodeConnAckV3 m).Exact (Framed (fun _ => True) (fun n p w => Packet.BodyOf v n (.connAck p) w)) := by
  refine framed_exact m fun n => (Dec.Exact.bind decodeConnAckFlags_exact fun s =>
    getU8_exact.map fun b => _).iff fun p w => ⟨?_, ?_⟩
  · rintro ⟨s, _, _, rfl, rfl, b, rfl, rfl⟩
    rw [Packet.BodyOf, if_neg hv]
    exact ⟨rfl, [b], rfl, ⟨b, rfl, rfl⟩, rfl⟩
  · intro h
    simp only [Packet.BodyOf, if_neg hv] at h
    obtain ⟨h0, _, rfl, ⟨b, rfl, h1⟩, h2⟩ := h
    refine ⟨p.sessionPresent, [_], [b], rfl, rfl, b, ?_, rfl⟩
    cases p
    simp only at h0 h1 h2
    subst h0 h1 h2
    rfl

theorem decodeAck_exact (m : Mode) : (decodeAck m).Exact (Framed (fun _ => True) AckPacket.BodyOf) := by
  have body : ∀ (n : Nat) (id : UInt16), (if n = 2 then
        return { packetId := id, reason := .success, properties := none }
      else do
        let reason ← decodeReason
        let properties ← decodeAckProperties m
        return { packetId := id, reason, properties := some properties } : Dec AckPacket).Exact
      (fun p w => p.packetId = id ∧ p.BodyOf n (be16 id.toNat ++ w)) := by
    intro n id
    by_cases hn : n = 2
    · rw [if_pos hn]
      refine (Dec.Exact.pure _).iff fun p w => ⟨?_, ?_⟩
      · rintro ⟨rfl, rfl⟩; exact ⟨rfl, .inl ⟨hn, by simp, rfl, rfl⟩⟩
      · rintro ⟨rfl, ⟨_, h1, h2, h3⟩ | ⟨h, _⟩⟩
        · refine ⟨?_, by simpa using h1⟩
          cases p; simp only at h2 h3; subst h2 h3; rfl
        · exact absurd hn h
    · rw [if_neg hn]
      refine (Dec.Exact.bind decodeReason_exact fun r => (decodeAckProperties_exact m).map fun q => _).iff
        fun p w => ⟨?_, ?_⟩
      · rintro ⟨r, rw, x, rfl, h1, q, rfl, h2⟩
        exact ⟨rfl, .inr ⟨hn, rw, x, q, by simp, h1, rfl, h2⟩⟩
      · rintro ⟨rfl, ⟨h, _⟩ | ⟨_, rw, x, q, h1, h2, h3, h4⟩⟩
        · exact absurd h hn
        · refine ⟨p.reason, rw, x, by simpa using h1, h2, q, ?_, h4⟩
          cases p; simp_all
  refine framed_exact m fun n => (Dec.Exact.bind decodeU16_exact fun id => body n id).iff fun p w => ⟨?_, ?_⟩
  · rintro ⟨id, _, w, rfl, rfl, rfl, h⟩; exact h
  · intro h
    have : ∃ w', w = be16 p.packetId.toNat ++ w' := by
      rcases h with ⟨_, rfl, _⟩ | ⟨_, r, x, q, rfl, _⟩
      · exact ⟨[], by simp⟩
      · exact ⟨r ++ x, by simp⟩
    obtain ⟨w', rfl⟩ := this
    exact ⟨p.packetId, _, w', rfl, rfl, rfl, h⟩

theorem decodeUnsubAckV3_exact (m : Mode) {v : ProtocolVersion} (hv : v ≠ .v5) :
    (decodeUnsubAckV3 m).Exact (Framed (fun _ => True) (fun n p w => Packet.BodyOf v n (.unsubAck p) w)) := by
  refine framed_exact m fun n => (decodeU16_exact.map fun b => _).iff fun p w => ⟨?_, ?_⟩
  · rintro ⟨id, rfl, rfl⟩
    rw [Packet.BodyOf, if_neg hv]
    exact ⟨rfl, rfl, rfl, rfl⟩
  · intro h
    simp only [Packet.BodyOf, if_neg hv] at h
    obtain ⟨h0, rfl, h1, h2⟩ := h
    refine ⟨p.packetId, ?_, rfl⟩
    cases p
    simp only at h0 h1 h2
    subst h0 h1 h2
    rfl

theorem decodeDisconnect_exact (m : Mode) : (decodeDisconnect m).Exact
    (Framed (fun c => c.toNat % 16 = 0) (fun n p w => Packet.BodyOf .v5 n (.disconnect p) w)) := by
  have hr : ∀ n, (decodeDisconnectReason n).Exact (fun r w => if n = 0 then r = .normalDisconnection ∧ w = []
      else ReasonOf r w) := by
    intro n
    unfold decodeDisconnectReason
    by_cases h : n = 0
    · rw [if_pos (by omega)]
      exact (Dec.Exact.pure _).iff fun r w => by rw [if_pos h]
    · rw [if_neg (by omega)]
      exact decodeReason_exact.iff fun r w => by rw [if_neg h]
  refine framed0_exact m fun n => (Dec.Exact.bind (hr n) fun r =>
    (decodeIf_exact (decodeDisconnectProperties_exact m) _).map fun q => _).iff fun p w => ⟨?_, ?_⟩
  · rintro ⟨r, rw, x, rfl, h1, q, rfl, h2, h3⟩
    by_cases h0 : n = 0
    · subst h0
      rw [if_pos rfl] at h1
      obtain ⟨rfl, rfl⟩ := h1
      cases q with
      | none => exact .inl ⟨rfl, h3, rfl, rfl⟩
      | some q => simp at h2
    · rw [if_neg h0] at h1
      cases q with
      | none =>
        have : ¬ 2 ≤ n := by simpa using h2
        obtain rfl : x = [] := h3
        exact .inr (.inl ⟨by omega, by simpa using h1, rfl⟩)
      | some q =>
        have : 2 ≤ n := by simpa using h2
        exact .inr (.inr ⟨this, rw, x, q, rfl, h1, rfl, h3⟩)
  · rintro (⟨rfl, rfl, h1, h2⟩ | ⟨rfl, h1, h2⟩ | ⟨hn, r, x, q, rfl, h1, h2, h3⟩)
    · refine ⟨.normalDisconnection, [], [], rfl, by simp, none, ?_, by simp, rfl⟩
      cases p; simp_all
    · refine ⟨p.reason, w, [], by simp, by simpa using h1, none, ?_, by simp, rfl⟩
      cases p; simp_all
    · refine ⟨p.reason, r, x, rfl, (by show if _ then _ else _; rw [if_neg (by omega)]; exact h1), some q, ?_, by simpa using hn, h3⟩
      cases p; simp_all

theorem decodeAuth_exact (m : Mode) : (decodeAuth m).Exact
    (Framed (fun c => c.toNat % 16 = 0) (fun n p w => Packet.BodyOf .v5 n (.auth p) w)) := by
  refine framed0_exact m fun n => (Dec.Exact.bind decodeReason_exact fun r =>
    (decodeAuthProperties_exact m).map fun q => _).iff fun p w => ⟨?_, ?_⟩
  · rintro ⟨r, rw, x, rfl, h1, q, rfl, h2⟩; exact ⟨rw, x, rfl, h1, h2⟩
  · rintro ⟨rw, x, rfl, h1, h2⟩; exact ⟨p.reason, rw, x, rfl, h1, p.properties, rfl, h2⟩

/-! ## Lists of entries -/

theorem options_table : ∀ b : UInt8, ∀ o : SubscriptionOptions, SubscriptionOptions.ofByte b = some o ↔
    o.Admissible ∧ b.toNat = o.qos.level + 4 * bit o.noLocal + 8 * bit o.retainAsPub +
      16 * o.retainHandling.level := by
  have h1 : ∀ b : UInt8, ∀ o ∈ SubscriptionOptions.ofByte b, o.qos ≠ .invalid ∧ o.retainHandling ≠ .invalid ∧
      b.toNat = o.qos.level + 4 * bit o.noLocal + 8 * bit o.retainAsPub + 16 * o.retainHandling.level := by
    refine u8_forall ?_
    decide +kernel
  have h2 : ∀ a b : Bool, ∀ q : QoS, ∀ r : RetainHandling, q ≠ .invalid → r ≠ .invalid →
      SubscriptionOptions.ofByte (UInt8.ofNat (q.level + 4 * bit a + 8 * bit b + 16 * r.level)) =
        some ⟨q, a, b, r⟩ := by
    intro a b q r
    revert a b
    cases q <;> cases r <;> decide +kernel
  intro b o
  constructor
  · intro h
    obtain ⟨h3, h4, h5⟩ := h1 b o h
    exact ⟨⟨h3, h4⟩, h5⟩
  · rintro ⟨⟨h3, h4⟩, h5⟩
    have := h2 o.noLocal o.retainAsPub o.qos o.retainHandling h3 h4
    rw [← h5, UInt8.ofNat_toNat] at this
    exact this

theorem decodeSubscribePayload_exact : decodeSubscribePayload.Exact SubscribePayload.Of := by
  have hf : ∀ (t : Str) (b : UInt8), (match SubscriptionOptions.ofByte b with
      | none => Dec.fail (.mqtt .protocolError)
      | some opts => (Pure.pure { topicFilter := t, opts } : Dec SubscribePayload)).Exact
      (fun e w => w = [] ∧ e.topicFilter = t ∧ SubscriptionOptions.ofByte b = some e.opts) := by
    intro t b
    cases h : SubscriptionOptions.ofByte b with
    | none => exact (Dec.Exact.fail _).iff fun f w => ⟨False.elim, fun h => by cases h.2.2⟩
    | some f =>
      refine (Dec.Exact.pure _).iff fun e w => ⟨?_, ?_⟩
      · rintro ⟨rfl, rfl⟩; exact ⟨rfl, rfl, rfl⟩
      · rintro ⟨rfl, rfl, h⟩; cases h; exact ⟨rfl, rfl⟩
  refine (Dec.Exact.bind decodeStr_exact fun t => Dec.Exact.bind getU8_exact fun b => hf t b).iff
    fun e w => ⟨?_, ?_⟩
  · rintro ⟨t, _, _, rfl, ⟨h1, rfl⟩, b, _, _, rfl, rfl, rfl, rfl, h⟩
    obtain ⟨h2, h3⟩ := (options_table _ _).mp h
    exact ⟨b, h1, rfl, h2, h3⟩
  · rintro ⟨b, h1, rfl, h2, h3⟩
    exact ⟨e.topicFilter, _, _, rfl, ⟨h1, rfl⟩, b, [b], [], rfl, rfl, rfl, rfl, (options_table _ _).mpr ⟨h2, h3⟩⟩

theorem decodeSubAckReturnCode_exact : decodeSubAckReturnCode.Exact SubReturnCode3 := by
  refine (getU8_exact.map subAckReasonOfReturnCode).iff fun r w => ⟨?_, ?_⟩
  · rintro ⟨b, rfl, rfl⟩; exact ⟨b, rfl, rfl⟩
  · rintro ⟨b, rfl, rfl⟩; exact ⟨b, rfl, rfl⟩

theorem payloadLoop_sound {α : Type} {d : Dec α} {W : α → Buf → Prop} (hd : d.Exact W) (next : Nat) :
    ∀ fuel b as r, payloadLoop d next fuel b = .ok (as, r) → ∃ w, b = w ++ r ∧ ListOf W as w := by
  intro fuel
  induction fuel with
  | zero =>
    intro b as r h
    simp only [payloadLoop] at h
    split at h
    · cases h
    · cases h; exact ⟨[], rfl, .nil⟩
  | succ fuel ih =>
    intro b as r h
    simp only [payloadLoop] at h
    split at h
    · split at h
      · cases h
      · cases h
      · rename_i a rest ha
        split at h
        · cases h
        · cases h
        · rename_i as' rest' hr
          cases h
          obtain ⟨u, rfl, hu⟩ := hd.sound _ _ _ ha
          obtain ⟨w, rfl, hw⟩ := ih _ _ _ hr
          exact ⟨u ++ w, by simp, .cons hu hw⟩
    · cases h; exact ⟨[], rfl, .nil⟩

theorem payloadLoop_complete {α : Type} {d : Dec α} {W : α → Buf → Prop} (hd : d.Exact W)
    (hp : ∀ a u, W a u → 0 < u.length) {as : List α} {w : Buf} (h : ListOf W as w) (r : Buf) :
    ∀ fuel, w.length ≤ fuel → (w ++ r).length < 2 ^ 32 →
      payloadLoop d r.length fuel (w ++ r) = .ok (as, r) := by
  induction h with
  | nil => intro fuel _ _; cases fuel <;> simp [payloadLoop]
  | @cons a as u w hu _ ih =>
    intro fuel hf hl
    have hpos := hp a u hu
    simp only [List.length_append] at hf hl
    cases fuel with
    | zero => omega
    | succ fuel =>
      rw [payloadLoop, if_pos (by simp only [List.length_append]; omega), List.append_assoc,
        hd.complete a u (w ++ r) hu (by simp only [List.length_append]; omega)]
      simp only
      rw [ih fuel (by omega) (by simp only [List.length_append]; omega)]

/-- The decoders of SUBSCRIBE, UNSUBSCRIBE, SUBACK and UNSUBACK have one shape. -/
def decodeListed {P α β : Type} (m : Mode) (dp : Dec P) (de : Dec α) (f : UInt16 → P → List α → β) : Dec β := do
  advance1
  let remainingLen ← decodeVbi m
  let bufferLen ← remaining
  let packetId ← decodeU16
  let properties ← dp
  let payload ← decodeEntries m bufferLen remainingLen de
  return f packetId properties payload

theorem liftRes_inv {α : Type} {x : Res α} {b r : Buf} {a : α} (h : liftRes x b = .ok (a, r)) :
    x = .ok a ∧ r = b := by
  cases x <;> simp only [liftRes] at h <;> cases h
  exact ⟨rfl, rfl⟩

theorem decodeListed_sound {P α β : Type} {m : Mode} {dp : Dec P} {de : Dec α} {f : UInt16 → P → List α → β}
    {B : P → Buf → Prop} {W : α → Buf → Prop} (hp : dp.Exact B) (he : de.Exact W) {b r : Buf} {p : β}
    (h : decodeListed m dp de f b = .ok (p, r)) :
    ∃ c n l id q es x e, b = c :: (l ++ (be16 id.toNat ++ x ++ e) ++ r) ∧ VbiOf n l ∧ B q x ∧
      ListOf W es e ∧ p = f id q es := by
  rw [decodeListed] at h
  obtain ⟨_, b1, h1, g1⟩ := Dec.bind_inv h
  obtain ⟨_, rfl, c, rfl⟩ := advance1_exact.sound _ _ _ h1
  obtain ⟨n, b2, h2, g2⟩ := Dec.bind_inv g1
  obtain ⟨l, rfl, hl⟩ := (decodeVbi_exact m).sound _ _ _ h2
  obtain ⟨bl, b3, h3, g3⟩ := Dec.bind_inv g2
  cases h3
  obtain ⟨id, b4, h4, g4⟩ := Dec.bind_inv g3
  obtain ⟨_, rfl, rfl⟩ := decodeU16_exact.sound _ _ _ h4
  obtain ⟨q, b5, h5, g5⟩ := Dec.bind_inv g4
  obtain ⟨x, rfl, hx⟩ := hp.sound _ _ _ h5
  obtain ⟨es, b6, h6, g6⟩ := Dec.bind_inv g5
  cases g6
  rw [decodeEntries] at h6
  obtain ⟨k, b7, h7, g7⟩ := Dec.bind_inv h6
  cases h7
  split at g7
  · cases g7
  · obtain ⟨next, b8, h8, g8⟩ := Dec.bind_inv g7
    obtain ⟨_, rfl⟩ := liftRes_inv h8
    obtain ⟨e, rfl, he'⟩ := payloadLoop_sound he _ _ _ _ _ g8
    exact ⟨c, n, l, id, q, es, x, e, by simp, hl, hx, he', rfl⟩

theorem Spec.ListOf.pos {α : Type} {W : α → Buf → Prop} (hp : ∀ a u, W a u → 0 < u.length) {as : List α}
    {w : Buf} (h : ListOf W as w) (hne : as ≠ []) : 0 < w.length := by
  cases h with
  | nil => exact absurd rfl hne
  | cons hu _ => have := hp _ _ hu; rw [List.length_append]; omega

theorem decodeListed_complete {P α β : Type} (m : Mode) {dp : Dec P} {de : Dec α} (f : UInt16 → P → List α → β)
    {B : P → Buf → Prop} {W : α → Buf → Prop} (hp : dp.Exact B) (he : de.Exact W)
    (hpos : ∀ a u, W a u → 0 < u.length) (c : UInt8) {l : Buf} (id : UInt16) {q : P} {es : List α} {x e : Buf}
    (r : Buf) (hl : VbiOf (be16 id.toNat ++ x ++ e).length l) (hx : B q x) (hes : ListOf W es e) (hne : es ≠ [])
    (hlen : (l ++ (be16 id.toNat ++ x ++ e) ++ r).length < 2 ^ 32) :
    decodeListed m dp de f (c :: (l ++ (be16 id.toNat ++ x ++ e) ++ r)) = .ok (f id q es, r) := by
  have hpe := hes.pos hpos hne
  simp only [List.length_append] at hlen
  rw [decodeListed, Dec.bind_ok (show advance1 (c :: _) = .ok ((), _) from rfl), List.append_assoc,
    Dec.bind_ok ((decodeVbi_exact m).complete _ _ _ hl (by simp only [List.length_append]; omega)),
    Dec.bind_ok (show remaining _ = .ok (_, _) from rfl)]
  generalize hB : (be16 id.toNat ++ x ++ e ++ r).length = bl
  generalize hN : (be16 id.toNat ++ x ++ e).length = n
  have hbn : bl = n + r.length := by rw [← hB, ← hN, List.length_append]
  rw [List.append_assoc, List.append_assoc,
    Dec.bind_ok (decodeU16_exact.complete id _ (x ++ (e ++ r)) rfl (by simp only [List.length_append]; omega)),
    Dec.bind_ok (hp.complete q x (e ++ r) hx (by simp only [List.length_append]; omega))]
  have hd : decodeEntries m bl n de (e ++ r) = .ok (es, r) := by
    rw [decodeEntries, Dec.bind_ok (show remaining _ = .ok (_, _) from rfl),
      if_neg (by rw [List.length_append]; omega), usizeSub_ok m (by omega), hbn, Nat.add_sub_cancel_left,
      Dec.bind_ok (show liftRes (Res.ok _) _ = .ok (_, _) from rfl)]
    exact payloadLoop_complete he hpos hes r _ (by rw [List.length_append]; omega)
      (by simp only [List.length_append]; omega)
  rw [Dec.bind_ok hd]
  rfl

theorem decodeSubAckV3_sound {m : Mode} {b r : Buf} {p : SubAckPacket}
    (h : decodeSubAckV3 m b = .ok (p, r)) :
    ∃ c n l id es e, b = c :: (l ++ (be16 id.toNat ++ e) ++ r) ∧ VbiOf n l ∧ ListOf SubReturnCode3 es e ∧
      p = { protocolVersion := .v3_1_1, packetId := id, properties := none, payload := es } := by
  rw [decodeSubAckV3] at h
  obtain ⟨_, b1, h1, g1⟩ := Dec.bind_inv h
  obtain ⟨_, rfl, c, rfl⟩ := advance1_exact.sound _ _ _ h1
  obtain ⟨n, b2, h2, g2⟩ := Dec.bind_inv g1
  obtain ⟨l, rfl, hl⟩ := (decodeVbi_exact m).sound _ _ _ h2
  obtain ⟨bl, b3, h3, g3⟩ := Dec.bind_inv g2
  cases h3
  obtain ⟨id, b4, h4, g4⟩ := Dec.bind_inv g3
  obtain ⟨_, rfl, rfl⟩ := decodeU16_exact.sound _ _ _ h4
  obtain ⟨next, b5, h5, g5⟩ := Dec.bind_inv g4
  obtain ⟨_, rfl⟩ := liftRes_inv h5
  obtain ⟨es, b6, h6, g6⟩ := Dec.bind_inv g5
  cases g6
  obtain ⟨e, rfl, he⟩ := payloadLoop_sound decodeSubAckReturnCode_exact _ _ _ _ _ h6
  exact ⟨c, n, l, id, es, e, by simp, hl, he, rfl⟩

theorem decodeSubAckV3_complete (m : Mode) (c : UInt8) {l : Buf} (id : UInt16) {es : List ReasonCode} {e : Buf}
    (r : Buf) (hl : VbiOf (be16 id.toNat ++ e).length l) (hes : ListOf SubReturnCode3 es e)
    (hlen : (l ++ (be16 id.toNat ++ e) ++ r).length < 2 ^ 32) :
    decodeSubAckV3 m (c :: (l ++ (be16 id.toNat ++ e) ++ r)) =
      .ok ({ protocolVersion := .v3_1_1, packetId := id, properties := none, payload := es }, r) := by
  simp only [List.length_append] at hlen
  rw [decodeSubAckV3, Dec.bind_ok (show advance1 (c :: _) = .ok ((), _) from rfl), List.append_assoc,
    Dec.bind_ok ((decodeVbi_exact m).complete _ _ _ hl (by simp only [List.length_append]; omega)),
    Dec.bind_ok (show remaining _ = .ok (_, _) from rfl)]
  generalize hB : (be16 id.toNat ++ e ++ r).length = bl
  generalize hN : (be16 id.toNat ++ e).length = n
  have hbn : bl = n + r.length := by rw [← hB, ← hN, List.length_append]
  rw [List.append_assoc,
    Dec.bind_ok (decodeU16_exact.complete id _ (e ++ r) rfl (by simp only [List.length_append]; omega)),
    usizeSub_ok m (by omega), hbn, Nat.add_sub_cancel_left,
      Dec.bind_ok (show liftRes (Res.ok _) _ = .ok (_, _) from rfl)]
  have hd : payloadList decodeSubAckReturnCode r.length (e ++ r) = .ok (es, r) :=
    payloadLoop_complete decodeSubAckReturnCode_exact (by rintro a u ⟨b, rfl, _⟩; simp) hes r _
      (by rw [List.length_append]; omega) (by simp only [List.length_append]; omega)
  rw [Dec.bind_ok hd]
  rfl

/-! ## PUBLISH -/

theorem publishFlags_table : ∀ c : UInt8, ∀ (d r : Bool) (q : QoS), q ≠ .invalid →
    ((decide (c &&& 0x08 ≠ 0) = d ∧ QoS.ofU8 ((c &&& 0x06) >>> 1) = q ∧ decide (c &&& 0x01 ≠ 0) = r) ↔
      c.toNat % 16 = 8 * bit d + 2 * q.level + bit r) := by
  have : ∀ q : QoS, q ≠ .invalid → ∀ d r : Bool, ∀ c : UInt8, 
    ((decide (c &&& 0x08 ≠ 0) = d ∧ QoS.ofU8 ((c &&& 0x06) >>> 1) = q ∧ decide (c &&& 0x01 ≠ 0) = r) ↔
      c.toNat % 16 = 8 * bit d + 2 * q.level + bit r) := by
    intro q hq d r
    cases q
    · cases d <;> cases r <;> refine u8_forall ?_ <;> decide +kernel
    · cases d <;> cases r <;> refine u8_forall ?_ <;> decide +kernel
    · cases d <;> cases r <;> refine u8_forall ?_ <;> decide +kernel
    · exact absurd rfl hq
  exact fun c d r q hq => this q hq d r c

theorem decodePublishId_exact (q : QoS) : (decodePublishId q).Exact (fun o w => q ≠ .invalid ∧
    (o.isSome ↔ q ≠ .atMostOnce) ∧ OptOf (fun k w => w = be16 k.toNat) o w) := by
  cases q with
  | atMostOnce =>
    refine (Dec.Exact.pure none).iff fun o w => ⟨?_, ?_⟩
    · rintro ⟨rfl, rfl⟩; exact ⟨by simp, by simp, rfl⟩
    · rintro ⟨_, h, h'⟩
      cases o with
      | none => exact ⟨rfl, h'⟩
      | some a => simp at h
  | invalid => exact (Dec.Exact.fail _).iff fun _ _ => ⟨False.elim, fun h => h.1 rfl⟩
  | _ =>
    refine (decodeU16_exact.map some).iff fun o w => ⟨?_, ?_⟩
    · rintro ⟨a, rfl, h⟩; exact ⟨by simp, by simp, h⟩
    · rintro ⟨_, h, h'⟩
      cases o with
      | none => simp at h
      | some a => exact ⟨a, rfl, h'⟩

theorem decodePublish_sound {m : Mode} {b r : Buf} {p : PublishPacket} (v : ProtocolVersion)
    (h : decodePublish m b = .ok (p, r)) :
    ∃ c n l body, b = c :: (l ++ body ++ r) ∧ VbiOf n l ∧
      c.toNat % 16 = 8 * bit p.dup + 2 * p.qos.level + bit p.retain ∧ (Packet.publish p).BodyOf v n body := by
  rw [decodePublish_def] at h
  obtain ⟨c, b1, h1, g1⟩ := Dec.bind_inv h
  obtain ⟨_, rfl, rfl⟩ := getU8_exact.sound _ _ _ h1
  obtain ⟨n, b2, h2, g2⟩ := Dec.bind_inv g1
  obtain ⟨l, rfl, hl⟩ := (decodeVbi_exact m).sound _ _ _ h2
  obtain ⟨t, b3, h3, g3⟩ := Dec.bind_inv g2
  obtain ⟨tw, rfl, ht⟩ := decodeStr_exact.sound _ _ _ h3
  obtain ⟨id, b4, h4, g4⟩ := Dec.bind_inv g3
  obtain ⟨iw, rfl, hq, hi, hiw⟩ := (decodePublishId_exact _).sound _ _ _ h4
  obtain ⟨q, b5, h5, g5⟩ := Dec.bind_inv g4
  obtain ⟨x, rfl, hx⟩ := (decodePublishProperties_exact m).sound _ _ _ h5
  obtain ⟨bs, b6, h6, g6⟩ := Dec.bind_inv g5
  obtain ⟨_, rfl⟩ := liftRes_inv h6
  obtain ⟨k, b7, h7, g7⟩ := Dec.bind_inv g6
  obtain ⟨_, rfl⟩ := liftRes_inv h7
  simp only [Dec.of_apply] at g7
  split at g7
  · cases g7
  · cases g7
    refine ⟨c, n, l, tw ++ iw ++ x ++ b7.take k, by simp, hl,
      (publishFlags_table c _ _ _ hq).mp ⟨rfl, rfl, rfl⟩, tw, iw, x, q, b7.take k, rfl, ht, hq, hi, hiw, rfl,
      hx, rfl⟩

theorem Spec.TextOf.length {s : Str} {w : Buf} (h : TextOf s w) : w.length = binSize s := by
  rw [h.2, field, binSize]; simp

theorem Spec.vbi_of {n : Nat} (h : n < 2 ^ 28) : VbiOf n (vbi n) := by
  have := decodeVbi_encode .release n h []
  rw [encodeVbi_eq_vbi (by omega), List.append_nil] at this
  obtain ⟨w, h1, h2⟩ := (decodeVbi_exact .release).sound _ _ _ this
  rw [List.append_nil] at h1
  rw [h1]; exact h2

theorem Property.of_wire {p : Property} (h : p.Admissible) : p.Of p.wire := by
  refine ⟨p.wire.take 1, p.wire.tail, (by cases p <;> rfl), ?_, h, ?_⟩
  · have hs : ∀ b : UInt8, ¬ Continues b → VbiOf b.toNat [b] := by
      intro b hb
      refine ⟨[], b, rfl, by simp, by simp, hb, ?_⟩
      have : b.toNat < 128 := by unfold Continues at hb; omega
      simp [base128, Nat.mod_eq_of_lt this]
    have hh : p.number < 128 := by rw [Property.number_id]; cases p <;> simp [Property.id]
    have := hs (p.wire.headD 0) (by unfold Continues; unfold Property.number at hh; omega)
    cases p <;> exact this
  · cases p
    case subscriptionIdentifier v => exact vbi_of h
    case retainAvailable v => exact ⟨_, rfl, by cases v <;> simp⟩
    case wildcardSubscriptionAvailable v => exact ⟨_, rfl, by cases v <;> simp⟩
    case subscriptionIdentifierAvailable v => exact ⟨_, rfl, by cases v <;> simp⟩
    case sharedSubscriptionAvailable v => exact ⟨_, rfl, by cases v <;> simp⟩
    all_goals rfl

theorem Spec.list_of_wire {ps : List Property} (h : ∀ p ∈ ps, p.Admissible) :
    ListOf Property.Of ps (ps.flatMap Property.wire) := by
  induction ps with
  | nil => exact .nil
  | cons p ps ih =>
    exact .cons (Property.of_wire (h p (by simp))) (ih fun q hq => h q (by simp [hq]))

theorem PublishProperties.held_toProps (q : PublishProperties) : q.held = q.toProps := by
  have h1 : ∀ {α : Type} (C : α → Property) (o : Option α), one C o = o.toList.map C := by
    intro α C o; cases o <;> rfl
  have h2 : ∀ o, users o = (o.getD []).map (fun kv => Property.userProperty kv.1 kv.2) := by
    intro o; cases o <;> rfl
  simp only [held, toProps, h1, h2]

theorem Spec.perm_of_kinds {l r : List Property}
    (h : ∀ k, l.filter (·.number = k) = r.filter (·.number = k)) : l.Perm r := by
  rw [List.perm_iff_count]
  intro a
  have e : ∀ l : List Property, l.count a = (l.filter (·.number = a.number)).count a := by
    intro l
    rw [List.count_filter (by simp)]
  rw [e l, e r, h]

theorem PublishProperties.held_once (q : PublishProperties) (k : Nat) (hk : k ≠ 0x26) :
    (q.held.filter (·.number = k)).length ≤ 1 := by
  change (pick k _).length ≤ 1
  have one1 : ∀ {α : Type} (C : α → Property) (o : Option α), (one C o).length ≤ 1 := by
    intro α C o; cases o <;> simp [one]
  by_cases h01 : 0x01 = k
  · subst h01; kind [held]; exact one1 _ _
  by_cases h02 : 0x02 = k
  · subst h02; kind [held]; exact one1 _ _
  by_cases h03 : 0x03 = k
  · subst h03; kind [held]; exact one1 _ _
  by_cases h08 : 0x08 = k
  · subst h08; kind [held]; exact one1 _ _
  by_cases h09 : 0x09 = k
  · subst h09; kind [held]; exact one1 _ _
  by_cases h0b : 0x0b = k
  · subst h0b; kind [held]; exact one1 _ _
  by_cases h23 : 0x23 = k
  · subst h23; kind [held]; exact one1 _ _
  kind [held, hk, h01, h02, h03, h08, h09, h0b, h23]

theorem PublishPacket.ShortOf.block {q : PublishProperties} {ps : List Property} (hu : q.userProperty ≠ some [])
    (ha : ∀ r ∈ ps, r.Admissible) (hk : ∀ k, q.held.filter (·.number = k) = ps.filter (·.number = k))
    (hl : (ps.flatMap Property.wire).length < 2 ^ 28) :
    PublishBlock q (vbi (ps.flatMap Property.wire).length ++ ps.flatMap Property.wire) ∧
    blockSize q.toProps = .ok (vbi (ps.flatMap Property.wire).length ++ ps.flatMap Property.wire).length := by
  have hp := perm_of_kinds hk
  have hm : ps.map Property.misread = ps := by
    have hnone : ∀ r ∈ ps, r.NotRRI := by
      intro r hr
      cases r
      case requestResponseInformation x =>
        have h1 : Property.requestResponseInformation x ∈ q.held.filter (·.number = 0x19) := by
          rw [hk]; exact List.mem_filter.mpr ⟨hr, rfl⟩
        have h2 : pick 0x19 q.held = [] := by kind [PublishProperties.held]
        rw [show q.held.filter (·.number = 0x19) = [] from h2] at h1
        cases h1
      all_goals trivial
    have : ∀ r : Property, r.NotRRI → r.misread = r := by
      intro r h; cases r <;> first | rfl | exact absurd h id
    exact (List.map_congr_left fun r hr => this r (hnone r hr)).trans (List.map_id' _)
  refine ⟨⟨hu, ps, _, _, rfl, vbi_of hl, list_of_wire ha, ?_⟩, ?_⟩
  · intro i
    rw [hm, hk i]
    split
    · rfl
    · rename_i hi
      have := q.held_once i hi
      rw [hk i] at this
      cases h : ps.filter (·.number = i) with
      | nil => rfl
      | cons a l =>
        rw [h] at this
        cases l with
        | nil => rfl
        | cons b l => simp at this
  · rw [← q.held_toProps]
    have hadm : ∀ r ∈ q.held, r.Admissible := fun r hr => ha r (hp.mem_iff.mp hr)
    have hnp : q.held.any Property.sizePanics = false := by
      rw [List.any_eq_false]
      intro r hr; rw [(hadm r hr).no_panic]; simp
    have henc : encodeProps q.held = q.held.flatMap Property.wire := by
      rw [encodeProps, List.flatMap_def, List.flatMap_def,
        List.map_congr_left fun r hr => Property.encode_wire r (hadm r hr)]
    have hlen : (q.held.flatMap Property.wire).length = (ps.flatMap Property.wire).length :=
      (hp.flatMap_right _).length_eq
    have hsz := propsSize_eq q.held hnp
    rw [henc, hlen] at hsz
    rw [blockSize_ok hnp (by omega), encodeBlock, List.length_append, henc, hlen, List.length_append, hsz,
      encodeVbi_eq_vbi (by omega), Nat.mod_eq_of_lt (by omega)]

theorem decodePublish_complete (m : Mode) {c : UInt8} {l body : Buf} {p : PublishPacket}
    (r : Buf) (hl : VbiOf body.length l)
    (hc : c.toNat % 16 = 8 * bit p.dup + 2 * p.qos.level + bit p.retain)
    (hb : p.ShortOf body) (hlen : (l ++ body ++ r).length < 2 ^ 32) :
    decodePublish m (c :: (l ++ body ++ r)) = .ok (p, r) := by
  have hlt := hl.lt
  obtain ⟨t, i, q, ps, pl, rfl, ht, hq, hi, hiw, hp, hu, ha, hk, hpl⟩ := hb
  obtain ⟨hx, hbs⟩ := PublishPacket.ShortOf.block hu ha hk (by simp only [List.length_append] at hlt; omega)
  generalize hX : vbi (ps.flatMap Property.wire).length ++ ps.flatMap Property.wire = x at *
  have hil : i.length = optSize (fun _ => 2) p.packetId := by
    cases hpi : p.packetId with
    | none => rw [hpi] at hiw; rw [hiw]; rfl
    | some k => rw [hpi] at hiw; rw [hiw]; rfl
  have htl := ht.length
  obtain ⟨f1, f2, f3⟩ := (publishFlags_table c _ _ _ hq).mpr hc
  generalize hN : (t ++ i ++ x ++ pl).length = n' at hl
  simp only [List.length_append] at hlen hN
  rw [decodePublish_def, Dec.bind_ok (show getU8 (c :: _) = .ok (_, _) from rfl), List.append_assoc,
    Dec.bind_ok ((decodeVbi_exact m).complete _ _ _ hl (by simp only [List.length_append]; omega)),
    f1, f2, f3]
  simp only [List.append_assoc]
  rw [Dec.bind_ok (decodeStr_exact.complete _ _ _ ht (by simp only [List.length_append]; omega)),
    Dec.bind_ok ((decodePublishId_exact p.qos).complete _ _ _ ⟨hq, hi, hiw⟩
      (by simp only [List.length_append]; omega)),
    Dec.bind_ok ((decodePublishProperties_exact m).complete _ _ _ hx
      (by simp only [List.length_append]; omega)), hbs,
    Dec.bind_ok (show liftRes (Res.ok _) _ = .ok (_, _) from rfl), usizeSub_ok m (by omega),
    Dec.bind_ok (show liftRes (Res.ok _) _ = .ok (_, _) from rfl), Dec.of_apply]
  have hk : n' - (binSize p.topicName + optSize (fun _ => 2) p.packetId + x.length) = pl.length := by omega
  rw [hk, if_neg (by simp)]
  simp only [List.take_left, List.drop_left]
  cases p
  simp_all

end Mercurio
