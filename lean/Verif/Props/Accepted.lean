import Verif.Lemmas.Accepted

/-! # C67: what the parser accepts -/

namespace Mercurio

open Spec

theorem shr4 (c : UInt8) : (c >>> 4).toNat = c.toNat / 16 := by
  rw [UInt8.toNat_shiftRight]
  simp [Nat.shiftRight_eq_div_pow]

theorem publish_header_byte (c : UInt8) (h : (c >>> 4).toNat = 3) (q : QoS)
    (hq : q = QoS.ofU8 ((c &&& 0x06) >>> 1)) (hi : q ≠ .invalid) :
    c.toNat = 0x30 + (if decide (c &&& 0x08 ≠ 0) = true then 8 else 0) + 2 * q.level +
      (if decide (c &&& 0x01 ≠ 0) = true then 1 else 0) := by
  subst hq
  revert h hi
  have : ∀ n : Fin 256, (UInt8.ofNat n.val >>> 4).toNat = 3 →
      QoS.ofU8 ((UInt8.ofNat n.val &&& 0x06) >>> 1) ≠ .invalid →
      (UInt8.ofNat n.val).toNat = 0x30 + (if decide (UInt8.ofNat n.val &&& 0x08 ≠ 0) = true then 8 else 0) +
        2 * (QoS.ofU8 ((UInt8.ofNat n.val &&& 0x06) >>> 1)).level +
        (if decide (UInt8.ofNat n.val &&& 0x01 ≠ 0) = true then 1 else 0) := by decide +kernel
  have h2 := this ⟨c.toNat, c.toNat_lt⟩
  simpa using h2

theorem zero_flags (c : UInt8) (h : c &&& 0x0f = 0) : c.toNat = 16 * (c >>> 4).toNat := by
  revert h
  have : ∀ n : Fin 256, UInt8.ofNat n.val &&& 0x0f = 0 →
      (UInt8.ofNat n.val).toNat = 16 * (UInt8.ofNat n.val >>> 4).toNat := by decide +kernel
  have h2 := this ⟨c.toNat, c.toNat_lt⟩
  simpa using h2

/-- The header byte of an accepted PUBLISH. -/
theorem decodePublish_header {m : Mode} {c : UInt8} {b r : Buf} {p : PublishPacket}
    (hc : (c >>> 4).toNat = 3) (h : decodePublish m (c :: b) = .ok (p, r)) :
    (Packet.publish p).fixedHeader = c.toNat := by
  rw [decodePublish_def] at h
  obtain ⟨x, b1, h1, h⟩ := Dec.bind_inv h
  cases h1
  obtain ⟨_, _, _, h⟩ := Dec.bind_inv h
  obtain ⟨_, _, _, h⟩ := Dec.bind_inv h
  obtain ⟨i, _, hi, h⟩ := Dec.bind_inv h
  have hi := (decodePublishId_gives _).h _ _ _ hi
  obtain ⟨_, _, _, h⟩ := Dec.bind_inv h
  obtain ⟨_, _, _, h⟩ := Dec.bind_inv h
  obtain ⟨_, _, _, h⟩ := Dec.bind_inv h
  simp only [Dec.of_apply] at h
  split at h
  · cases h
  · cases h
    exact (publish_header_byte c hc _ rfl hi.1).symm

theorem decodeDisconnect_header {m : Mode} {c : UInt8} {b r : Buf} {p : DisconnectPacket}
    (h : decodeDisconnect m (c :: b) = .ok (p, r)) : c &&& 0x0f = 0 := by
  rw [decodeDisconnect] at h
  obtain ⟨x, b1, h1, h⟩ := Dec.bind_inv h
  cases h1
  split at h
  · cases h
  · rename_i hz; simpa using hz

theorem decodeAuth_header {m : Mode} {c : UInt8} {b r : Buf} {p : AuthPacket}
    (h : decodeAuth m (c :: b) = .ok (p, r)) : c &&& 0x0f = 0 := by
  rw [decodeAuth] at h
  obtain ⟨x, b1, h1, h⟩ := Dec.bind_inv h
  cases h1
  split at h
  · cases h
  · rename_i hz; simpa using hz

/-- C67 (partial): whatever bytes arrive, a packet the parser hands on is of the type the first byte
says, and all its fields have legal values; for PUBLISH, DISCONNECT and AUTH the flags in the first byte
are legal and (for PUBLISH) mean what the packet says.  Missing, because it is false: the flags of the
other packets are not looked at, SUBSCRIBE and UNSUBSCRIBE may come without entries, and packet
identifiers may be zero (see `C67_illegal_accepted_false`). -/
theorem C67_accepted_legal_partial (m : Mode) (v : ProtocolVersion) (c : UInt8) (b rest : Buf) (p : Packet)
    (h : parseWithVersion m v (c :: b) = .ok (p, rest)) :
    p.Legal ∧ p.fixedHeader / 16 = c.toNat / 16 ∧
    (p.fixedHeader / 16 ∈ [3, 14, 15] → p.fixedHeader = c.toNat) := by
  have go : ∀ {α : Type} {d : Dec α} {C : α → Packet}, (d >>= fun a => pure (C a)) (c :: b) = .ok (p, rest) →
      ∃ a r, d (c :: b) = .ok (a, r) ∧ p = C a := by
    intro α d C h
    obtain ⟨a, r, h1, h2⟩ := Dec.bind_inv h
    cases h2
    exact ⟨a, _, h1, rfl⟩
  have plain : ∀ k, k ∉ [3, 14, 15] → p.Legal → p.fixedHeader / 16 = k → c.toNat / 16 = k →
      p.Legal ∧ p.fixedHeader / 16 = c.toNat / 16 ∧
      (p.fixedHeader / 16 ∈ [3, 14, 15] → p.fixedHeader = c.toNat) :=
    fun k hk h1 h2 h3 => ⟨h1, by rw [h2, h3], fun hm => absurd (h2 ▸ hm) hk⟩
  simp only [parseWithVersion] at h
  generalize hc : (c >>> 4).toNat = n at h
  match n, hc, h with
  | 0, _, h => cases h
  | 1, hc, h =>
    obtain ⟨a, r, h1, rfl⟩ := go h
    exact plain 1 (by decide) ((decodeConnect_gives m).h _ _ _ h1) (by simp [Packet.fixedHeader]) (by rw [← shr4, hc])
  | 2, hc, h =>
    cases v
    · obtain ⟨a, r, h1, rfl⟩ := go h
      exact plain 2 (by decide) ((decodeConnAckV3_gives m).h _ _ _ h1) (by simp [Packet.fixedHeader]) (by rw [← shr4, hc])
    · obtain ⟨a, r, h1, rfl⟩ := go h
      exact plain 2 (by decide) ((decodeConnAckV3_gives m).h _ _ _ h1) (by simp [Packet.fixedHeader]) (by rw [← shr4, hc])
    · obtain ⟨a, r, h1, rfl⟩ := go h
      exact plain 2 (by decide) ((decodeConnAck_gives m).h _ _ _ h1) (by simp [Packet.fixedHeader]) (by rw [← shr4, hc])
  | 3, hc, h =>
    obtain ⟨a, r, h1, rfl⟩ := go h
    have := decodePublish_header hc h1
    exact ⟨(decodePublish_gives m).h _ _ _ h1, by rw [this], fun _ => this⟩
  | 4, hc, h =>
    obtain ⟨a, r, h1, rfl⟩ := go h
    exact plain 4 (by decide) ((decodeAck_gives m).h _ _ _ h1) (by simp [Packet.fixedHeader]) (by rw [← shr4, hc])
  | 5, hc, h =>
    obtain ⟨a, r, h1, rfl⟩ := go h
    exact plain 5 (by decide) ((decodeAck_gives m).h _ _ _ h1) (by simp [Packet.fixedHeader]) (by rw [← shr4, hc])
  | 6, hc, h =>
    obtain ⟨a, r, h1, rfl⟩ := go h
    exact plain 6 (by decide) ((decodeAck_gives m).h _ _ _ h1) (by simp [Packet.fixedHeader]) (by rw [← shr4, hc])
  | 7, hc, h =>
    obtain ⟨a, r, h1, rfl⟩ := go h
    exact plain 7 (by decide) ((decodeAck_gives m).h _ _ _ h1) (by simp [Packet.fixedHeader]) (by rw [← shr4, hc])
  | 8, hc, h =>
    obtain ⟨a, r, h1, rfl⟩ := go h
    exact plain 8 (by decide) ((decodeSubscribe_gives m).h _ _ _ h1) (by simp [Packet.fixedHeader]) (by rw [← shr4, hc])
  | 9, hc, h =>
    cases v
    · obtain ⟨a, r, h1, rfl⟩ := go h
      exact plain 9 (by decide) ((decodeSubAckV3_gives m).h _ _ _ h1) (by simp [Packet.fixedHeader]) (by rw [← shr4, hc])
    · obtain ⟨a, r, h1, rfl⟩ := go h
      exact plain 9 (by decide) ((decodeSubAckV3_gives m).h _ _ _ h1) (by simp [Packet.fixedHeader]) (by rw [← shr4, hc])
    · obtain ⟨a, r, h1, rfl⟩ := go h
      exact plain 9 (by decide) ((decodeSubAck_gives m).h _ _ _ h1) (by simp [Packet.fixedHeader]) (by rw [← shr4, hc])
  | 10, hc, h =>
    obtain ⟨a, r, h1, rfl⟩ := go h
    exact plain 10 (by decide) ((decodeUnsubscribe_gives m).h _ _ _ h1) (by simp [Packet.fixedHeader]) (by rw [← shr4, hc])
  | 11, hc, h =>
    cases v
    · obtain ⟨a, r, h1, rfl⟩ := go h
      exact plain 11 (by decide) ((decodeUnsubAckV3_gives m).h _ _ _ h1) (by simp [Packet.fixedHeader]) (by rw [← shr4, hc])
    · obtain ⟨a, r, h1, rfl⟩ := go h
      exact plain 11 (by decide) ((decodeUnsubAckV3_gives m).h _ _ _ h1) (by simp [Packet.fixedHeader]) (by rw [← shr4, hc])
    · obtain ⟨a, r, h1, rfl⟩ := go h
      exact plain 11 (by decide) ((decodeUnsubAck_gives m).h _ _ _ h1) (by simp [Packet.fixedHeader]) (by rw [← shr4, hc])
  | 12, hc, h =>
    obtain ⟨a, r, h1, rfl⟩ := go h
    exact plain 12 (by decide) (trivial) (by simp [Packet.fixedHeader]) (by rw [← shr4, hc])
  | 13, hc, h =>
    obtain ⟨a, r, h1, rfl⟩ := go h
    exact plain 13 (by decide) (trivial) (by simp [Packet.fixedHeader]) (by rw [← shr4, hc])
  | 14, hc, h =>
    obtain ⟨a, r, h1, rfl⟩ := go h
    have := zero_flags c (decodeDisconnect_header h1)
    rw [hc] at this
    exact ⟨(decodeDisconnect_gives m).h _ _ _ h1, by rw [this]; simp [Packet.fixedHeader], fun _ => by rw [this]; rfl⟩
  | 15, hc, h =>
    obtain ⟨a, r, h1, rfl⟩ := go h
    have := zero_flags c (decodeAuth_header h1)
    rw [hc] at this
    exact ⟨(decodeAuth_gives m).h _ _ _ h1, by rw [this]; simp [Packet.fixedHeader], fun _ => by rw [this]; rfl⟩
  | _ + 16, _, h => cases h

/-- A PUBLISH with QoS 1, packet identifier 7, topic `a` and payload `hi`. -/
example : parseWithVersion .debug .v5 [0x32, 8, 0, 1, 97, 0, 7, 0, 104, 105] =
    .ok (.publish (PublishPacket.mk false .atLeastOnce false (str "a") (some 7) (some {})
      (some (str "hi"))), []) := by decide +kernel

/-- The same with QoS 3 is refused, whatever the rest. -/
example : parseWithVersion .debug .v5 [0x36, 8, 0, 1, 97, 0, 7, 0, 104, 105] =
    .err (.mqtt .malformedPacket) := by decide +kernel

/-- C67 is false in full: these illegal packets are accepted.  A PUBREL whose first byte is 0x60, not
0x62; a SUBSCRIBE without entries (when a byte of the next packet has already arrived); a PUBLISH with
QoS 1 and packet identifier 0; a CONNECT without a will but with will QoS and will retain bits. -/
theorem C67_illegal_accepted_false :
    parse .release [0x60, 2, 0, 1] = .ok (.pubRel { packetId := 1 }, []) ∧
    parse .release [0x82, 3, 0, 1, 0, 0xc0] =
      .ok (.subscribe { packetId := 1, properties := some {}, payload := [] }, [0xc0]) ∧
    parse .release [0x32, 6, 0, 1, 97, 0, 0, 0] =
      .ok (.publish (PublishPacket.mk false .atLeastOnce false (str "a") (some 0) (some {}) (some [])),
        []) ∧
    parse .release [0x10, 14, 0, 4, 77, 81, 84, 84, 5, 0x3a, 0, 60, 0, 0, 1, 120] =
      .ok (.connect (ConnectPacket.mk .v5 { willRetain := true, cleanStart := true } 60 (some {})
        { clientId := str "x" }), []) := by
  decide +kernel

end Mercurio
