import Verif.Lemmas.Abort
import Verif.Lemmas.Builds
import Verif.Props.Accepted

/-! # C20: exactly which bytes abort the reader -/

namespace Mercurio

open Spec

theorem ping_calm (c : UInt8) (t : Buf) (p : Packet) : (decodePing >>= fun _ => pure p) (c :: t) ≠ .panic := by
  intro h; cases h

/-- Parsing, for any version of the protocol. -/
theorem parse_panic (v : ProtocolVersion) (c : UInt8) (t : Buf) (ht : t.length < 2 ^ 32) :
    parseWithVersion .release v (c :: t) = .panic ↔ Heads (CutShort c) t := by
  have hc16 : c.toNat / 16 < 16 := by have := c.toNat_lt; omega
  have hk := shr4 c
  have low : ∀ c : UInt8, (c.toNat / 16 = 14 ∧ c &&& 0x0f = 0 ↔ c.toNat = 0xe0) ∧
      (c.toNat / 16 = 15 ∧ c &&& 0x0f = 0 ↔ c.toNat = 0xf0) := by
    refine u8_forall ?_; decide +kernel
  have never : ∀ (k : Nat), c.toNat / 16 = k → k ∈ [0, 1, 3, 9, 10, 11, 12, 13] → ¬ Heads (CutShort c) t := by
    rintro k hk hmem ⟨n, l, body, _, _, h⟩
    simp only [List.mem_cons, List.not_mem_nil, or_false] at hmem
    simp only [CutShort, List.mem_cons, List.not_mem_nil, or_false] at h
    rcases h with ⟨h, _⟩ | ⟨h, _⟩ | ⟨h, _⟩ | ⟨h, _⟩ | ⟨h, _⟩ <;> omega
  have no : ∀ {α : Type} {d : Dec α} {C : α → Packet} (k : Nat), c.toNat / 16 = k →
      k ∈ [0, 1, 3, 9, 10, 11, 12, 13] → d (c :: t) ≠ .panic →
      ((d >>= fun p => pure (C p)) (c :: t) = .panic ↔ Heads (CutShort c) t) := by
    intro α d C k hk hmem hd
    rw [map_panic]
    exact iff_of_false hd (never k hk hmem)
  have only : ∀ {A : Nat → Buf → Prop}, (∀ n body, A n body ↔ CutShort c n body) →
      (Heads A t ↔ Heads (CutShort c) t) := fun h => Heads.congr fun n body _ _ => h n body
  obtain ⟨k, hkk⟩ : ∃ k, c.toNat / 16 = k := ⟨_, rfl⟩
  have hkind : (c >>> 4).toNat = k := by rw [hk, hkk]
  have hk16 : k < 16 := by omega
  simp only [parseWithVersion]
  have cut : ∀ n body, CutShort c n body ↔
      (k = 2 ∧ body ∈ [[], [0], [1]]) ∨ (k ∈ [4, 5, 6, 7] ∧ body.length = 2 ∧ n ≠ 2) ∨
      (k = 8 ∧ ∃ i x q es us f t, body = (be16 i ++ x ++ us) ++ t ∧ i < 65536 ∧ SubscribeBlock q x ∧
        ListOf SubscribePayload.Of es us ∧ TextOf f t ∧ (be16 i ++ x ++ us).length < n ∧ n ≤ body.length) ∨
      (k = 14 ∧ c &&& 0x0f = 0 ∧ 1 ≤ n ∧ body = []) ∨ (k = 15 ∧ c &&& 0x0f = 0 ∧ body = []) := by
    intro n body
    rw [CutShort, ← (low c).1, ← (low c).2, hkk]
    simp only [and_assoc]
  have hcases : k = 0 ∨ k = 1 ∨ k = 2 ∨ k = 3 ∨ k = 4 ∨ k = 5 ∨ k = 6 ∨ k = 7 ∨ k = 8 ∨ k = 9 ∨ k = 10 ∨
      k = 11 ∨ k = 12 ∨ k = 13 ∨ k = 14 ∨ k = 15 := by omega
  have pull : ∀ {P : Prop} {A : Nat → Buf → Prop}, (P ∧ Heads A t ↔ Heads (fun n body => P ∧ A n body) t) := by
    intro P A
    constructor
    · rintro ⟨hP, n, l, body, h1, h2, h3⟩; exact ⟨n, l, body, h1, h2, hP, h3⟩
    · rintro ⟨n, l, body, h1, h2, hP, h3⟩; exact ⟨hP, n, l, body, h1, h2, h3⟩
  rcases hcases with h | h | h | h | h | h | h | h | h | h | h | h | h | h | h | h <;> subst h <;> rw [hkind] <;>
    simp only
  · exact iff_of_false (fun h => by cases h) (never 0 hkk (by decide))
  · exact no 1 hkk (by decide) (decodeConnect_noPanic c t)
  · cases v.supportsProperties
    · exact map_panic.trans <| (decodeConnAckV3_panic ht).trans (only fun n body => by rw [cut]; simp)
    · exact map_panic.trans <| (decodeConnAck_panic ht).trans (only fun n body => by rw [cut]; simp)
  · exact no 3 hkk (by decide) (decodePublish_noPanic c t)
  · rw [map_panic]; exact (decodeAck_panic ht).trans (only fun n body => by rw [cut]; simp)
  · rw [map_panic]; exact (decodeAck_panic ht).trans (only fun n body => by rw [cut]; simp)
  · rw [map_panic]; exact (decodeAck_panic ht).trans (only fun n body => by rw [cut]; simp)
  · rw [map_panic]; exact (decodeAck_panic ht).trans (only fun n body => by rw [cut]; simp)
  · rw [map_panic]
    refine (decodeSubscribe_panic ht).trans (only fun n body => ?_)
    rw [cut]
    constructor
    · intro h; exact .inr (.inr (.inl ⟨rfl, h⟩))
    · rintro (⟨h, _⟩ | ⟨h, _⟩ | ⟨_, h⟩ | ⟨h, _⟩ | ⟨h, _⟩)
      · cases h
      · simp at h
      · exact h
      · cases h
      · cases h
  · cases v.supportsProperties
    · exact no 9 hkk (by decide) (decodeSubAckV3_noPanic c t)
    · exact no 9 hkk (by decide) (decodeSubAck_noPanic c t)
  · exact no 10 hkk (by decide) (decodeUnsubscribe_noPanic c t)
  · cases v.supportsProperties
    · exact no 11 hkk (by decide) (decodeUnsubAckV3_noPanic c t)
    · exact no 11 hkk (by decide) (decodeUnsubAck_noPanic c t)
  · exact iff_of_false (ping_calm c t _) (never 12 hkk (by decide))
  · exact iff_of_false (ping_calm c t _) (never 13 hkk (by decide))
  · rw [map_panic]
    refine (decodeDisconnect_panic ht).trans (pull.trans (only fun n body => ?_))
    rw [cut]; simp
  · rw [map_panic]
    refine (decodeAuth_panic ht).trans (pull.trans (only fun n body => ?_))
    rw [cut]; simp

/-- C20, exactly, for release builds: the server's reader aborts on a buffer (of less than 4 GiB) if and
only if the buffer holds a whole packet by its announced length, and that packet is cut short in one of the
five ways of `CutShort`.  On every other buffer it returns a packet, an error or asks for more. -/
theorem C20_aborts_iff (b : Buf) (hb : b.length < 2 ^ 32) :
    parsePacket .release b = .panicked ↔
      ∃ c n l body, b = c :: (l ++ body) ∧ VbiOf n l ∧ Whole n b ∧ CutShort c n body := by
  have key : parsePacket .release b = .panicked ↔ check .release b = .ok () ∧ parse .release b = .panic := by
    unfold parsePacket
    cases hc : check .release b with
    | panic => exact absurd hc (check_noPanic b)
    | err e => cases e <;> simp
    | ok u =>
      cases hp : parse .release b with
      | panic => simp
      | err e => simp
      | ok x => simp
  rw [key]
  cases b with
  | nil =>
    constructor
    · rintro ⟨h, _⟩; simp [check] at h
    · rintro ⟨c, n, l, body, h, _⟩; cases h
  | cons c t =>
    have ht : t.length < 2 ^ 32 := by rw [List.length_cons] at hb; omega
    rw [show parse .release (c :: t) = parseWithVersion .release .v5 (c :: t) from rfl, parse_panic .v5 c t ht]
    constructor
    · rintro ⟨hc, n, l, body, rfl, hl, hcut⟩
      exact ⟨c, n, l, body, rfl, hl, (check_ok_iff _ c n l body hl ht).mp hc, hcut⟩
    · rintro ⟨c', n, l, body, h, hl, hw, hcut⟩
      cases h
      exact ⟨(check_ok_iff _ c n l body hl ht).mpr hw, n, l, body, rfl, hl, hcut⟩

/-- A SUBSCRIBE to the filter `a`, of length 6, without options. -/
example : CutShort 0x82 6 [0, 1, 0, 0, 1, 97] :=
  .inr (.inr (.inl ⟨by decide, 1, [0], {}, [], [], [97], [0, 1, 97], rfl, by decide,
    ⟨by decide, [], [0], [], rfl, ⟨[], 0, rfl, by decide, by simp, by simp [Continues], by decide⟩, .nil,
      fun i => by simp [SubscribeProperties.held, one, users]⟩, .nil,
    ⟨⟨by decide, by decide +kernel⟩, rfl⟩, by decide, by decide⟩))

example : Whole 6 [0x82, 6, 0, 1, 0, 0, 1, 97] := by unfold Whole; decide +kernel

/-! ## The two kinds of build -/

/-- C20, for debug builds: the reader does the same as that of a release build, or aborts. (So all that
aborts in a release build aborts in a debug build, see `C20_abort_debug_false` for what else does.) -/
theorem C20_debug_stricter (b : Buf) :
    parsePacket .debug b = parsePacket .release b ∨ parsePacket .debug b = .panicked := by
  unfold parsePacket
  rcases check_stricter b with h | h <;> rw [h]
  · cases check .release b with
    | panic => exact .inl rfl
    | err e => cases e <;> exact .inl rfl
    | ok u =>
      simp only
      rcases (parseWithVersion_stricter .v5).at' b with h | h
      · left
        rw [show parse .debug b = parse .release b from h]
      · right
        rw [show parse .debug b = .panic from h]
  · exact .inr rfl

/-- The client's parser, for any version. -/
theorem C20_client_debug_stricter (v : ProtocolVersion) (b : Buf) :
    parseWithVersion .debug v b = parseWithVersion .release v b ∨ parseWithVersion .debug v b = .panic :=
  (parseWithVersion_stricter v).at' b

/-- C20 for the client's parser, which does not check for completeness, whatever the version: it aborts if
and only if the packet in the buffer is cut short. -/
theorem C20_client_aborts_iff (v : ProtocolVersion) (b : Buf) (hb : b.length < 2 ^ 32) :
    parseWithVersion .release v b = .panic ↔
      ∃ c n l body, b = c :: (l ++ body) ∧ VbiOf n l ∧ CutShort c n body := by
  cases b with
  | nil =>
    constructor
    · intro h; cases h
    · rintro ⟨c, n, l, body, h, _⟩; cases h
  | cons c t =>
    rw [parse_panic v c t (by rw [List.length_cons] at hb; omega)]
    constructor
    · rintro ⟨n, l, body, rfl, hl, hcut⟩; exact ⟨c, n, l, body, rfl, hl, hcut⟩
    · rintro ⟨c', n, l, body, h, hl, hcut⟩
      cases h
      exact ⟨n, l, body, rfl, hl, hcut⟩

/-- A CONNACK of which only the header and the flags have arrived yet aborts the client. -/
example : CutShort 0x20 3 [0] ∧ VbiOf 3 [3] :=
  ⟨.inl ⟨by decide, by decide⟩, [], 3, rfl, by decide, by simp, by simp [Continues], by decide⟩

end Mercurio
