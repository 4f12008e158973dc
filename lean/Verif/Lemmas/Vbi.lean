import Verif.Lemmas.Codec
import Verif.Spec.Wire

/-! # The variable byte integer decoder on arbitrary bytes -/

namespace Mercurio

open Spec

theorem u8_forall {P : UInt8 → Prop} (h : ∀ n < 256, P (UInt8.ofNat n)) (b : UInt8) : P b := by
  have := h b.toNat b.toNat_lt
  simpa using this

theorem and_7f (b : UInt8) : (b &&& 0x7f).toNat = b.toNat % 128 := by
  revert b; exact u8_forall (by decide +kernel)

theorem and_80 (b : UInt8) : (b &&& 0x80 = 0) ↔ ¬ Continues b := by
  revert b; exact u8_forall (by decide +kernel)

theorem pow128_le_4 {k : Nat} (hk : k ≤ 3) : (128 : Nat) ^ k ≤ 128 * 128 * 128 := by
  have : (128 : Nat) ^ k ≤ 128 ^ 3 := Nat.pow_le_pow_right (by decide) hk
  simpa using this

theorem decodeVbiLoop_cons (m : Mode) {k v : Nat} (hk : k ≤ 3) (hv : v < 128 ^ k) (b : UInt8)
    (bs : Buf) : decodeVbiLoop m (128 ^ k) v (b :: bs) =
      if Continues b then decodeVbiLoop m (128 ^ (k + 1)) (v + b.toNat % 128 * 128 ^ k) bs
      else .ok (v + b.toNat % 128 * 128 ^ k, bs) := by
  have hsum : v + b.toNat % 128 * 128 ^ k < 128 ^ (k + 1) := by
    have h1 : b.toNat % 128 < 128 := Nat.mod_lt _ (by decide)
    have h2 : b.toNat % 128 * 128 ^ k ≤ 127 * 128 ^ k := Nat.mul_le_mul_right _ (by omega)
    rw [Nat.pow_succ]; omega
  have h4 : (128 : Nat) ^ (k + 1) ≤ 128 ^ 4 := Nat.pow_le_pow_right (by decide) (by omega)
  have h5 : (128 : Nat) ^ 4 = 2 ^ 28 := by decide
  simp only [decodeVbiLoop, and_7f, and_80]
  have hlt : ¬ (2 ^ 32 ≤ v + b.toNat % 128 * 128 ^ k) := by omega
  rw [if_neg (by simp [hlt]), if_neg (by have := pow128_le_4 hk; omega),
    Nat.mod_eq_of_lt (by omega), ← Nat.pow_succ]
  by_cases hc : Continues b <;> simp [hc]

theorem decodeVbiLoop_five (m : Mode) {v : Nat} (hv : v < 128 ^ 4) (b : UInt8) (bs : Buf) :
    decodeVbiLoop m (128 ^ 4) v (b :: bs) =
      if m = .debug ∧ 16 ≤ b.toNat % 128 then .panic else .err (.mqtt .malformedPacket) := by
  have h5 : (128 : Nat) ^ 4 = 2 ^ 28 := by decide
  rw [h5] at hv
  simp only [decodeVbiLoop, and_7f, h5]
  have : (2 ^ 32 ≤ v + b.toNat % 128 * 2 ^ 28) ↔ 16 ≤ b.toNat % 128 := by omega
  simp only [this]
  split
  · rfl
  · rw [if_pos (by decide)]

theorem base128_lt (bs : Buf) : base128 bs < 128 ^ bs.length := by
  induction bs with
  | nil => simp [base128]
  | cons b bs ih =>
    have h1 : b.toNat % 128 < 128 := Nat.mod_lt _ (by decide)
    simp only [base128, List.length_cons, Nat.pow_succ]
    omega

/-- Prefix of continuation bytes: the loop accumulates their value. -/
theorem decodeVbiLoop_prefix (m : Mode) (pre : Buf) : ∀ {k v : Nat}, k + pre.length ≤ 4 →
    v < 128 ^ k → (∀ b ∈ pre, Continues b) → ∀ rest,
    decodeVbiLoop m (128 ^ k) v (pre ++ rest) =
      decodeVbiLoop m (128 ^ (k + pre.length)) (v + base128 pre * 128 ^ k) rest := by
  induction pre with
  | nil => intro k v _ _ _ rest; simp [base128]
  | cons b pre ih =>
    intro k v hk hv hc rest
    simp only [List.length_cons] at hk
    have hb : Continues b := hc b (by simp)
    have hsum : v + b.toNat % 128 * 128 ^ k < 128 ^ (k + 1) := by
      have h1 : b.toNat % 128 < 128 := Nat.mod_lt _ (by decide)
      have h2 : b.toNat % 128 * 128 ^ k ≤ 127 * 128 ^ k := Nat.mul_le_mul_right _ (by omega)
      rw [Nat.pow_succ]; omega
    rw [List.cons_append, decodeVbiLoop_cons m (by omega) hv, if_pos hb,
      ih (by omega) hsum (fun x hx => hc x (by simp [hx]))]
    congr 1
    · simp only [List.length_cons]; congr 1; omega
    · simp only [base128]
      rw [Nat.add_mul, Nat.pow_succ, Nat.mul_comm 128 (base128 pre), Nat.mul_assoc,
        Nat.mul_comm (128 ^ k) 128]
      omega

/-- Every byte string has one of the three shapes. -/
theorem vbi_shape (bs : Buf) :
    (bs.length ≤ 4 ∧ ∀ b ∈ bs, Continues b)
    ∨ (∃ pre last rest, bs = pre ++ last :: rest ∧ pre.length ≤ 3 ∧ (∀ b ∈ pre, Continues b)
        ∧ ¬ Continues last)
    ∨ (∃ pre fifth rest, bs = pre ++ fifth :: rest ∧ pre.length = 4 ∧ ∀ b ∈ pre, Continues b) := by
  have key : ∀ (n : Nat) (bs : Buf), (bs.length ≤ n ∧ ∀ b ∈ bs, Continues b)
    ∨ (∃ pre last rest, bs = pre ++ last :: rest ∧ pre.length < n ∧ (∀ b ∈ pre, Continues b)
        ∧ ¬ Continues last)
    ∨ (∃ pre fifth rest, bs = pre ++ fifth :: rest ∧ pre.length = n ∧ ∀ b ∈ pre, Continues b) := by
    intro n
    induction n with
    | zero =>
      intro bs
      cases bs with
      | nil => left; simp
      | cons b bs => right; right; exact ⟨[], b, bs, by simp⟩
    | succ n ih =>
      intro bs
      cases bs with
      | nil => left; simp
      | cons b bs =>
        by_cases hb : Continues b
        · rcases ih bs with ⟨h1, h2⟩ | ⟨pre, l, r, h1, h2, h3, h4⟩ | ⟨pre, l, r, h1, h2, h3⟩
          · left; exact ⟨by simpa using h1, by simpa [hb] using h2⟩
          · right; left
            exact ⟨b :: pre, l, r, by simp [h1], by simpa using h2, by simpa [hb] using h3, h4⟩
          · right; right
            exact ⟨b :: pre, l, r, by simp [h1], by simpa using h2, by simpa [hb] using h3⟩
        · right; left; exact ⟨[], b, bs, by simp [hb]⟩
  rcases key 4 bs with h | ⟨pre, l, r, h1, h2, h3⟩ | h
  · exact .inl h
  · exact .inr (.inl ⟨pre, l, r, h1, by omega, h3⟩)
  · exact .inr (.inr h)

theorem decodeVbi_short (m : Mode) {bs : Buf} (hl : bs.length ≤ 4) (hc : ∀ b ∈ bs, Continues b) :
    decodeVbi m bs = .err .incomplete := by
  have := decodeVbiLoop_prefix m bs (k := 0) (v := 0) (by omega) (by decide) hc []
  simpa [decodeVbi, decodeVbiLoop] using this

theorem decodeVbi_value (m : Mode) {pre : Buf} {last : UInt8} (rest : Buf) (hl : pre.length ≤ 3)
    (hc : ∀ b ∈ pre, Continues b) (hlast : ¬ Continues last) :
    decodeVbi m (pre ++ last :: rest) = .ok (base128 (pre ++ [last]), rest) := by
  have h := decodeVbiLoop_prefix m pre (k := 0) (v := 0) (by omega) (by decide) hc (last :: rest)
  have hlt := base128_lt pre
  have e : decodeVbi m (pre ++ last :: rest) = decodeVbiLoop m (128 ^ 0) 0 (pre ++ last :: rest) := rfl
  rw [e, h, decodeVbiLoop_cons m (by omega) (by simpa using hlt), if_neg hlast]
  have key : ∀ pre : Buf, base128 (pre ++ [last]) = base128 pre + last.toNat % 128 * 128 ^ pre.length := by
    intro pre
    induction pre with
    | nil => simp [base128]
    | cons b pre ih =>
      simp only [List.cons_append, base128, ih, List.length_cons, Nat.pow_succ, Nat.mul_add]
      rw [← Nat.mul_assoc (last.toNat % 128), Nat.mul_comm 128 (last.toNat % 128 * 128 ^ pre.length)]
      omega
  rw [key]
  simp

theorem decodeVbi_long (m : Mode) {pre : Buf} {fifth : UInt8} (rest : Buf) (hl : pre.length = 4)
    (hc : ∀ b ∈ pre, Continues b) :
    decodeVbi m (pre ++ fifth :: rest) =
      if m = .debug ∧ 16 ≤ fifth.toNat % 128 then .panic else .err (.mqtt .malformedPacket) := by
  have h := decodeVbiLoop_prefix m pre (k := 0) (v := 0) (by omega) (by decide) hc (fifth :: rest)
  have hlt := base128_lt pre
  have e : decodeVbi m (pre ++ fifth :: rest) = decodeVbiLoop m (128 ^ 0) 0 (pre ++ fifth :: rest) := rfl
  rw [e, h]
  rw [hl] at hlt ⊢
  exact decodeVbiLoop_five m (by simpa using hlt) fifth rest

theorem decodeVbi_ok_iff (m : Mode) (bs : Buf) (v : Nat) (rest : Buf) :
    decodeVbi m bs = .ok (v, rest) ↔
      ∃ pre last, bs = pre ++ last :: rest ∧ pre.length ≤ 3 ∧ (∀ b ∈ pre, Continues b)
        ∧ ¬ Continues last ∧ v = base128 (pre ++ [last]) := by
  constructor
  · intro h
    rcases vbi_shape bs with ⟨h1, h2⟩ | ⟨pre, l, r, rfl, h2, h3, h4⟩ | ⟨pre, l, r, rfl, h2, h3⟩
    · rw [decodeVbi_short m h1 h2] at h; cases h
    · rw [decodeVbi_value m r h2 h3 h4] at h
      cases h
      exact ⟨pre, l, rfl, h2, h3, h4, rfl⟩
    · rw [decodeVbi_long m r h2 h3] at h
      split at h <;> cases h
  · rintro ⟨pre, last, rfl, h2, h3, h4, rfl⟩
    exact decodeVbi_value m rest h2 h3 h4

/-- A decoded value comes from at most four bytes and is below 2^28. -/
theorem decodeVbi_ok {m : Mode} {bs : Buf} {v : Nat} {rest : Buf}
    (h : decodeVbi m bs = .ok (v, rest)) :
    ∃ used, bs = used ++ rest ∧ 1 ≤ used.length ∧ used.length ≤ 4 ∧ v < 128 ^ used.length := by
  obtain ⟨pre, last, rfl, h2, h3, h4, rfl⟩ := (decodeVbi_ok_iff m bs v rest).mp h
  refine ⟨pre ++ [last], by simp, by simp, by simp; omega, ?_⟩
  exact base128_lt _

theorem decodeVbi_lt {m : Mode} {bs : Buf} {v : Nat} {rest : Buf}
    (h : decodeVbi m bs = .ok (v, rest)) : v < 2 ^ 28 := by
  obtain ⟨u, _, _, h3, h4⟩ := decodeVbi_ok h
  have : (128 : Nat) ^ u.length ≤ 128 ^ 4 := Nat.pow_le_pow_right (by decide) h3
  have e : (128 : Nat) ^ 4 = 2 ^ 28 := by decide
  omega

theorem encodeVbi_length_le {n : Nat} (hn : n < 2 ^ 28) : (encodeVbi n).length ≤ 4 := by
  obtain ⟨u, h1, _, h3, _⟩ := decodeVbi_ok (by simpa using decodeVbi_encode .debug n hn [])
  simp at h1
  rw [h1]; exact h3

theorem encodeVbi_minimal {n : Nat} (hn : n < 2 ^ 28) {j : Nat} (hj : 1 ≤ j) (h : n < 128 ^ j) :
    (encodeVbi n).length ≤ j := by
  have hs := vbiSize_ok hn
  simp only [vbiSize] at hs
  have e1 : (128 : Nat) ^ 1 = 128 := by decide
  have e2 : (128 : Nat) ^ 2 = 16384 := by decide
  have e3 : (128 : Nat) ^ 3 = 2097152 := by decide
  by_cases hj4 : 4 ≤ j
  · exact Nat.le_trans (encodeVbi_length_le hn) hj4
  · have : j = 1 ∨ j = 2 ∨ j = 3 := by omega
    rcases this with rfl | rfl | rfl
    · rw [if_pos (by omega)] at hs; injection hs with hs; omega
    · split at hs
      · injection hs with hs; omega
      · rw [if_pos (by omega)] at hs; injection hs with hs; omega
    · split at hs
      · injection hs with hs; omega
      · split at hs
        · injection hs with hs; omega
        · rw [if_pos (by omega)] at hs; injection hs with hs; omega

end Mercurio
