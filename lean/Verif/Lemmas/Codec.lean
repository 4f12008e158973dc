import Verif.Model.Codec

/-! # Helper lemmas about the primitive codecs -/

namespace Mercurio

/-! ## Decoder monad -/

theorem Dec.bind_apply {α β : Type} (x : Dec α) (f : α → Dec β) (b : Buf) :
    (x >>= f) b = match x b with
      | .ok (a, b') => f a b'
      | .err e => .err e
      | .panic => .panic := rfl

theorem Dec.bind_ok {α β : Type} {x : Dec α} {f : α → Dec β} {b b' : Buf} {a : α}
    (h : x b = .ok (a, b')) : (x >>= f) b = f a b' := by
  rw [Dec.bind_apply, h]

theorem Dec.bind_err {α β : Type} {x : Dec α} {f : α → Dec β} {b : Buf} {e : Err}
    (h : x b = .err e) : (x >>= f) b = .err e := by
  rw [Dec.bind_apply, h]

theorem Dec.bind_panic {α β : Type} {x : Dec α} {f : α → Dec β} {b : Buf}
    (h : x b = .panic) : (x >>= f) b = .panic := by
  rw [Dec.bind_apply, h]

@[simp] theorem Dec.pure_apply {α : Type} (a : α) (b : Buf) : (Pure.pure a : Dec α) b = .ok (a, b) := rfl

@[simp] theorem Dec.of_apply {α : Type} (f : Buf → Res (α × Buf)) (b : Buf) : Dec.of f b = f b := rfl

theorem Dec.ite_apply {α : Type} (c : Prop) [Decidable c] (x y : Dec α) (b : Buf) :
    (if c then x else y : Dec α) b = if c then x b else y b := by
  split <;> rfl

@[simp] theorem Dec.fail_apply {α : Type} (e : Err) (b : Buf) : (Dec.fail e : Dec α) b = .err e := rfl

@[simp] theorem Res.pure_eq {α : Type} (a : α) : (Pure.pure a : Res α) = .ok a := rfl

@[simp] theorem Res.bind_ok {α β : Type} (a : α) (f : α → Res β) :
    ((Res.ok a : Res α) >>= f) = f a := rfl

@[simp] theorem Res.bind_err {α β : Type} (e : Err) (f : α → Res β) :
    ((Res.err e : Res α) >>= f) = .err e := rfl

@[simp] theorem Res.bind_panic {α β : Type} (f : α → Res β) :
    ((Res.panic : Res α) >>= f) = .panic := rfl

/-! ## Variable byte integers -/

theorem byte_low : ∀ x < 128, (UInt8.ofNat x &&& 0x7f).toNat = x ∧ (UInt8.ofNat x &&& 0x80) = 0 := by
  decide

theorem byte_high : ∀ x < 128, ((UInt8.ofNat x ||| 0x80) &&& 0x7f).toNat = x ∧
    ((UInt8.ofNat x ||| 0x80) &&& 0x80) ≠ 0 := by
  decide

theorem decodeVbiLoop_encode (m : Mode) (rest : Buf) :
    ∀ (j k fuel x v : Nat), x < 128 ^ j → 1 ≤ j → j ≤ fuel → k + j ≤ 4 → v + x * 128 ^ k < 2 ^ 32 →
      decodeVbiLoop m (128 ^ k) v (encodeVbiLoop fuel x ++ rest) = .ok (v + x * 128 ^ k, rest) := by
  intro j
  induction j with
  | zero => intro k fuel x v _ h; omega
  | succ j ih =>
    intro k fuel x v hx _ hf hk hv
    obtain ⟨fuel, rfl⟩ : ∃ f, fuel = f + 1 := ⟨fuel - 1, by omega⟩
    have hmod : x % 128 < 128 := Nat.mod_lt _ (by decide)
    have hmult : 128 ^ k ≤ 128 * 128 * 128 := by
      have : (128 : Nat) ^ k ≤ 128 ^ 3 := Nat.pow_le_pow_right (by decide) (by omega)
      simpa using this
    have hmul : x % 128 * 128 ^ k + x / 128 * 128 ^ (k + 1) = x * 128 ^ k := by
      have hx' : x = x % 128 + 128 * (x / 128) := (Nat.mod_add_div x 128).symm
      conv => rhs; rw [hx', Nat.add_mul]
      congr 1
      rw [Nat.pow_succ, Nat.mul_comm 128 (x / 128), Nat.mul_assoc, Nat.mul_comm 128]
    rw [encodeVbiLoop]
    by_cases hq : x / 128 > 0
    · simp only [hq, if_true, List.cons_append, decodeVbiLoop]
      obtain ⟨h1, h2⟩ := byte_high _ hmod
      rw [h1]
      have hlt : ¬ (2 ^ 32 ≤ v + x % 128 * 128 ^ k) := by omega
      have hmm : (v + x % 128 * 128 ^ k) % 2 ^ 32 = v + x % 128 * 128 ^ k :=
        Nat.mod_eq_of_lt (by omega)
      simp only [hlt, and_false, if_false, hmm, h2, Nat.not_lt.mpr hmult]
      have hj : 1 ≤ j := by
        rcases Nat.eq_zero_or_pos j with h0 | h0
        · subst h0; simp at hx; omega
        · exact h0
      have hxj : x / 128 < 128 ^ j := by
        rw [Nat.div_lt_iff_lt_mul (by decide)]; rw [Nat.pow_succ] at hx; exact hx
      rw [← Nat.pow_succ, ih (k + 1) fuel (x / 128) _ hxj hj (by omega) (by omega) (by omega)]
      congr 2
      omega
    · simp only [hq, if_false, List.cons_append, List.nil_append, decodeVbiLoop]
      obtain ⟨h1, h2⟩ := byte_low _ hmod
      rw [h1]
      have hx0 : x / 128 = 0 := by omega
      rw [hx0] at hmul
      have hmm : (v + x % 128 * 128 ^ k) % 2 ^ 32 = v + x % 128 * 128 ^ k :=
        Nat.mod_eq_of_lt (by omega)
      have hlt : ¬ (2 ^ 32 ≤ v + x % 128 * 128 ^ k) := by omega
      simp only [hlt, and_false, if_false, hmm, h2, Nat.not_lt.mpr hmult, if_true]
      congr 2
      omega

theorem decodeVbi_encode (m : Mode) (n : Nat) (hn : n < 2 ^ 28) (rest : Buf) :
    decodeVbi m (encodeVbi n ++ rest) = .ok (n, rest) := by
  have := decodeVbiLoop_encode m rest 4 0 5 n 0 (by simpa using hn) (by decide) (by decide)
    (by decide) (by simp; omega)
  simpa [decodeVbi, encodeVbi] using this

theorem vbiSize_ok {n : Nat} (hn : n < 2 ^ 28) : vbiSize n = .ok (encodeVbi n).length := by
  have hd : n / 128 / 128 / 128 / 128 = 0 := by omega
  simp only [vbiSize, encodeVbi, encodeVbiLoop]
  by_cases h1 : n / 128 > 0
  · by_cases h2 : n / 128 / 128 > 0
    · by_cases h3 : n / 128 / 128 / 128 > 0
      · have h4 : ¬ (n / 128 / 128 / 128 / 128 > 0) := by omega
        simp only [h1, h2, h3, h4, if_true, if_false, List.length_cons, List.length_nil]
        rw [if_neg (by omega), if_neg (by omega), if_neg (by omega), if_pos (by omega)]
      · simp only [h1, h2, h3, if_true, if_false, List.length_cons, List.length_nil]
        rw [if_neg (by omega), if_neg (by omega), if_pos (by omega)]
    · simp only [h1, h2, if_true, if_false, List.length_cons, List.length_nil]
      rw [if_neg (by omega), if_pos (by omega)]
  · simp only [h1, if_false, List.length_cons, List.length_nil]
    rw [if_pos (by omega)]

theorem vbiSize_panic {n : Nat} (hn : 2 ^ 28 ≤ n) : vbiSize n = .panic := by
  simp only [vbiSize]
  rw [if_neg (by omega), if_neg (by omega), if_neg (by omega), if_neg (by omega)]

theorem encodeVbi_length_pos (n : Nat) : 1 ≤ (encodeVbi n).length := by
  simp only [encodeVbi, encodeVbiLoop]
  split <;> simp

/-! ## Fixed-width integers -/

theorem decodeU16_encode (x : UInt16) (rest : Buf) :
    decodeU16 (encodeU16 x ++ rest) = .ok (x, rest) := by
  have hx := x.toNat_lt
  simp only [encodeU16, List.cons_append, List.nil_append, decodeU16]
  congr 2
  apply UInt16.toNat.inj
  simp
  omega

theorem decodeU32_encode (x : UInt32) (rest : Buf) :
    decodeU32 (encodeU32 x ++ rest) = .ok (x, rest) := by
  have hx := x.toNat_lt
  simp only [encodeU32, List.cons_append, List.nil_append, decodeU32]
  congr 2
  apply UInt32.toNat.inj
  simp
  omega

theorem decodeU8_encode (x : UInt8) (rest : Buf) :
    decodeU8 (encodeU8 x ++ rest) = .ok (x, rest) := rfl

theorem decodeBool_encode (x : Bool) (rest : Buf) :
    decodeBool (encodeBool x ++ rest) = .ok (x, rest) := by
  cases x <;> rfl

/-! ## Text and binary fields -/

theorem decodeBin_encode (x : Buf) (hx : x.length < 65536) (rest : Buf) :
    decodeBin (encodeBin x ++ rest) = .ok (x, rest) := by
  have h : (UInt8.ofNat ((UInt16.ofNat x.length).toNat / 256)).toNat * 256
      + (UInt8.ofNat ((UInt16.ofNat x.length).toNat % 256)).toNat = x.length := by
    simp; omega
  simp only [encodeBin, encodeU16, List.cons_append, List.nil_append, decodeBin, h]
  simp

theorem decodeStr_encode (x : Str) (hx : x.length < 65536) (hu : utf8Valid x = true) (rest : Buf) :
    decodeStr (encodeStr x ++ rest) = .ok (x, rest) := by
  have h : (UInt8.ofNat ((UInt16.ofNat x.length).toNat / 256)).toNat * 256
      + (UInt8.ofNat ((UInt16.ofNat x.length).toNat % 256)).toNat = x.length := by
    simp; omega
  simp only [encodeStr, encodeBin, encodeU16, List.cons_append, List.nil_append, decodeStr, h]
  simp [hu]

@[simp] theorem encodeU16_length (x : UInt16) : (encodeU16 x).length = 2 := rfl
@[simp] theorem encodeU32_length (x : UInt32) : (encodeU32 x).length = 4 := rfl
@[simp] theorem encodeU8_length (x : UInt8) : (encodeU8 x).length = 1 := rfl
@[simp] theorem encodeBool_length (x : Bool) : (encodeBool x).length = 1 := rfl
@[simp] theorem encodeReason_length (x : ReasonCode) : (encodeReason x).length = 1 := rfl

@[simp] theorem encodeBin_length (x : Buf) : (encodeBin x).length = binSize x := by
  simp [encodeBin, binSize]; omega

@[simp] theorem encodeStr_length (x : Str) : (encodeStr x).length = binSize x := encodeBin_length x

/-! ## Reason codes -/

/-- The reason that comes back for a reason that is sent: the three names of 0x00 collapse. -/
def ReasonCode.canon : ReasonCode → ReasonCode
  | .normalDisconnection => .success
  | .grantedQoS0 => .success
  | r => r

theorem ofCode_code (r : ReasonCode) : ReasonCode.ofCode r.code = some r.canon := by
  cases r <;> rfl

theorem decodeReason_cons (b : UInt8) (rest : Buf) :
    decodeReason (b :: rest) = match ReasonCode.ofCode b with
      | some r => .ok (r, rest)
      | none => .err (.mqtt .malformedPacket) := by
  simp only [decodeReason, Dec.bind_ok (show getU8 (b :: rest) = .ok (b, rest) from rfl)]
  cases ReasonCode.ofCode b <;> rfl

theorem decodeReason_encode (r : ReasonCode) (rest : Buf) :
    decodeReason (encodeReason r ++ rest) = .ok (r.canon, rest) := by
  simp [encodeReason, decodeReason_cons, ofCode_code]

end Mercurio
