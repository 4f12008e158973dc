import Verif.Lemmas.RoundTrip

/-! # The encoders write the formats of the standard -/

namespace Mercurio

open Spec

theorem encodeVbiLoop_vbi : ∀ (fuel x : Nat), x < 128 ^ fuel → encodeVbiLoop fuel x = vbi x ∨ fuel = 0 := by
  intro fuel
  induction fuel with
  | zero => intro x _; exact .inr rfl
  | succ fuel ih =>
    intro x hx
    left
    rw [encodeVbiLoop, vbi]
    by_cases hq : x / 128 > 0
    · simp only [hq, if_true]
      rw [if_neg (by omega)]
      have hx' : x / 128 < 128 ^ fuel := by
        rw [Nat.div_lt_iff_lt_mul (by decide)]; rw [Nat.pow_succ] at hx; exact hx
      rcases ih (x / 128) hx' with h | h
      · rw [h]
        congr 1
        have key : ∀ y < 128, (UInt8.ofNat y ||| 0x80) = UInt8.ofNat (128 + y) := by decide +kernel
        exact key _ (Nat.mod_lt _ (by decide))
      · subst h; simp at hx'; omega
    · simp only [hq, if_false]
      rw [if_pos (by omega), Nat.mod_eq_of_lt (by omega)]

theorem encodeVbi_eq_vbi {n : Nat} (hn : n < 2 ^ 32) : encodeVbi n = vbi n := by
  rcases encodeVbiLoop_vbi 5 n (by have : (128:Nat)^5 = 2^35 := by decide
                                   omega) with h | h
  · exact h
  · cases h

theorem encodeU16_be (x : UInt16) : encodeU16 x = be16 x.toNat := rfl

theorem encodeU32_be (x : UInt32) : encodeU32 x = be32 x.toNat := by
  have := x.toNat_lt
  simp only [encodeU32, be32, be16, List.cons_append, List.nil_append]
  have e1 : x.toNat / 65536 / 256 = x.toNat / 16777216 := by omega
  have e2 : x.toNat % 65536 / 256 = x.toNat / 256 % 256 := by omega
  have e3 : x.toNat % 65536 % 256 = x.toNat % 256 := by omega
  rw [e1, e2, e3]

theorem encodeStr_field {x : Str} (hx : TextField x) : encodeStr x = field x := by
  have := hx.2
  simp only [encodeStr, encodeBin, encodeU16, field, List.cons_append, List.nil_append]
  have : (UInt16.ofNat x.length).toNat = x.length := by simp; omega
  rw [this]

theorem encodeBin_field {x : Buf} (hx : BinaryField x) : encodeBin x = field x := by
  unfold BinaryField at hx
  simp only [encodeBin, encodeU16, field, List.cons_append, List.nil_append]
  have : (UInt16.ofNat x.length).toNat = x.length := by simp; omega
  rw [this]

theorem Property.encode_wire (p : Property) (hp : p.Admissible) : p.encode = p.wire := by
  cases p <;> simp only [Property.Admissible] at hp <;>
    simp only [Property.encode, Property.id, Property.encodeValue, Property.wire]
  case userProperty k v => rw [encodeStr_field hp.1, encodeStr_field hp.2]; rfl
  all_goals
    first
    | rfl
    | (rw [encodeStr_field hp]; rfl)
    | (rw [encodeBin_field hp]; rfl)
    | (rw [encodeU32_be]; rfl)
    | (rw [encodeVbi_eq_vbi (n := UInt32.toNat _) (by omega)]; rfl)

end Mercurio
