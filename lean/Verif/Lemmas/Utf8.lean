import Verif.Model.Codec
import Verif.Spec.Utf8

/-! # The modelled validator decides `Spec.IsUtf8` -/

namespace Mercurio

open Spec

theorem isCont_iff (b : UInt8) : isCont b = true ↔ 0x80 ≤ b.toNat ∧ b.toNat ≤ 0xbf := by
  simp [isCont, UInt8.le_iff_toNat_le]

theorem Spec.IsUtf8.nil : IsUtf8 [] := ⟨[], rfl⟩

theorem Spec.IsUtf8.cons (c : Char) {bs : Buf} (h : IsUtf8 bs) : IsUtf8 (String.utf8EncodeChar c ++ bs) := by
  obtain ⟨cs, rfl⟩ := h
  exact ⟨c :: cs, by simp⟩

theorem u8_eq_ofNat {n : Nat} {a : UInt8} (h : a.toNat = n) : UInt8.ofNat n = a := by
  apply UInt8.toNat.inj
  have := a.toNat_lt
  simp
  omega

theorem mkChar {v : Nat} (h : v.isValidChar) : ∃ c : Char, c.val.toNat = v := by
  refine ⟨⟨UInt32.ofNat v, ?_⟩, ?_⟩
  · have : v < 2 ^ 32 := by rcases h with h | h <;> omega
    simpa [UInt32.isValidChar, Nat.mod_eq_of_lt this] using h
  · have : v < 2 ^ 32 := by rcases h with h | h <;> omega
    simp
    omega

theorem isUtf8_of_one {a : UInt8} {bs : Buf} (ha : a.toNat < 0x80) (h : IsUtf8 bs) :
    IsUtf8 (a :: bs) := by
  obtain ⟨c, hc⟩ := mkChar (v := a.toNat) (Or.inl (by omega))
  have e : String.utf8EncodeChar c = [a] := by
    simp only [String.utf8EncodeChar, hc]
    rw [if_pos (by omega), u8_eq_ofNat rfl]
  have := h.cons c
  rwa [e] at this

theorem isUtf8_of_two {a b : UInt8} {bs : Buf} (ha : 0xc2 ≤ a.toNat ∧ a.toNat ≤ 0xdf)
    (hb : 0x80 ≤ b.toNat ∧ b.toNat ≤ 0xbf) (h : IsUtf8 bs) : IsUtf8 (a :: b :: bs) := by
  obtain ⟨c, hc⟩ := mkChar (v := (a.toNat - 0xc0) * 64 + (b.toNat - 0x80)) (Or.inl (by omega))
  have e : String.utf8EncodeChar c = [a, b] := by
    simp only [String.utf8EncodeChar, hc]
    rw [if_neg (by omega), if_pos (by omega), u8_eq_ofNat (a := a) (by omega),
      u8_eq_ofNat (a := b) (by omega)]
  have := h.cons c
  rwa [e] at this

theorem isUtf8_of_three {a b d : UInt8} {bs : Buf} (ha : 0xe0 ≤ a.toNat ∧ a.toNat ≤ 0xef)
    (hb : 0x80 ≤ b.toNat ∧ b.toNat ≤ 0xbf) (h0 : a.toNat = 0xe0 → 0xa0 ≤ b.toNat)
    (h1 : a.toNat = 0xed → b.toNat ≤ 0x9f)
    (hd : 0x80 ≤ d.toNat ∧ d.toNat ≤ 0xbf) (h : IsUtf8 bs) : IsUtf8 (a :: b :: d :: bs) := by
  obtain ⟨c, hc⟩ := mkChar
    (v := (a.toNat - 0xe0) * 4096 + (b.toNat - 0x80) * 64 + (d.toNat - 0x80))
    (by simp only [Nat.isValidChar]; omega)
  have e : String.utf8EncodeChar c = [a, b, d] := by
    simp only [String.utf8EncodeChar, hc]
    rw [if_neg (by omega), if_neg (by omega), if_pos (by omega), u8_eq_ofNat (a := a) (by omega),
      u8_eq_ofNat (a := b) (by omega), u8_eq_ofNat (a := d) (by omega)]
  have := h.cons c
  rwa [e] at this

theorem isUtf8_of_four {a b d e : UInt8} {bs : Buf} (ha : 0xf0 ≤ a.toNat ∧ a.toNat ≤ 0xf4)
    (hb : 0x80 ≤ b.toNat ∧ b.toNat ≤ 0xbf) (h0 : a.toNat = 0xf0 → 0x90 ≤ b.toNat)
    (h1 : a.toNat = 0xf4 → b.toNat ≤ 0x8f)
    (hd : 0x80 ≤ d.toNat ∧ d.toNat ≤ 0xbf) (he : 0x80 ≤ e.toNat ∧ e.toNat ≤ 0xbf)
    (h : IsUtf8 bs) : IsUtf8 (a :: b :: d :: e :: bs) := by
  obtain ⟨c, hc⟩ := mkChar
    (v := (a.toNat - 0xf0) * 262144 + (b.toNat - 0x80) * 4096 + (d.toNat - 0x80) * 64
      + (e.toNat - 0x80))
    (by simp only [Nat.isValidChar]; omega)
  have e' : String.utf8EncodeChar c = [a, b, d, e] := by
    simp only [String.utf8EncodeChar, hc]
    rw [if_neg (by omega), if_neg (by omega), if_neg (by omega), u8_eq_ofNat (a := a) (by omega),
      u8_eq_ofNat (a := b) (by omega), u8_eq_ofNat (a := d) (by omega),
      u8_eq_ofNat (a := e) (by omega)]
  have := h.cons c
  rwa [e'] at this

theorem isUtf8_of_utf8Valid (bs : Buf) (h : utf8Valid bs = true) : IsUtf8 bs := by
  fun_induction utf8Valid bs with
  | case1 => exact IsUtf8.nil
  | case2 a bs ha ih =>
    exact isUtf8_of_one (by simpa [UInt8.lt_iff_toNat_lt] using ha) (ih h)
  | case3 => simp at h
  | case4 a ha b cs ha2 ih =>
    simp only [Bool.and_eq_true, decide_eq_true_eq, UInt8.le_iff_toNat_le, isCont_iff] at h ha2
    exact isUtf8_of_two (by simpa using ha2) h.1 (ih h.2)
  | case5 => simp at h
  | case6 a ha b ha2 c ds ha3 ih =>
    simp only [Bool.and_eq_true, Bool.or_eq_true, decide_eq_true_eq, UInt8.le_iff_toNat_le,
      isCont_iff, beq_iff_eq] at h ha3
    obtain ⟨⟨hb, hc⟩, hr⟩ := h
    simp at ha3 hb
    have e1 : ∀ {x : UInt8}, a = x ↔ a.toNat = x.toNat := fun {x} => ⟨fun h => by rw [h], UInt8.toNat.inj⟩
    simp only [e1] at hb
    simp at hb
    exact isUtf8_of_three ha3 (by omega) (by omega) (by omega) hc (ih hr)
  | case7 => simp at h
  | case8 a ha b ha2 c ha3 d es ih =>
    simp only [Bool.and_eq_true, Bool.or_eq_true, decide_eq_true_eq, UInt8.le_iff_toNat_le,
      isCont_iff, beq_iff_eq] at h
    obtain ⟨⟨⟨hb, hc⟩, hd⟩, hr⟩ := h
    have e1 : ∀ {x : UInt8}, a = x ↔ a.toNat = x.toNat := fun {x} => ⟨fun h => by rw [h], UInt8.toNat.inj⟩
    simp only [e1] at hb
    simp at hb
    exact isUtf8_of_four (by omega) (by omega) (by omega) (by omega) hc hd (ih hr)

theorem utf8Valid_encodeChar (c : Char) (bs : Buf) :
    utf8Valid (String.utf8EncodeChar c ++ bs) = utf8Valid bs := by
  have hv := c.valid
  simp only [UInt32.isValidChar, Nat.isValidChar] at hv
  simp only [String.utf8EncodeChar]
  generalize c.val.toNat = v at hv
  have e1 : ∀ {x y : UInt8}, x = y ↔ x.toNat = y.toNat := fun {x y} => ⟨fun h => by rw [h], UInt8.toNat.inj⟩
  split
  · have h1 : UInt8.ofNat v < 0x80 := by rw [UInt8.lt_iff_toNat_lt]; simp; omega
    conv => lhs; unfold utf8Valid
    simp [h1]
  · split
    · have h1 : ¬ UInt8.ofNat (v / 64 % 32 + 192) < 0x80 := by rw [UInt8.lt_iff_toNat_lt]; simp; omega
      have h2 : (decide (0xc2 ≤ UInt8.ofNat (v / 64 % 32 + 192))
          && decide (UInt8.ofNat (v / 64 % 32 + 192) ≤ 0xdf)) = true := by
        simp [UInt8.le_iff_toNat_le]; omega
      have h3 : isCont (UInt8.ofNat (v % 64 + 128)) = true := by rw [isCont_iff]; simp; omega
      simp only [List.cons_append, List.nil_append]
      conv => lhs; unfold utf8Valid
      simp only []
      rw [if_neg h1, if_pos h2, h3, Bool.true_and]
    · split
      · have h1 : ¬ UInt8.ofNat (v / 4096 % 16 + 224) < 0x80 := by
          rw [UInt8.lt_iff_toNat_lt]; simp; omega
        have h2 : ¬ (decide (0xc2 ≤ UInt8.ofNat (v / 4096 % 16 + 224))
            && decide (UInt8.ofNat (v / 4096 % 16 + 224) ≤ 0xdf)) = true := by
          simp [UInt8.le_iff_toNat_le]; omega
        have h3 : (decide (0xe0 ≤ UInt8.ofNat (v / 4096 % 16 + 224))
            && decide (UInt8.ofNat (v / 4096 % 16 + 224) ≤ 0xef)) = true := by
          simp [UInt8.le_iff_toNat_le]; omega
        have h4 : isCont (UInt8.ofNat (v % 64 + 128)) = true := by rw [isCont_iff]; simp; omega
        simp only [List.cons_append, List.nil_append]
        conv => lhs; unfold utf8Valid
        simp only []
        rw [if_neg h1, if_neg h2, if_pos h3, h4, Bool.and_true]
        have h5 : ((UInt8.ofNat (v / 4096 % 16 + 224) == 0xe0
              && decide (0xa0 ≤ UInt8.ofNat (v / 64 % 64 + 128))
              && decide (UInt8.ofNat (v / 64 % 64 + 128) ≤ 0xbf)
            || decide (0xe1 ≤ UInt8.ofNat (v / 4096 % 16 + 224))
              && decide (UInt8.ofNat (v / 4096 % 16 + 224) ≤ 0xec)
              && isCont (UInt8.ofNat (v / 64 % 64 + 128))
            || UInt8.ofNat (v / 4096 % 16 + 224) == 0xed
              && decide (0x80 ≤ UInt8.ofNat (v / 64 % 64 + 128))
              && decide (UInt8.ofNat (v / 64 % 64 + 128) ≤ 0x9f)
            || decide (0xee ≤ UInt8.ofNat (v / 4096 % 16 + 224))
              && decide (UInt8.ofNat (v / 4096 % 16 + 224) ≤ 0xef)
              && isCont (UInt8.ofNat (v / 64 % 64 + 128)))) = true := by
          simp only [Bool.or_eq_true, Bool.and_eq_true, beq_iff_eq, decide_eq_true_eq, isCont_iff,
            UInt8.le_iff_toNat_le, e1]
          simp
          omega
        rw [h5, Bool.true_and]
      · have h1 : ¬ UInt8.ofNat (v / 262144 % 8 + 240) < 0x80 := by
          rw [UInt8.lt_iff_toNat_lt]; simp; omega
        have h2 : ¬ (decide (0xc2 ≤ UInt8.ofNat (v / 262144 % 8 + 240))
            && decide (UInt8.ofNat (v / 262144 % 8 + 240) ≤ 0xdf)) = true := by
          simp [UInt8.le_iff_toNat_le]; omega
        have h3 : ¬ (decide (0xe0 ≤ UInt8.ofNat (v / 262144 % 8 + 240))
            && decide (UInt8.ofNat (v / 262144 % 8 + 240) ≤ 0xef)) = true := by
          simp [UInt8.le_iff_toNat_le]; omega
        have h4 : isCont (UInt8.ofNat (v % 64 + 128)) = true := by rw [isCont_iff]; simp; omega
        have h5 : isCont (UInt8.ofNat (v / 64 % 64 + 128)) = true := by rw [isCont_iff]; simp; omega
        simp only [List.cons_append, List.nil_append]
        conv => lhs; unfold utf8Valid
        simp only []
        rw [if_neg h1, if_neg h2, if_neg h3, h4, h5, Bool.and_true, Bool.and_true]
        have h6 : (UInt8.ofNat (v / 262144 % 8 + 240) == 0xf0
              && decide (0x90 ≤ UInt8.ofNat (v / 4096 % 64 + 128))
              && decide (UInt8.ofNat (v / 4096 % 64 + 128) ≤ 0xbf)
            || decide (0xf1 ≤ UInt8.ofNat (v / 262144 % 8 + 240))
              && decide (UInt8.ofNat (v / 262144 % 8 + 240) ≤ 0xf3)
              && isCont (UInt8.ofNat (v / 4096 % 64 + 128))
            || UInt8.ofNat (v / 262144 % 8 + 240) == 0xf4
              && decide (0x80 ≤ UInt8.ofNat (v / 4096 % 64 + 128))
              && decide (UInt8.ofNat (v / 4096 % 64 + 128) ≤ 0x8f)) = true := by
          simp only [Bool.or_eq_true, Bool.and_eq_true, beq_iff_eq, decide_eq_true_eq, isCont_iff,
            UInt8.le_iff_toNat_le, e1]
          simp
          omega
        rw [h6, Bool.true_and]

theorem utf8Valid_of_isUtf8 {bs : Buf} (h : IsUtf8 bs) : utf8Valid bs = true := by
  obtain ⟨cs, rfl⟩ := h
  induction cs with
  | nil => rfl
  | cons c cs ih => rw [List.flatMap_cons, utf8Valid_encodeChar, ih]

theorem utf8Valid_iff (bs : Buf) : utf8Valid bs = true ↔ IsUtf8 bs :=
  ⟨isUtf8_of_utf8Valid bs, utf8Valid_of_isUtf8⟩

instance (bs : Buf) : Decidable (IsUtf8 bs) := decidable_of_iff _ (utf8Valid_iff bs)
instance (bs : Buf) : Decidable (TextField bs) := inferInstanceAs (Decidable (_ ∧ _))
instance (bs : Buf) : Decidable (BinaryField bs) := inferInstanceAs (Decidable (_ ≤ _))

end Mercurio
