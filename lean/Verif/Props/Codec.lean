import Verif.Lemmas.Vbi
import Verif.Lemmas.Utf8
import Verif.Spec.Packets

/-!
# C01 - C06: variable byte integers, text and binary fields, reason codes
-/

namespace Mercurio

open Spec

/-! ## C01 -/

/-- C01: every integer below 2^28 survives encoding followed by decoding, whatever follows. -/
theorem C01_vbi_roundtrip (m : Mode) (n : Nat) (hn : n < 2 ^ 28) (rest : Buf) :
    decodeVbi m (encodeVbi n ++ rest) = .ok (n, rest) :=
  decodeVbi_encode m n hn rest

example : (268435455 : Nat) < 2 ^ 28 ∧ encodeVbi 268435455 = [0xff, 0xff, 0xff, 0x7f] := by decide

/-! ## C02 -/

/-- C02: the announced size is the number of bytes produced; it is between 1 and 4 and least among
the numbers of 7-bit digits that can hold the value. -/
theorem C02_vbi_size_minimal (n : Nat) (hn : n < 2 ^ 28) :
    vbiSize n = .ok (encodeVbi n).length ∧ 1 ≤ (encodeVbi n).length ∧ (encodeVbi n).length ≤ 4 ∧
      n < 128 ^ (encodeVbi n).length ∧ ∀ j, 1 ≤ j → n < 128 ^ j → (encodeVbi n).length ≤ j := by
  refine ⟨vbiSize_ok hn, encodeVbi_length_pos n, encodeVbi_length_le hn, ?_,
    fun j hj h => encodeVbi_minimal hn hj h⟩
  obtain ⟨u, h1, _, _, h4⟩ := decodeVbi_ok (by simpa using decodeVbi_encode .debug n hn [])
  simp at h1
  rw [h1]; exact h4

/-- C02: no byte string that decodes to `n` is shorter than the encoding of `n`. -/
theorem C02_vbi_no_shorter (m : Mode) (n : Nat) (bs rest : Buf)
    (h : decodeVbi m (bs ++ rest) = .ok (n, rest)) : (encodeVbi n).length ≤ bs.length := by
  obtain ⟨u, h1, h2, _, h4⟩ := decodeVbi_ok h
  have : bs = u := List.append_cancel_right h1
  subst this
  exact encodeVbi_minimal (decodeVbi_lt h) h2 h4

/-- C02: no encoding is a prefix of the encoding of another integer. -/
theorem C02_vbi_prefix_free (a b : Nat) (ha : a < 2 ^ 28) (hb : b < 2 ^ 28)
    (h : encodeVbi a <+: encodeVbi b) : a = b := by
  obtain ⟨t, ht⟩ := h
  have h1 := decodeVbi_encode .debug a ha t
  have h2 := decodeVbi_encode .debug b hb []
  rw [ht] at h1
  rw [List.append_nil, h1] at h2
  injection h2 with h2
  exact (Prod.mk.inj h2).1

/-- C02: the announced size aborts for integers of 2^28 and more. -/
theorem C02_vbi_size_aborts (n : Nat) (hn : 2 ^ 28 ≤ n) : vbiSize n = .panic := vbiSize_panic hn

example : (200 : Nat) < 2 ^ 28 ∧ vbiSize 200 = .ok 2 ∧ encodeVbi 200 = [0xc8, 0x01] := by decide
example : decodeVbi .debug ([0xc8, 0x81, 0x00] ++ [7]) = .ok (200, [7]) := by decide
example : encodeVbi 200 <+: encodeVbi 200 := List.prefix_refl _
example : (2 : Nat) ^ 28 ≤ 2 ^ 28 + 1 := by decide

/-! ## C03 -/

/-- C03 (a): 'incomplete' exactly for at most four bytes that all have the continuation bit. -/
theorem C03_vbi_incomplete_iff (m : Mode) (bs : Buf) :
    decodeVbi m bs = .err .incomplete ↔ bs.length ≤ 4 ∧ ∀ b ∈ bs, Continues b := by
  constructor
  · intro h
    rcases vbi_shape bs with h1 | ⟨pre, l, r, rfl, h2, h3, h4⟩ | ⟨pre, l, r, rfl, h2, h3⟩
    · exact h1
    · rw [decodeVbi_value m r h2 h3 h4] at h; cases h
    · rw [decodeVbi_long m r h2 h3] at h
      split at h <;> cases h
  · exact fun h => decodeVbi_short m h.1 h.2

/-- C03 (b): rejected as malformed, or an abort, exactly for four continuation bytes and a fifth
byte. -/
theorem C03_vbi_rejected_iff (m : Mode) (bs : Buf) :
    (decodeVbi m bs = .err (.mqtt .malformedPacket) ∨ decodeVbi m bs = .panic) ↔
      5 ≤ bs.length ∧ ∀ b ∈ bs.take 4, Continues b := by
  constructor
  · intro h
    rcases vbi_shape bs with ⟨h1, h2⟩ | ⟨pre, l, r, rfl, h2, h3, h4⟩ | ⟨pre, l, r, rfl, h2, h3⟩
    · rw [decodeVbi_short m h1 h2] at h; rcases h with h | h <;> cases h
    · rw [decodeVbi_value m r h2 h3 h4] at h; rcases h with h | h <;> cases h
    · refine ⟨by simp; omega, ?_⟩
      rw [List.take_append_of_le_length (by omega), List.take_of_length_le (by omega)]
      exact h3
  · rintro ⟨h1, h2⟩
    match bs, h1 with
    | a :: b :: c :: d :: e :: r, _ =>
      have := decodeVbi_long m (pre := [a, b, c, d]) (fifth := e) r rfl (by simpa using h2)
      simp only [List.cons_append, List.nil_append] at this
      rw [this]
      split
      · exact .inr rfl
      · exact .inl rfl

/-- C03 (b): the abort happens only with overflow checks on, and exactly when the fifth byte's low
bits are 16 or more. -/
theorem C03_vbi_abort_iff (m : Mode) (bs : Buf) :
    decodeVbi m bs = .panic ↔
      m = .debug ∧ (∀ b ∈ bs.take 4, Continues b) ∧ ∃ fifth, bs[4]? = some fifth ∧
        16 ≤ fifth.toNat % 128 := by
  constructor
  · intro h
    rcases vbi_shape bs with ⟨h1, h2⟩ | ⟨pre, l, r, rfl, h2, h3, h4⟩ | ⟨pre, l, r, rfl, h2, h3⟩
    · rw [decodeVbi_short m h1 h2] at h; cases h
    · rw [decodeVbi_value m r h2 h3 h4] at h; cases h
    · rw [decodeVbi_long m r h2 h3] at h
      split at h
      · rename_i hc
        refine ⟨hc.1, ?_, l, ?_, hc.2⟩
        · rw [List.take_append_of_le_length (by omega), List.take_of_length_le (by omega)]
          exact h3
        · rw [List.getElem?_append_right (by omega), h2]; rfl
      · cases h
  · rintro ⟨rfl, h2, f, h3, h4⟩
    match bs, h3 with
    | a :: b :: c :: d :: e :: r, h3 =>
      have := decodeVbi_long .debug (pre := [a, b, c, d]) (fifth := e) r rfl (by simpa using h2)
      simp only [List.cons_append, List.nil_append] at this
      simp at h3
      subst h3
      rw [this]; simp [h4]

/-- C03 (c): otherwise the base-128 value of the bytes up to the first one without the continuation
bit, consuming exactly those. -/
theorem C03_vbi_value_iff (m : Mode) (bs : Buf) (v : Nat) (rest : Buf) :
    decodeVbi m bs = .ok (v, rest) ↔
      ∃ pre last, bs = pre ++ last :: rest ∧ pre.length ≤ 3 ∧ (∀ b ∈ pre, Continues b)
        ∧ ¬ Continues last ∧ v = base128 (pre ++ [last]) :=
  decodeVbi_ok_iff m bs v rest

/-- C03 (c): a decoded value is below 2^28. -/
theorem C03_vbi_value_lt (m : Mode) (bs : Buf) (v : Nat) (rest : Buf)
    (h : decodeVbi m bs = .ok (v, rest)) : v < 2 ^ 28 := decodeVbi_lt h

/-- C03: there is no other outcome. -/
theorem C03_vbi_outcomes (m : Mode) (bs : Buf) :
    decodeVbi m bs = .err .incomplete ∨ decodeVbi m bs = .err (.mqtt .malformedPacket)
      ∨ decodeVbi m bs = .panic ∨ ∃ v rest, decodeVbi m bs = .ok (v, rest) := by
  rcases vbi_shape bs with ⟨h1, h2⟩ | ⟨pre, l, r, rfl, h2, h3, h4⟩ | ⟨pre, l, r, rfl, h2, h3⟩
  · exact .inl (decodeVbi_short m h1 h2)
  · exact .inr (.inr (.inr ⟨_, _, decodeVbi_value m r h2 h3 h4⟩))
  · rw [decodeVbi_long m r h2 h3]
    split
    · exact .inr (.inr (.inl rfl))
    · exact .inr (.inl rfl)

example : decodeVbi .debug [0xff, 0xff, 0xff, 0xff, 0xff] = .panic
    ∧ decodeVbi .release [0xff, 0xff, 0xff, 0xff, 0xff] = .err (.mqtt .malformedPacket)
    ∧ decodeVbi .debug [0xff, 0xff] = .err .incomplete
    ∧ decodeVbi .debug [0x80, 0x80, 0x80, 0x01, 9] = .ok (2097152, [9]) := by decide

/-! ## C04 -/

/-- What `encodeBin` writes for a value that fits is the MQTT field of the specification. -/
theorem encodeBin_eq_field (x : Buf) (hx : x.length ≤ 65535) : encodeBin x = field x := by
  simp only [encodeBin, encodeU16, field, List.cons_append, List.nil_append]
  have : (UInt16.ofNat x.length).toNat = x.length := by simp; omega
  rw [this]

/-- C04: binary values of at most 65535 bytes survive the wire, in the format of the standard. -/
theorem C04_binary_roundtrip (x : Buf) (hx : BinaryField x) (rest : Buf) :
    encodeBin x = field x ∧ decodeBin (encodeBin x ++ rest) = .ok (x, rest) :=
  ⟨encodeBin_eq_field x hx, decodeBin_encode x (by unfold BinaryField at hx; omega) rest⟩

/-- C04: text of at most 65535 bytes survives the wire, in the format of the standard. -/
theorem C04_text_roundtrip (s : Str) (hs : TextField s) (rest : Buf) :
    encodeStr s = field s ∧ decodeStr (encodeStr s ++ rest) = .ok (s, rest) :=
  ⟨encodeBin_eq_field s hs.2,
    decodeStr_encode s (by have := hs.2; omega) (utf8Valid_of_isUtf8 hs.1) rest⟩

theorem decodeBin_ok {bs v rest : Buf} (h : decodeBin bs = .ok (v, rest)) :
    v.length ≤ 65535 ∧ bs = field v ++ rest := by
  match bs with
  | [] => cases h
  | [_] => cases h
  | a :: b :: bs =>
    simp only [decodeBin] at h
    split at h
    · cases h
    · rename_i hl
      injection h with h
      obtain ⟨h1, h2⟩ := Prod.mk.inj h
      have ha := a.toNat_lt
      have hb := b.toNat_lt
      have hlen : v.length = a.toNat * 256 + b.toNat := by
        rw [← h1, List.length_take]; omega
      refine ⟨by omega, ?_⟩
      have e1 : UInt8.ofNat (v.length / 256) = a := by
        apply UInt8.toNat.inj; simp; omega
      have e2 : UInt8.ofNat (v.length % 256) = b := by
        apply UInt8.toNat.inj; simp; omega
      rw [field, e1, e2, List.cons_append, List.cons_append, ← h1, ← h2, List.take_append_drop]

theorem decodeStr_bin {bs v rest : Buf} (h : decodeStr bs = .ok (v, rest)) :
    decodeBin bs = .ok (v, rest) ∧ utf8Valid v = true := by
  match bs with
  | [] => cases h
  | [_] => cases h
  | a :: b :: bs =>
    simp only [decodeStr] at h
    simp only [decodeBin]
    split at h
    · cases h
    · rename_i hl
      rw [if_neg hl]
      split at h
      · rename_i hu
        refine ⟨h, ?_⟩
        injection h with h
        rw [← (Prod.mk.inj h).1]; exact hu
      · cases h

/-- C04: whatever is delivered is exactly one complete field at the front of the input (so a
truncated field is never delivered as a shorter value). -/
theorem C04_binary_exact (bs v rest : Buf) (h : decodeBin bs = .ok (v, rest)) :
    v.length ≤ 65535 ∧ bs = field v ++ rest := decodeBin_ok h

/-- C04: the same for text. -/
theorem C04_text_exact (bs v rest : Buf) (h : decodeStr bs = .ok (v, rest)) :
    v.length ≤ 65535 ∧ bs = field v ++ rest := decodeBin_ok (decodeStr_bin h).1

/-- C04: every strict prefix of a field is refused, with no value delivered. -/
theorem C04_truncated_refused (x : Buf) (hx : x.length ≤ 65535) (k : Nat)
    (hk : k < (field x).length) :
    (∃ e, decodeBin ((field x).take k) = .err e) ∧ (∃ e, decodeStr ((field x).take k) = .err e) := by
  match k with
  | 0 => exact ⟨⟨_, rfl⟩, ⟨_, rfl⟩⟩
  | 1 => exact ⟨⟨_, rfl⟩, ⟨_, rfl⟩⟩
  | k + 2 =>
    have hk' : k < x.length := by simpa [field] using hk
    have hl : (UInt8.ofNat (x.length / 256)).toNat * 256 + (UInt8.ofNat (x.length % 256)).toNat
        = x.length := by simp; omega
    have hlt : (x.take k).length < (UInt8.ofNat (x.length / 256)).toNat * 256
        + (UInt8.ofNat (x.length % 256)).toNat := by rw [hl, List.length_take]; omega
    constructor
    · refine ⟨.mqtt .malformedPacket, ?_⟩
      simp only [field, List.take_succ_cons, decodeBin]
      rw [if_pos hlt]
    · refine ⟨.mqtt .malformedPacket, ?_⟩
      simp only [field, List.take_succ_cons, decodeStr]
      rw [if_pos hlt]

/-- C04: longer values do not survive: only the length modulo 65536 is transmitted, the rest of the
value is left in the stream as if it were the next field. -/
theorem C04_oversize_truncates (x : Buf) (rest : Buf) :
    decodeBin (encodeBin x ++ rest) =
      .ok (x.take (x.length % 65536), x.drop (x.length % 65536) ++ rest) := by
  have h : (UInt8.ofNat ((UInt16.ofNat x.length).toNat / 256)).toNat * 256
      + (UInt8.ofNat ((UInt16.ofNat x.length).toNat % 256)).toNat = x.length % 65536 := by
    simp; omega
  have hle : x.length % 65536 ≤ x.length := Nat.mod_le _ _
  simp only [encodeBin, encodeU16, List.cons_append, List.nil_append, decodeBin, h]
  rw [if_neg (by simp; omega), List.take_append_of_le_length hle,
    List.drop_append_of_le_length hle]

/-- C04: so no value of more than 65535 bytes comes back, as binary or as text. -/
theorem C04_oversize_lost (x : Buf) (hx : 65535 < x.length) (rest : Buf) :
    decodeBin (encodeBin x ++ rest) ≠ .ok (x, rest) ∧ decodeStr (encodeStr x ++ rest) ≠ .ok (x, rest) := by
  have key : decodeBin (encodeBin x ++ rest) ≠ .ok (x, rest) := by
    intro h
    have := (decodeBin_ok h).1
    omega
  exact ⟨key, fun h => key (decodeStr_bin h).1⟩

example : BinaryField [1, 2, 3] := by decide
example : TextField (str "a/ü") ∧ (str "a/ü").length = 4 := by decide
example : decodeBin [0, 2, 5, 6, 7] = .ok ([5, 6], [7]) := by decide
example : decodeStr [0, 2, 65, 66, 7] = .ok (str "AB", [7]) := by decide
example : (3 : Nat) < (field [5, 6]).length := by decide
example : 65535 < (List.replicate 65536 (0 : UInt8)).length := by
  rw [List.length_replicate]; decide

/-! ## C05 -/

/-- C05: a text field that is accepted is valid UTF-8 (and is the field that was received). -/
theorem C05_accepted_is_utf8 (bs v rest : Buf) (h : decodeStr bs = .ok (v, rest)) :
    IsUtf8 v ∧ bs = field v ++ rest :=
  ⟨isUtf8_of_utf8Valid v (decodeStr_bin h).2, (C04_text_exact bs v rest h).2⟩

/-- C05: a complete field holding anything else is rejected as malformed. -/
theorem C05_non_utf8_rejected (x : Buf) (hl : x.length ≤ 65535) (hx : ¬ IsUtf8 x) (rest : Buf) :
    decodeStr (field x ++ rest) = .err (.mqtt .malformedPacket) := by
  have hv : utf8Valid x = false := by
    cases h : utf8Valid x with
    | false => rfl
    | true => exact absurd (isUtf8_of_utf8Valid x h) hx
  have h : (UInt8.ofNat (x.length / 256)).toNat * 256 + (UInt8.ofNat (x.length % 256)).toNat
      = x.length := by simp; omega
  simp only [field, List.cons_append, decodeStr, h]
  simp [hv]

example : decodeStr (field (str "é") ++ [1]) = .ok (str "é", [1]) := by decide
example : ¬ IsUtf8 [0xff] := by decide
/-- A surrogate (U+D800) encoded in three bytes is not UTF-8 and is rejected. -/
example : ¬ IsUtf8 [0xed, 0xa0, 0x80] := by decide

/-! ## C06 -/

/-- C06: each reason code decodes back to itself, the two other names of 0x00 to success. -/
theorem C06_reason_roundtrip (r : ReasonCode) (rest : Buf) :
    decodeReason (encodeReason r ++ rest) =
      .ok (if r = .normalDisconnection ∨ r = .grantedQoS0 then .success else r, rest) := by
  rw [decodeReason_encode]
  cases r <;> rfl

/-- C06: an accepted byte re-encodes to itself and is consumed alone. -/
theorem C06_reason_byte_stable (b : UInt8) (rest rest' : Buf) (r : ReasonCode)
    (h : decodeReason (b :: rest) = .ok (r, rest')) : encodeReason r = [b] ∧ rest' = rest := by
  rw [decodeReason_cons] at h
  have key : ∀ b : UInt8, ∀ r ∈ ReasonCode.ofCode b, r.code = b :=
    u8_forall (by decide +kernel)
  cases hc : ReasonCode.ofCode b with
  | none => rw [hc] at h; cases h
  | some r' =>
    rw [hc] at h
    injection h with h
    obtain ⟨rfl, rfl⟩ := Prod.mk.inj h
    exact ⟨by rw [encodeReason, key b r' (by simp [hc])], rfl⟩

/-- C06: a byte is accepted iff it is one of the 43 assigned codes, otherwise it is malformed. -/
theorem C06_reason_accepted_iff (b : UInt8) (rest : Buf) :
    ((∃ r, decodeReason (b :: rest) = .ok (r, rest)) ↔ b.toNat ∈ assignedReasons) ∧
    (b.toNat ∉ assignedReasons → decodeReason (b :: rest) = .err (.mqtt .malformedPacket)) := by
  have key : ∀ b : UInt8, (ReasonCode.ofCode b).isSome = decide (b.toNat ∈ assignedReasons) :=
    u8_forall (by decide +kernel)
  have kb := key b
  rw [decodeReason_cons]
  cases hc : ReasonCode.ofCode b with
  | none =>
    rw [hc] at kb
    have hn : b.toNat ∉ assignedReasons := by simpa using kb.symm
    refine ⟨⟨?_, fun h => absurd h hn⟩, fun _ => rfl⟩
    rintro ⟨r, h⟩
    cases h
  | some r =>
    rw [hc] at kb
    have hy : b.toNat ∈ assignedReasons := by simpa using kb.symm
    exact ⟨⟨fun _ => hy, fun _ => ⟨r, rfl⟩⟩, fun h => absurd hy h⟩

/-- C06: each reason is written as the number MQTT 5 gives it, and a number is read as the reason it stands
for (0 as success). -/
theorem C06_standard_numbers (r : ReasonCode) (rest : Buf) :
    encodeReason r = [UInt8.ofNat r.number] ∧
    decodeReason (UInt8.ofNat r.number :: rest) = .ok (if r.number = 0 then .success else r, rest) := by
  cases r <;> exact ⟨rfl, rfl⟩

example : ReasonCode.number .keepAliveTimeout = 0x8d ∧ encodeReason .keepAliveTimeout = [0x8d] := by decide
example : assignedReasons.length = 43 ∧ assignedReasons.Nodup := by decide
example : decodeReason [0x8d, 1] = .ok (.keepAliveTimeout, [1]) := by decide
example : (0x05 : UInt8).toNat ∉ assignedReasons := by decide

end Mercurio
