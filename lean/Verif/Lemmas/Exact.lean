import Verif.Lemmas.Accepted
import Verif.Lemmas.Wire
import Verif.Spec.Grammar

/-!
# Decoders accept exactly what the grammar says
-/

namespace Mercurio

open Spec

/-- The decoder takes from the buffer exactly the bytes `W` allows, and returns the value they stand
for. (The length limit is for the `as u32` casts of buffer lengths.) -/
structure Dec.Exact {α : Type} (d : Dec α) (W : α → Buf → Prop) : Prop where
  sound : ∀ b a r, d b = .ok (a, r) → ∃ w, b = w ++ r ∧ W a w
  complete : ∀ a w r, W a w → (w ++ r).length < 2 ^ 32 → d (w ++ r) = .ok (a, r)

/-- One after the other. -/
def Spec.Seq {α β : Type} (W : α → Buf → Prop) (V : α → β → Buf → Prop) (c : β) (w : Buf) : Prop :=
  ∃ a u v, w = u ++ v ∧ W a u ∧ V a c v

namespace Dec.Exact

theorem bind {α β : Type} {d : Dec α} {f : α → Dec β} {W : α → Buf → Prop} {V : α → β → Buf → Prop}
    (hd : d.Exact W) (hf : ∀ a, (f a).Exact (V a)) : (d >>= f).Exact (Seq W V) := by
  constructor
  · intro b c r h
    obtain ⟨a, b', h1, h2⟩ := Dec.bind_inv h
    obtain ⟨u, rfl, hu⟩ := hd.sound _ _ _ h1
    obtain ⟨v, rfl, hv⟩ := (hf a).sound _ _ _ h2
    exact ⟨u ++ v, by simp, a, u, v, rfl, hu, hv⟩
  · rintro c w r ⟨a, u, v, rfl, hu, hv⟩ hl
    rw [List.append_assoc] at hl ⊢
    rw [Dec.bind_apply, hd.complete a u (v ++ r) hu hl]
    exact (hf a).complete c v r hv (by simp only [List.length_append] at hl ⊢; omega)

theorem iff {α : Type} {d : Dec α} {W V : α → Buf → Prop} (hd : d.Exact W) (h : ∀ a w, W a w ↔ V a w) :
    d.Exact V :=
  ⟨fun b a r hb => let ⟨w, e, hw⟩ := hd.sound b a r hb; ⟨w, e, (h a w).mp hw⟩,
   fun a w r hw hl => hd.complete a w r ((h a w).mpr hw) hl⟩

theorem pure {α : Type} (a : α) : (Pure.pure a : Dec α).Exact (fun x w => x = a ∧ w = []) := by
  constructor
  · intro b x r h; cases h; exact ⟨[], rfl, rfl, rfl⟩
  · rintro x w r ⟨rfl, rfl⟩ _; rfl

theorem map {α β : Type} {d : Dec α} {W : α → Buf → Prop} (hd : d.Exact W) (f : α → β) :
    (d >>= fun a => Pure.pure (f a)).Exact (fun c w => ∃ a, c = f a ∧ W a w) := by
  refine (bind hd fun a => pure (f a)).iff fun c w => ?_
  constructor
  · rintro ⟨a, u, v, rfl, hu, rfl, rfl⟩; exact ⟨a, rfl, by simpa using hu⟩
  · rintro ⟨a, rfl, h⟩; exact ⟨a, w, [], by simp, h, rfl, rfl⟩

theorem fail {α : Type} (e : Err) : (Dec.fail e : Dec α).Exact (fun _ _ => False) :=
  ⟨fun b x r h => (by cases h), fun _ _ _ h => h.elim⟩

end Dec.Exact

theorem getU8_exact : getU8.Exact (fun b w => w = [b]) := by
  constructor
  · intro b a r h; cases b <;> cases h; exact ⟨[a], rfl, rfl⟩
  · rintro a w r rfl _; rfl

theorem decodeU8_exact : decodeU8.Exact (fun b w => w = [b]) := by
  constructor
  · intro b a r h; cases b <;> cases h; exact ⟨[a], rfl, rfl⟩
  · rintro a w r rfl _; rfl

theorem advance1_exact : advance1.Exact (fun _ w => ∃ b, w = [b]) := by
  constructor
  · intro b a r h
    cases b with
    | nil => cases h
    | cons c b => cases h; exact ⟨[c], rfl, c, rfl⟩
  · rintro a w r ⟨b, rfl⟩ _; rfl

theorem decodeBool_exact : decodeBool.Exact (fun v w => ∃ b, w = [b] ∧ (v = true ↔ b ≠ 0)) := by
  constructor
  · intro b a r h
    cases b with
    | nil => cases h
    | cons c b => cases h; exact ⟨[c], rfl, c, rfl, by simp⟩
  · rintro a w r ⟨b, rfl, h⟩ _
    show Res.ok (b != 0, r) = _
    have : (b != 0) = a := by cases a <;> simp_all
    rw [this]

theorem be16_two (a b : UInt8) : be16 (a.toNat * 256 + b.toNat) = [a, b] := by
  have h1 := a.toNat_lt; have h2 := b.toNat_lt
  have e1 : (a.toNat * 256 + b.toNat) / 256 = a.toNat := by omega
  have e2 : (a.toNat * 256 + b.toNat) % 256 = b.toNat := by omega
  rw [be16, e1, e2]; simp

theorem decodeU16_exact : decodeU16.Exact (fun v w => w = be16 v.toNat) := by
  constructor
  · intro b v r h
    rcases b with _ | ⟨b0, _ | ⟨b1, b⟩⟩ <;> cases h
    refine ⟨[b0, b1], rfl, ?_⟩
    have h1 := b0.toNat_lt; have h2 := b1.toNat_lt
    rw [UInt16.toNat_ofNat', Nat.mod_eq_of_lt (by omega), be16_two]
  · rintro v w r rfl _
    exact decodeU16_encode v r

theorem decodeU32_exact : decodeU32.Exact (fun v w => w = be32 v.toNat) := by
  constructor
  · intro b v r h
    rcases b with _ | ⟨b0, _ | ⟨b1, _ | ⟨b2, _ | ⟨b3, b⟩⟩⟩⟩ <;> cases h
    refine ⟨[b0, b1, b2, b3], rfl, ?_⟩
    have h0 := b0.toNat_lt; have h1 := b1.toNat_lt; have h2 := b2.toNat_lt; have h3 := b3.toNat_lt
    rw [UInt32.toNat_ofNat', Nat.mod_eq_of_lt (by omega), be32]
    have e1 : (((b0.toNat * 256 + b1.toNat) * 256 + b2.toNat) * 256 + b3.toNat) / 65536 =
      b0.toNat * 256 + b1.toNat := by omega
    have e2 : (((b0.toNat * 256 + b1.toNat) * 256 + b2.toNat) * 256 + b3.toNat) % 65536 =
      b2.toNat * 256 + b3.toNat := by omega
    rw [e1, e2, be16_two, be16_two]; rfl
  · rintro v w r rfl _
    have := decodeU32_encode v r
    rwa [encodeU32_be] at this

theorem field_two (a b : UInt8) (x : Buf) (h : x.length = a.toNat * 256 + b.toNat) :
    field x = a :: b :: x := by
  have h1 := a.toNat_lt; have h2 := b.toNat_lt
  have e1 : x.length / 256 = a.toNat := by omega
  have e2 : x.length % 256 = b.toNat := by omega
  rw [field, e1, e2]; simp

theorem decodeBin_exact : decodeBin.Exact BinaryOf := by
  constructor
  · intro b a r h
    have ha := decodeBin_gives.h _ _ _ h
    rcases b with _ | ⟨b0, _ | ⟨b1, b⟩⟩
    · cases h
    · cases h
    · simp only [decodeBin] at h
      split at h
      · cases h
      · rename_i hl
        cases h
        refine ⟨b0 :: b1 :: b.take (b0.toNat * 256 + b1.toNat), by simp, ha, ?_⟩
        rw [field_two b0 b1 _ (by rw [List.length_take]; omega)]
  · rintro a w r ⟨ha, rfl⟩ _
    have := decodeBin_encode a (by unfold BinaryField at ha; omega) r
    rwa [encodeBin_field ha] at this

theorem decodeStr_exact : decodeStr.Exact TextOf := by
  constructor
  · intro b a r h
    have ha := decodeStr_gives.h _ _ _ h
    rcases b with _ | ⟨b0, _ | ⟨b1, b⟩⟩
    · cases h
    · cases h
    · simp only [decodeStr] at h
      split at h
      · cases h
      · rename_i hl
        split at h
        · cases h
          refine ⟨b0 :: b1 :: b.take (b0.toNat * 256 + b1.toNat), by simp, ha, ?_⟩
          rw [field_two b0 b1 _ (by rw [List.length_take]; omega)]
        · cases h
  · rintro a w r ⟨ha, rfl⟩ _
    obtain ⟨h1, h2⟩ := TextField.valid ha
    have := decodeStr_encode a h1 h2 r
    rwa [encodeStr, encodeBin_field ha.2] at this

theorem decodeVbi_exact (m : Mode) : (decodeVbi m).Exact VbiOf := by
  constructor
  · intro b n r h
    obtain ⟨pre, last, rfl, h1, h2, h3, h4⟩ := (decodeVbi_ok_iff m b n r).mp h
    exact ⟨pre ++ [last], by simp, pre, last, rfl, h1, h2, h3, h4⟩
  · rintro n w r ⟨pre, last, rfl, h1, h2, h3, h4⟩ _
    exact (decodeVbi_ok_iff m _ n r).mpr ⟨pre, last, by simp, h1, h2, h3, h4⟩

theorem ReasonCode.code_number (r : ReasonCode) : r.code = UInt8.ofNat r.number := by
  cases r <;> rfl

theorem decodeReason_exact : decodeReason.Exact ReasonOf := by
  have table : ∀ (b : UInt8) (r : ReasonCode), ReasonCode.ofCode b = some r ↔ b = r.code ∧ r.received = r := by
    intro b r
    constructor
    · revert r
      revert b
      refine u8_forall ?_
      decide +kernel
    · rintro ⟨rfl, h⟩
      cases r <;> first | rfl | cases h
  constructor
  · intro b r rest h
    rw [decodeReason] at h
    obtain ⟨c, b', h1, h2⟩ := Dec.bind_inv h
    obtain ⟨w, rfl, rfl⟩ := getU8_exact.sound _ _ _ h1
    cases ho : ReasonCode.ofCode c with
    | none => rw [ho] at h2; cases h2
    | some r' =>
      rw [ho] at h2
      cases h2
      obtain ⟨rfl, hr⟩ := (table _ _).mp ho
      exact ⟨_, rfl, by rw [r.code_number], hr⟩
  · rintro r w rest ⟨rfl, h⟩ _
    rw [← r.code_number]
    have := (table r.code r).mpr ⟨rfl, h⟩
    rw [decodeReason, List.singleton_append]
    show (match ReasonCode.ofCode r.code with | some x => (Pure.pure x : Dec ReasonCode) | none => _) rest = _
    rw [this]; rfl

/-! ## Properties -/

theorem Property.number_id (p : Property) : p.number = p.id := by cases p <;> rfl

/-- What the server reads for a property. -/
def Spec.ReadProperty (p : Property) (w : Buf) : Prop := ∃ q : Property, q.misread = p ∧ q.Of w

theorem Spec.VbiOf.lt {n : Nat} {w : Buf} (h : VbiOf n w) : n < 2 ^ 28 := by
  obtain ⟨pre, last, rfl, h1, _, _, rfl⟩ := h
  have := base128_lt (pre ++ [last])
  refine Nat.lt_of_lt_of_le this ?_
  have e : (2 : Nat) ^ 28 = 128 ^ 4 := by decide
  rw [e]
  exact Nat.pow_le_pow_right (by decide) (by simp; omega)

theorem decodeVbi32_exact (m : Mode) :
    (decodeVbi32 m).Exact (fun v w => v.toNat < 2 ^ 28 ∧ VbiOf v.toNat w) := by
  refine ((decodeVbi_exact m).map UInt32.ofNat).iff fun v w => ⟨?_, ?_⟩
  · rintro ⟨n, rfl, h⟩
    have := h.lt
    rw [UInt32.toNat_ofNat', Nat.mod_eq_of_lt (by omega)]
    exact ⟨this, h⟩
  · rintro ⟨_, h⟩; exact ⟨_, by simp, h⟩

theorem decodeWithId_exact (m : Mode) (id : Nat) :
    (decodeWithId m id).Exact (fun p w => ∃ q : Property, q.misread = p ∧ q.number = id ∧ q.ValueOf w) := by
  have simple2 : ∀ {α : Type} {d : Dec α} {W : α → Buf → Prop} (C C' : α → Property), d.Exact W →
      (∀ a, (C' a).misread = C a) → (∀ a, (C' a).number = id) → (∀ a w, (C' a).ValueOf w ↔ W a w) →
      (∀ q : Property, q.number = id → ∃ a, q = C' a) →
      (d >>= fun a => Pure.pure (C a)).Exact
        (fun p w => ∃ q : Property, q.misread = p ∧ q.number = id ∧ q.ValueOf w) := by
    intro α d W C C' hd hm hn hv hu
    refine (hd.map C).iff fun p w => ⟨?_, ?_⟩
    · rintro ⟨a, rfl, h⟩; exact ⟨C' a, hm a, hn a, (hv a w).mpr h⟩
    · rintro ⟨q, rfl, hn, hq⟩
      obtain ⟨a, rfl⟩ := hu q hn
      exact ⟨a, hm a, (hv a w).mp hq⟩
  have simple : ∀ {α : Type} {d : Dec α} {W : α → Buf → Prop} (C : α → Property), d.Exact W →
      (∀ a, (C a).misread = C a) → (∀ a, (C a).number = id) → (∀ a w, (C a).ValueOf w ↔ W a w) →
      (∀ q : Property, q.number = id → ∃ a, q = C a) →
      (d >>= fun a => Pure.pure (C a)).Exact
        (fun p w => ∃ q : Property, q.misread = p ∧ q.number = id ∧ q.ValueOf w) :=
    fun C => simple2 C C
  unfold decodeWithId
  split
  all_goals first
    | refine simple _ decodeU8_exact (fun _ => rfl) (fun _ => rfl)
        (fun _ _ => ⟨fun h => h.2, fun h => ⟨trivial, h⟩⟩) (fun q hq => ?_)
    | refine simple2 _ .requestResponseInformation decodeU8_exact (fun _ => rfl) (fun _ => rfl)
        (fun _ _ => ⟨fun h => h.2, fun h => ⟨trivial, h⟩⟩) (fun q hq => ?_)
    | refine simple _ decodeBool_exact (fun _ => rfl) (fun _ => rfl)
        (fun _ _ => ⟨fun h => h.2, fun h => ⟨trivial, h⟩⟩) (fun q hq => ?_)
    | refine simple _ decodeU16_exact (fun _ => rfl) (fun _ => rfl)
        (fun _ _ => ⟨fun h => h.2, fun h => ⟨trivial, h⟩⟩) (fun q hq => ?_)
    | refine simple _ decodeU32_exact (fun _ => rfl) (fun _ => rfl)
        (fun _ _ => ⟨fun h => h.2, fun h => ⟨trivial, h⟩⟩) (fun q hq => ?_)
    | refine simple _ decodeStr_exact (fun _ => rfl) (fun _ => rfl) (fun _ _ => Iff.rfl) (fun q hq => ?_)
    | refine simple _ decodeBin_exact (fun _ => rfl) (fun _ => rfl) (fun _ _ => Iff.rfl) (fun q hq => ?_)
    | refine simple _ (decodeVbi32_exact m) (fun _ => rfl) (fun _ => rfl) (fun _ _ => Iff.rfl)
        (fun q hq => ?_)
    | skip
  all_goals try (rw [Property.number_id] at hq; cases q <;> simp [Property.id] at hq <;> exact ⟨_, rfl⟩)
  · refine (Dec.Exact.bind decodeStr_exact fun k => decodeStr_exact.map (Property.userProperty k)).iff
      fun p w => ⟨?_, ?_⟩
    · rintro ⟨k, u, v, rfl, ⟨h1, rfl⟩, v', rfl, h2, rfl⟩
      exact ⟨.userProperty k v', rfl, rfl, ⟨h1, h2⟩, rfl⟩
    · rintro ⟨q, rfl, hq, hv⟩
      rw [Property.number_id] at hq
      cases q <;> simp [Property.id] at hq
      obtain ⟨⟨h1, h2⟩, hw⟩ := hv
      exact ⟨_, _, _, hw, ⟨h1, rfl⟩, _, rfl, h2, rfl⟩
  · rename_i h
    refine (Dec.Exact.fail _).iff fun p w => ⟨False.elim, ?_⟩
    rintro ⟨q, rfl, hq, _⟩
    rw [Property.number_id] at hq
    subst hq
    cases q <;> simp [Property.id] at *

theorem decodeProperty_exact (m : Mode) : (decodeProperty m).Exact ReadProperty := by
  refine (Dec.Exact.bind (decodeVbi_exact m) (decodeWithId_exact m)).iff fun p w => ⟨?_, ?_⟩
  · rintro ⟨_, u, v, rfl, h1, q, rfl, rfl, h2⟩; exact ⟨q, rfl, u, v, rfl, h1, h2⟩
  · rintro ⟨q, rfl, u, v, rfl, h1, h2⟩; exact ⟨_, u, v, rfl, h1, q, rfl, rfl, h2⟩

/-! ## Property blocks -/

/-- The updates of a record one after the other. -/
def Spec.collect {P : Type} (set : P → Property → Option P) : P → List Property → Option P
  | p, [] => some p
  | p, q :: qs => match set p q with
    | none => none
    | some p' => collect set p' qs

theorem propLoop_sound {P : Type} {m : Mode} {set : P → Property → Option P} :
    ∀ fuel p b p', propLoop m set fuel p b = .ok p' →
      ∃ ps, ListOf ReadProperty ps b ∧ collect set p ps = some p' := by
  intro fuel
  induction fuel with
  | zero =>
    intro p b p' h
    cases b with
    | nil => simp only [propLoop] at h; cases h; exact ⟨[], .nil, rfl⟩
    | cons c b => simp only [propLoop] at h; cases h
  | succ fuel ih =>
    intro p b p' h
    cases b with
    | nil => simp only [propLoop] at h; cases h; exact ⟨[], .nil, rfl⟩
    | cons c b =>
      simp only [propLoop] at h
      split at h
      · cases h
      · cases h
      · rename_i prop rest hp
        obtain ⟨w, e, hw⟩ := (decodeProperty_exact m).sound _ _ _ hp
        split at h
        · cases h
        · rename_i p1 h3
          obtain ⟨ps, h4, h5⟩ := ih _ _ _ h
          refine ⟨prop :: ps, ?_, ?_⟩
          · rw [e]; exact .cons hw h4
          · simp only [collect, h3]; exact h5

theorem Spec.ReadProperty.pos {p : Property} {w : Buf} (h : ReadProperty p w) : 0 < w.length := by
  obtain ⟨q, _, u, v, rfl, ⟨pre, last, rfl, _⟩, _⟩ := h
  simp; omega

theorem Spec.readList_nil {ps : List Property} (h : ListOf ReadProperty ps []) : ps = [] := by
  generalize e : ([] : Buf) = b at h
  cases h with
  | nil => rfl
  | cons hu _ =>
    have := hu.pos
    have := congrArg List.length e
    simp only [List.length_nil, List.length_append] at this
    omega

theorem propLoop_complete {P : Type} {m : Mode} {set : P → Property → Option P} {ps : List Property}
    {b : Buf} (h : ListOf ReadProperty ps b) : ∀ fuel p p', b.length ≤ fuel → b.length < 2 ^ 32 →
      collect set p ps = some p' → propLoop m set fuel p b = .ok p' := by
  induction h with
  | nil => intro fuel p p' _ _ h; cases h; cases fuel <;> rfl
  | @cons q qs u w hu _ ih =>
    intro fuel p p' hf hl hc
    have hpos := hu.pos
    simp only [List.length_append] at hf hl
    cases fuel with
    | zero => omega
    | succ fuel =>
      have hd := (decodeProperty_exact m).complete q u w hu (by simp only [List.length_append]; omega)
      cases u with
      | nil => simp at hpos
      | cons c u =>
        rw [List.cons_append] at hd ⊢
        simp only [propLoop, hd]
        simp only [collect] at hc
        cases hs : set p q with
        | none => rw [hs] at hc; cases hc
        | some p1 =>
          rw [hs] at hc
          exact ih fuel p1 p' (by simp only [List.length_cons] at hf; omega) (by omega) hc

theorem decodeBlock_exact {P : Type} (m : Mode) (short : Err) (dflt : P)
    (set : P → Property → Option P) :
    (decodeBlock m short dflt set).Exact (fun p w => ∃ ps l x, w = l ++ x ∧ VbiOf x.length l ∧
      ListOf ReadProperty ps x ∧ collect set dflt ps = some p) := by
  constructor
  · intro b p r h
    obtain ⟨len, c, hv, hle, rfl, hp⟩ := decodeBlock_inv h
    obtain ⟨l, rfl, hl⟩ := (decodeVbi_exact m).sound _ _ _ hv
    obtain ⟨ps, h1, h2⟩ := propLoop_sound _ _ _ _ hp
    refine ⟨l ++ c.take len, by simp, ps, l, _, rfl, ?_, h1, h2⟩
    rw [List.length_take, Nat.min_eq_left hle]; exact hl
  · rintro p w r ⟨ps, l, x, rfl, hv, hp, hc⟩ hlen
    rw [List.append_assoc] at hlen ⊢
    rw [decodeBlock, Dec.bind_apply, (decodeVbi_exact m).complete _ _ _ hv hlen]
    simp only
    have hxr : (x ++ r).length < 2 ^ 32 := by simp only [List.length_append] at hlen ⊢; omega
    split
    · rename_i h0
      have : x = [] := List.length_eq_zero_iff.mp h0
      subst this
      rw [readList_nil hp] at hc
      cases hc
      rfl
    · rw [Dec.of_apply, Nat.mod_eq_of_lt hxr]
      have : ¬ (x ++ r).length < x.length := by simp
      rw [if_neg this]
      simp only [List.take_left, List.drop_left]
      rw [propLoop_complete hp _ _ _ (Nat.le_refl _) (by simp only [List.length_append] at hxr; omega) hc]

/-- The record type keeps what it is told: of a kind that may be repeated everything, otherwise the last. -/
structure Spec.Keeps {P : Type} (set : P → Property → Option P) (dflt : P) (held : P → List Property)
    (good : P → Prop) : Prop where
  empty : held dflt = []
  good0 : good dflt
  good1 : ∀ p q p', good p → set p q = some p' → good p'
  step : ∀ p q p', set p q = some p' → ∀ i, (held p').filter (·.number = i) =
    if q.number ≠ i then (held p).filter (·.number = i)
    else if i = 0x26 then (held p).filter (·.number = i) ++ [q] else [q]
  allowed : ∀ p q p', q.NotRRI → q.number ∈ (held p').map Property.number → (set p q).isSome
  inj : ∀ p p', good p → good p' → (∀ i, (held p).filter (·.number = i) = (held p').filter (·.number = i)) →
    p = p'

theorem Spec.Keeps.sums {P : Type} {set : P → Property → Option P} {dflt : P} {held : P → List Property}
    {good : P → Prop} (hk : Keeps set dflt held good) : ∀ ps p p', collect set p ps = some p' → good p →
      good p' ∧ ∀ i, (held p').filter (·.number = i) =
        if i = 0x26 then (held p).filter (·.number = i) ++ ps.filter (·.number = i)
        else match (ps.filter (·.number = i)).getLast? with
          | some q => [q]
          | none => (held p).filter (·.number = i) := by
  intro ps
  induction ps with
  | nil => intro p p' h hg; cases h; exact ⟨hg, fun i => by simp⟩
  | cons q ps ih =>
    intro p p' h hg
    simp only [collect] at h
    cases hs : set p q with
    | none => rw [hs] at h; cases h
    | some p1 =>
      rw [hs] at h
      obtain ⟨h1, h2⟩ := ih p1 p' h (hk.good1 _ _ _ hg hs)
      refine ⟨h1, fun i => ?_⟩
      rw [h2 i, hk.step _ _ _ hs i]
      by_cases hq : q.number = i
      · subst hq
        by_cases hu : q.number = 0x26
        · simp [hu]
        · simp only [hu, if_false, ne_eq, not_true_eq_false, decide_true, List.filter_cons_of_pos,
            List.getLast?_cons]
          cases (ps.filter (·.number = q.number)).getLast? <;> rfl
      · simp [hq]

theorem Spec.Keeps.iff {P : Type} {set : P → Property → Option P} {dflt : P} {held : P → List Property}
    {good : P → Prop} (hk : Keeps set dflt held good) (ps : List Property) (hn : ∀ q ∈ ps, q.NotRRI) (p : P) :
    collect set dflt ps = some p ↔ good p ∧ Sums (held p) ps := by
  have fwd : ∀ p, collect set dflt ps = some p → good p ∧ Sums (held p) ps := by
    intro p h
    obtain ⟨h1, h2⟩ := hk.sums ps dflt p h hk.good0
    refine ⟨h1, fun i => ?_⟩
    rw [h2 i, hk.empty]
    by_cases hi : i = 0x26
    · simp [hi]
    · simp only [hi, if_false, List.filter_nil]
      cases (ps.filter (·.number = i)).getLast? <;> rfl
  refine ⟨fwd p, ?_⟩
  rintro ⟨hg, hs⟩
  have ok : ∃ p', collect set dflt ps = some p' := by
    have allowed : ∀ q ∈ ps, q.number ∈ (held p).map Property.number := by
      intro q hq
      have h1 : ps.filter (·.number = q.number) ≠ [] := by
        intro e
        have := List.filter_eq_nil_iff.mp e q hq
        simp at this
      have h2 : (held p).filter (·.number = q.number) ≠ [] := by
        rw [hs q.number]
        split
        · exact h1
        · rw [List.getLast?_eq_some_getLast h1]; simp; exact ⟨q, hq, rfl⟩
      obtain ⟨x, hx⟩ := List.exists_mem_of_ne_nil _ h2
      simp only [List.mem_filter, decide_eq_true_eq] at hx
      exact List.mem_map.mpr ⟨x, hx.1, hx.2⟩
    clear fwd hs
    generalize dflt = d
    induction ps generalizing d with
    | nil => exact ⟨d, rfl⟩
    | cons q ps ih =>
      have h1 := hk.allowed d q p (hn q (by simp)) (allowed q (by simp))
      obtain ⟨d', hd'⟩ := Option.isSome_iff_exists.mp h1
      simp only [collect, hd']
      exact ih (fun q hq => hn q (by simp [hq])) (fun q hq => allowed q (by simp [hq])) d'
  obtain ⟨p', hp'⟩ := ok
  obtain ⟨hg', hs'⟩ := fwd p' hp'
  rw [hp', hk.inj p' p hg' hg (fun i => by rw [hs' i, hs i])]

theorem Property.misread_notRRI (p : Property) : p.misread.NotRRI := by cases p <;> trivial

theorem Spec.readList {ps : List Property} {w : Buf} :
    ListOf ReadProperty ps w ↔ ∃ qs, qs.map Property.misread = ps ∧ ListOf Property.Of qs w := by
  constructor
  · intro h
    induction h with
    | nil => exact ⟨[], rfl, .nil⟩
    | cons hu _ ih =>
      obtain ⟨q, rfl, hq⟩ := hu
      obtain ⟨qs, rfl, hqs⟩ := ih
      exact ⟨q :: qs, rfl, .cons hq hqs⟩
  · rintro ⟨qs, rfl, h⟩
    induction h with
    | nil => exact .nil
    | cons hu _ ih => exact .cons ⟨_, rfl, hu⟩ ih

theorem decodeBlock_held {P : Type} {set : P → Property → Option P} {dflt : P} {held : P → List Property}
    {good : P → Prop} (hk : Keeps set dflt held good) (m : Mode) (short : Err) :
    (decodeBlock m short dflt set).Exact (fun p w => good p ∧ BlockOf (held p) w) := by
  refine (decodeBlock_exact m short dflt set).iff fun p w => ?_
  have hn : ∀ qs : List Property, ∀ q ∈ qs.map Property.misread, q.NotRRI := by
    intro qs q hq
    obtain ⟨x, _, rfl⟩ := List.mem_map.mp hq
    exact x.misread_notRRI
  constructor
  · rintro ⟨ps, l, x, rfl, h1, h2, h3⟩
    obtain ⟨qs, rfl, h4⟩ := readList.mp h2
    obtain ⟨h5, h6⟩ := (hk.iff _ (hn qs) p).mp h3
    exact ⟨h5, qs, l, x, rfl, h1, h4, h6⟩
  · rintro ⟨h5, qs, l, x, rfl, h1, h4, h6⟩
    exact ⟨_, l, x, rfl, h1, readList.mpr ⟨qs, rfl, h4⟩, (hk.iff _ (hn qs) p).mpr ⟨h5, h6⟩⟩

end Mercurio
