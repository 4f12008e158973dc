import Verif.Model.Connection
import Verif.Lemmas.Codec
import Verif.Lemmas.RoundTrip

/-! # A debug build does what a release build does, or aborts -/

namespace Mercurio

/-- `x` is `y`, or an abort. -/
def Stricter {α : Type} (x y : Res α) : Prop := x = y ∨ x = .panic

theorem Stricter.refl {α : Type} (x : Res α) : Stricter x x := .inl rfl

/-- One decoder is stricter than another. -/
structure Dec.Stricter {α : Type} (d e : Dec α) : Prop where
  at' : ∀ b, Mercurio.Stricter (d b) (e b)

namespace Dec.Stricter

theorem refl {α : Type} (d : Dec α) : d.Stricter d := ⟨fun b => .inl rfl⟩

theorem bind {α β : Type} {d e : Dec α} {f g : α → Dec β} (h : d.Stricter e) (hf : ∀ a, (f a).Stricter (g a)) :
    (d >>= f).Stricter (e >>= g) := by
  refine ⟨fun b => ?_⟩
  rw [Dec.bind_apply, Dec.bind_apply]
  rcases h.at' b with h | h <;> rw [h]
  · cases e b with
    | ok x => exact (hf x.1).at' x.2
    | err _ => exact .inl rfl
    | panic => exact .inl rfl
  · exact .inr rfl

theorem ite {α : Type} {c : Prop} [Decidable c] {x y x' y' : Dec α} (hx : x.Stricter x') (hy : y.Stricter y') :
    (if c then x else y : Dec α).Stricter (if c then x' else y') := by split <;> assumption

end Dec.Stricter

open Dec.Stricter (bind refl ite)

theorem decodeVbiLoop_stricter : ∀ (b : Buf) (k v : Nat),
    Stricter (decodeVbiLoop .debug k v b) (decodeVbiLoop .release k v b) := by
  intro b
  induction b with
  | nil => intro k v; exact .inl rfl
  | cons c b ih =>
    intro k v
    simp only [decodeVbiLoop]
    by_cases h : 2 ^ 32 ≤ v + (c &&& 0x7f).toNat * k
    · right; rw [if_pos ⟨trivial, h⟩]
    · simp only [h, and_false, if_false]
      split
      · exact .inl rfl
      · split
        · exact .inl rfl
        · exact ih _ _

theorem decodeVbi_stricter : (decodeVbi .debug).Stricter (decodeVbi .release) :=
  ⟨fun b => decodeVbiLoop_stricter b 1 0⟩

theorem usizeSub_stricter (a b : Nat) : Stricter (usizeSub .debug a b) (usizeSub .release a b) := by
  unfold usizeSub
  split
  · exact .inl rfl
  · exact .inr rfl

theorem liftRes_stricter {α : Type} {x y : Res α} (h : Stricter x y) : (liftRes x).Stricter (liftRes y) := by
  refine ⟨fun b => ?_⟩
  rcases h with rfl | rfl
  · exact .inl rfl
  · exact .inr rfl

theorem decodeWithId_stricter (id : Nat) : (decodeWithId .debug id).Stricter (decodeWithId .release id) := by
  by_cases h : id = 0x0b
  · subst h
    exact bind (bind decodeVbi_stricter (fun _ => refl _)) (fun _ => refl _)
  · have : decodeWithId .debug id = decodeWithId .release id := by
      unfold decodeWithId
      split <;> first | rfl | exact absurd rfl h
    rw [this]
    exact refl _

theorem decodeProperty_stricter : (decodeProperty .debug).Stricter (decodeProperty .release) :=
  bind decodeVbi_stricter decodeWithId_stricter

theorem propLoop_stricter {P : Type} (set : P → Property → Option P) :
    ∀ fuel p b, Stricter (propLoop .debug set fuel p b) (propLoop .release set fuel p b) := by
  intro fuel
  induction fuel with
  | zero => intro p b; cases b <;> exact .inl rfl
  | succ fuel ih =>
    intro p b
    cases b with
    | nil => exact .inl rfl
    | cons c b =>
      simp only [propLoop]
      rcases decodeProperty_stricter.at' (c :: b) with h | h <;> rw [h]
      · cases decodeProperty .release (c :: b) with
        | ok x =>
          simp only
          cases set p x.1 with
          | none => exact .inl rfl
          | some p' => exact ih _ _
        | err _ => exact .inl rfl
        | panic => exact .inl rfl
      · exact .inr rfl

theorem decodeBlock_stricter {P : Type} (short : Err) (dflt : P) (set : P → Property → Option P) :
    (decodeBlock .debug short dflt set).Stricter (decodeBlock .release short dflt set) := by
  rw [decodeBlock, decodeBlock]
  refine bind decodeVbi_stricter (fun len => ite (refl _) ⟨fun b => ?_⟩)
  simp only [Dec.of]
  split
  · exact .inl rfl
  · rcases propLoop_stricter set (b.take len).length dflt (b.take len) with h | h <;> rw [h]
    · exact .inl rfl
    · exact .inr rfl

theorem decodeIf_stricter {α : Type} (c : Bool) {d e : Dec α} (h : d.Stricter e) :
    (decodeIf c d).Stricter (decodeIf c e) := by
  cases c
  · exact refl _
  · exact bind h (fun _ => refl _)

theorem decodeEntries_stricter {α : Type} (a b : Nat) (d : Dec α) :
    (decodeEntries .debug a b d).Stricter (decodeEntries .release a b d) := by
  rw [decodeEntries, decodeEntries]
  exact bind (refl _) (fun _ => ite (refl _) (bind (liftRes_stricter (usizeSub_stricter a b)) (fun _ => refl _)))

theorem decodeConnect_stricter : (decodeConnect .debug).Stricter (decodeConnect .release) := by
  rw [decodeConnect, decodeConnect]
  refine bind (refl _) (fun _ => bind decodeVbi_stricter (fun _ => bind (refl _) (fun name =>
    bind (refl _) (fun level => ?_))))
  cases ProtocolVersion.fromNameAndLevel name level with
  | none => exact refl _
  | some v =>
    refine bind (refl _) (fun f => bind (refl _) (fun _ => bind (decodeIf_stricter _ (decodeBlock_stricter _ _ _))
      (fun _ => bind (refl _) (fun _ => bind (decodeIf_stricter _ (decodeBlock_stricter _ _ _)) (fun _ => refl _)))))

theorem decodeConnAck_stricter : (decodeConnAck .debug).Stricter (decodeConnAck .release) := by
  rw [decodeConnAck, decodeConnAck]
  exact bind (refl _) (fun _ => bind decodeVbi_stricter (fun _ => bind (refl _) (fun _ => bind (refl _) (fun _ =>
    bind (decodeBlock_stricter _ _ _) (fun _ => refl _)))))

theorem decodeConnAckV3_stricter : (decodeConnAckV3 .debug).Stricter (decodeConnAckV3 .release) := by
  rw [decodeConnAckV3, decodeConnAckV3]
  exact bind (refl _) (fun _ => bind decodeVbi_stricter (fun _ => refl _))

theorem decodePublish_stricter : (decodePublish .debug).Stricter (decodePublish .release) := by
  rw [decodePublish, decodePublish]
  exact bind (refl _) (fun _ => bind decodeVbi_stricter (fun _ => bind (refl _) (fun _ => bind (refl _) (fun _ =>
    bind (decodeBlock_stricter _ _ _) (fun _ => bind (refl _) (fun _ =>
      bind (liftRes_stricter (usizeSub_stricter _ _)) (fun _ => refl _)))))))

theorem decodeAck_stricter : (decodeAck .debug).Stricter (decodeAck .release) := by
  rw [decodeAck, decodeAck]
  exact bind (refl _) (fun _ => bind decodeVbi_stricter (fun _ => bind (refl _) (fun _ => ite (refl _)
    (bind (refl _) (fun _ => bind (decodeBlock_stricter _ _ _) (fun _ => refl _))))))

theorem decodeSubscribe_stricter : (decodeSubscribe .debug).Stricter (decodeSubscribe .release) := by
  rw [decodeSubscribe, decodeSubscribe]
  exact bind (refl _) (fun _ => bind decodeVbi_stricter (fun _ => bind (refl _) (fun _ => bind (refl _) (fun _ =>
    bind (decodeBlock_stricter _ _ _) (fun _ => bind (decodeEntries_stricter _ _ _) (fun _ => refl _))))))

theorem decodeSubAck_stricter : (decodeSubAck .debug).Stricter (decodeSubAck .release) := by
  rw [decodeSubAck, decodeSubAck]
  exact bind (refl _) (fun _ => bind decodeVbi_stricter (fun _ => bind (refl _) (fun _ => bind (refl _) (fun _ =>
    bind (decodeBlock_stricter _ _ _) (fun _ => bind (decodeEntries_stricter _ _ _) (fun _ => refl _))))))

theorem decodeSubAckV3_stricter : (decodeSubAckV3 .debug).Stricter (decodeSubAckV3 .release) := by
  rw [decodeSubAckV3, decodeSubAckV3]
  exact bind (refl _) (fun _ => bind decodeVbi_stricter (fun _ => bind (refl _) (fun _ => bind (refl _) (fun _ =>
    bind (liftRes_stricter (usizeSub_stricter _ _)) (fun _ => refl _)))))

theorem decodeUnsubscribe_stricter : (decodeUnsubscribe .debug).Stricter (decodeUnsubscribe .release) := by
  rw [decodeUnsubscribe, decodeUnsubscribe]
  exact bind (refl _) (fun _ => bind decodeVbi_stricter (fun _ => bind (refl _) (fun _ => bind (refl _) (fun _ =>
    bind (decodeBlock_stricter _ _ _) (fun _ => bind (decodeEntries_stricter _ _ _) (fun _ => refl _))))))

theorem decodeUnsubAck_stricter : (decodeUnsubAck .debug).Stricter (decodeUnsubAck .release) := by
  rw [decodeUnsubAck, decodeUnsubAck]
  exact bind (refl _) (fun _ => bind decodeVbi_stricter (fun _ => bind (refl _) (fun _ => bind (refl _) (fun _ =>
    bind (decodeBlock_stricter _ _ _) (fun _ => bind (decodeEntries_stricter _ _ _) (fun _ => refl _))))))

theorem decodeUnsubAckV3_stricter : (decodeUnsubAckV3 .debug).Stricter (decodeUnsubAckV3 .release) := by
  rw [decodeUnsubAckV3, decodeUnsubAckV3]
  exact bind (refl _) (fun _ => bind decodeVbi_stricter (fun _ => refl _))

theorem decodeDisconnect_stricter : (decodeDisconnect .debug).Stricter (decodeDisconnect .release) := by
  rw [decodeDisconnect, decodeDisconnect]
  exact bind (refl _) (fun _ => ite (refl _) (bind decodeVbi_stricter (fun _ => bind (refl _) (fun _ =>
    bind (decodeIf_stricter _ (decodeBlock_stricter _ _ _)) (fun _ => refl _)))))

theorem decodeAuth_stricter : (decodeAuth .debug).Stricter (decodeAuth .release) := by
  rw [decodeAuth, decodeAuth]
  exact bind (refl _) (fun _ => ite (refl _) (bind decodeVbi_stricter (fun _ => bind (refl _) (fun _ =>
    bind (decodeBlock_stricter _ _ _) (fun _ => refl _)))))

theorem parseWithVersion_stricter (v : ProtocolVersion) :
    (parseWithVersion .debug v).Stricter (parseWithVersion .release v) := by
  refine ⟨fun b => ?_⟩
  cases b with
  | nil => exact .inl rfl
  | cons c t =>
    have out : ∀ {α : Type} {d e : Dec α} {C : α → Packet}, d.Stricter e →
        Stricter ((do let p ← d; return C p : Dec Packet) (c :: t)) ((do let p ← e; return C p : Dec Packet) (c :: t)) :=
      fun h => (bind h (fun _ => refl _)).at' _
    simp only [parseWithVersion]
    obtain ⟨k, hk⟩ : ∃ k, (c >>> 4).toNat = k := ⟨_, rfl⟩
    rw [hk]
    have hk16 : k < 16 := by
      have h : ∀ c : UInt8, (c >>> 4).toNat < 16 := by refine u8_forall ?_; decide +kernel
      rw [← hk]; exact h c
    have hcases : k = 0 ∨ k = 1 ∨ k = 2 ∨ k = 3 ∨ k = 4 ∨ k = 5 ∨ k = 6 ∨ k = 7 ∨ k = 8 ∨ k = 9 ∨ k = 10 ∨
        k = 11 ∨ k = 12 ∨ k = 13 ∨ k = 14 ∨ k = 15 := by omega
    rcases hcases with h | h | h | h | h | h | h | h | h | h | h | h | h | h | h | h <;> subst h <;> simp only
    · exact .inl rfl
    · exact out decodeConnect_stricter
    · cases v.supportsProperties
      · exact out decodeConnAckV3_stricter
      · exact out decodeConnAck_stricter
    · exact out decodePublish_stricter
    · exact out decodeAck_stricter
    · exact out decodeAck_stricter
    · exact out decodeAck_stricter
    · exact out decodeAck_stricter
    · exact out decodeSubscribe_stricter
    · cases v.supportsProperties
      · exact out decodeSubAckV3_stricter
      · exact out decodeSubAck_stricter
    · exact out decodeUnsubscribe_stricter
    · cases v.supportsProperties
      · exact out decodeUnsubAckV3_stricter
      · exact out decodeUnsubAck_stricter
    · exact .inl rfl
    · exact .inl rfl
    · exact out decodeDisconnect_stricter
    · exact out decodeAuth_stricter

theorem check_stricter (b : Buf) : Stricter (check .debug b) (check .release b) := by
  unfold check
  split
  · exact .inl rfl
  · rcases decodeVbi_stricter.at' (b.drop 1) with h | h <;> rw [h]
    · cases decodeVbi .release (b.drop 1) with
      | err _ => exact .inl rfl
      | panic => exact .inl rfl
      | ok x =>
        simp only
        cases vbiSize x.1 with
        | err _ => exact .inl rfl
        | panic => exact .inl rfl
        | ok l =>
          simp only
          rcases usizeSub_stricter b.length (l + 1) with h | h <;> rw [h]
          · exact .inl rfl
          · exact .inr rfl
    · exact .inr rfl

end Mercurio
