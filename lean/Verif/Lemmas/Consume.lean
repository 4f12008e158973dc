import Verif.Lemmas.RoundTrip

/-! # What decoders consume, and when they cannot panic -/

namespace Mercurio

open Spec

theorem Dec.bind_inv {α β : Type} {d : Dec α} {f : α → Dec β} {b r : Buf} {a : β}
    (h : (d >>= f) b = .ok (a, r)) : ∃ x b', d b = .ok (x, b') ∧ f x b' = .ok (a, r) := by
  rw [Dec.bind_apply] at h
  cases hb : d b with
  | err e => rw [hb] at h; cases h
  | panic => rw [hb] at h; cases h
  | ok x => rw [hb] at h; exact ⟨x.1, x.2, rfl, h⟩

/-! ## Decoders read a prefix of the buffer -/

/-- A successful run reads at least `k` bytes from the front and leaves the others. -/
structure Dec.Reads {α : Type} (d : Dec α) (k : Nat) : Prop where
  h : ∀ b a r, d b = .ok (a, r) → ∃ u, b = u ++ r ∧ k ≤ u.length

theorem Dec.Reads.mono {α : Type} {d : Dec α} {k k' : Nat} (hd : d.Reads k) (hk : k' ≤ k) :
    d.Reads k' :=
  ⟨fun b a r h => let ⟨u, hu, hl⟩ := hd.h b a r h; ⟨u, hu, by omega⟩⟩

theorem Dec.Reads.bind {α β : Type} {d : Dec α} {f : α → Dec β} {k l : Nat} (hd : d.Reads k)
    (hf : ∀ a, (f a).Reads l) : (d >>= f).Reads (k + l) := by
  refine ⟨fun b a r h => ?_⟩
  obtain ⟨a', b', hb, h'⟩ := Dec.bind_inv h
  obtain ⟨u, rfl, hu⟩ := hd.h _ _ _ hb
  obtain ⟨u', rfl, hu'⟩ := (hf a').h _ _ _ h'
  exact ⟨u ++ u', by simp, by simp; omega⟩

theorem Dec.Reads.bind0 {α β : Type} {d : Dec α} {f : α → Dec β} (hd : d.Reads 0)
    (hf : ∀ a, (f a).Reads 0) : (d >>= f).Reads 0 := Dec.Reads.bind hd hf

theorem Dec.Reads.pure {α : Type} (a : α) : (Pure.pure a : Dec α).Reads 0 :=
  ⟨fun b a r h => by cases h; exact ⟨[], rfl, by simp⟩⟩

theorem Dec.Reads.fail {α : Type} (e : Err) (k : Nat) : (Dec.fail e : Dec α).Reads k :=
  ⟨fun b a r h => by cases h⟩

theorem Dec.Reads.ite {α : Type} {c : Prop} [Decidable c] {x y : Dec α} {k : Nat} (hx : x.Reads k)
    (hy : y.Reads k) : (if c then x else y : Dec α).Reads k := by split <;> assumption

theorem getU8_reads : getU8.Reads 1 :=
  ⟨fun b a r h => by cases b <;> cases h; exact ⟨[_], rfl, by simp⟩⟩

theorem advance1_reads : advance1.Reads 1 :=
  ⟨fun b a r h => by cases b <;> cases h; exact ⟨[_], rfl, by simp⟩⟩

theorem decodeU8_reads : decodeU8.Reads 1 :=
  ⟨fun b a r h => by cases b <;> cases h; exact ⟨[_], rfl, by simp⟩⟩

theorem decodeBool_reads : decodeBool.Reads 1 :=
  ⟨fun b a r h => by cases b <;> cases h; exact ⟨[_], rfl, by simp⟩⟩

theorem decodeU16_reads : decodeU16.Reads 2 := by
  refine ⟨fun b a r h => ?_⟩
  rcases b with _ | ⟨b0, _ | ⟨b1, b⟩⟩ <;> cases h
  exact ⟨[_, _], rfl, by simp⟩

theorem decodeU32_reads : decodeU32.Reads 4 := by
  refine ⟨fun b a r h => ?_⟩
  rcases b with _ | ⟨b0, _ | ⟨b1, _ | ⟨b2, _ | ⟨b3, b⟩⟩⟩⟩ <;> cases h
  exact ⟨[_, _, _, _], rfl, by simp⟩

/-- A successfully read binary field: the field and the two length bytes. -/
theorem decodeBin_used {b a r : Buf} (h : decodeBin b = .ok (a, r)) :
    ∃ u, b = u ++ r ∧ u.length = a.length + 2 := by
  rcases b with _ | ⟨b0, _ | ⟨b1, b⟩⟩
  · cases h
  · cases h
  · simp only [decodeBin] at h
    split at h
    · cases h
    · rename_i hl
      injection h with h
      injection h with h1 h2
      subst h1 h2
      refine ⟨b0 :: b1 :: b.take (b0.toNat * 256 + b1.toNat), by simp, by simp⟩

theorem decodeStr_used {b a r : Buf} (h : decodeStr b = .ok (a, r)) :
    ∃ u, b = u ++ r ∧ u.length = a.length + 2 := by
  rcases b with _ | ⟨b0, _ | ⟨b1, b⟩⟩
  · cases h
  · cases h
  · simp only [decodeStr] at h
    split at h
    · cases h
    · split at h
      · injection h with h
        injection h with h1 h2
        subst h1 h2
        refine ⟨b0 :: b1 :: b.take (b0.toNat * 256 + b1.toNat), by simp, by simp⟩
      · cases h

theorem decodeBin_reads : decodeBin.Reads 2 :=
  ⟨fun _ _ _ h => let ⟨u, hu, hl⟩ := decodeBin_used h; ⟨u, hu, by omega⟩⟩

theorem decodeStr_reads : decodeStr.Reads 2 :=
  ⟨fun _ _ _ h => let ⟨u, hu, hl⟩ := decodeStr_used h; ⟨u, hu, by omega⟩⟩

theorem decodeVbi_reads (m : Mode) : (decodeVbi m).Reads 1 :=
  ⟨fun _ _ _ h => let ⟨u, hu, hl, _⟩ := decodeVbi_ok h; ⟨u, hu, hl⟩⟩

theorem decodeReason_reads : decodeReason.Reads 1 := by
  rw [decodeReason]
  refine Dec.Reads.bind (l := 0) getU8_reads (fun b => ?_)
  cases ReasonCode.ofCode b
  · exact Dec.Reads.fail _ _
  · exact Dec.Reads.pure _

/-! ## Properties -/

/-- A successfully read property took at least as many bytes as it would be written to. -/
theorem decodeProperty_ok {m : Mode} {b r : Buf} {p : Property} (h : decodeProperty m b = .ok (p, r)) :
    ∃ u, b = u ++ r ∧ p.size ≤ u.length ∧ p.sizePanics = false ∧ p.NotRRI := by
  rw [decodeProperty] at h
  obtain ⟨id, b', hb, h'⟩ := Dec.bind_inv h
  clear h
  rename _ => h
  obtain ⟨u, rfl, hu, -⟩ := decodeVbi_ok hb
  suffices H : ∃ u', b' = u' ++ r ∧ p.valueSize ≤ u'.length ∧ p.sizePanics = false ∧ p.NotRRI by
    obtain ⟨u', rfl, hu', hp⟩ := H
    refine ⟨u ++ u', by simp, ?_, hp⟩
    have : Property.vbiLen p.id = 1 := by cases p <;> rfl
    rw [Property.size, this, List.length_append]
    omega
  have simple : ∀ {α : Type} {d : Dec α} {C : α → Property} {k : Nat}, d.Reads k →
      (do let v ← d; return C v : Dec Property) b' = .ok (p, r) →
      (∀ v, (C v).valueSize = k ∧ (C v).sizePanics = false ∧ (C v).NotRRI) →
      ∃ u', b' = u' ++ r ∧ p.valueSize ≤ u'.length ∧ p.sizePanics = false ∧ p.NotRRI := by
    intro α d C k hd h hC
    obtain ⟨v, b'', hv, h⟩ := Dec.bind_inv h
    cases h
    obtain ⟨u', hu', hl⟩ := hd.h _ _ _ hv
    obtain ⟨h1, h2⟩ := hC v
    exact ⟨u', hu', by omega, h2⟩
  have field : ∀ {d : Dec Buf} {C : Buf → Property},
      (∀ {b a r : Buf}, d b = .ok (a, r) → ∃ u, b = u ++ r ∧ u.length = a.length + 2) →
      (do let v ← d; return C v : Dec Property) b' = .ok (p, r) →
      (∀ v, (C v).valueSize = binSize v ∧ (C v).sizePanics = false ∧ (C v).NotRRI) →
      ∃ u', b' = u' ++ r ∧ p.valueSize ≤ u'.length ∧ p.sizePanics = false ∧ p.NotRRI := by
    intro d C hd h hC
    obtain ⟨v, b'', hv, h⟩ := Dec.bind_inv h
    cases h
    obtain ⟨u', hu', hl⟩ := hd hv
    obtain ⟨h1, h2⟩ := hC v
    exact ⟨u', hu', by rw [h1, binSize]; omega, h2⟩
  unfold decodeWithId at h
  split at h
  all_goals first
    | exact simple decodeU8_reads h (fun v => ⟨rfl, rfl, trivial⟩)
    | exact simple decodeBool_reads h (fun v => ⟨rfl, rfl, trivial⟩)
    | exact simple decodeU16_reads h (fun v => ⟨rfl, rfl, trivial⟩)
    | exact simple decodeU32_reads h (fun v => ⟨rfl, rfl, trivial⟩)
    | exact field decodeStr_used h (fun v => ⟨rfl, rfl, trivial⟩)
    | exact field decodeBin_used h (fun v => ⟨rfl, rfl, trivial⟩)
    | (cases h; done)
    | skip
  · -- subscription identifier
    obtain ⟨v, b'', hv, h⟩ := Dec.bind_inv h
    cases h
    rw [decodeVbi32] at hv
    obtain ⟨n, b3, hn, h⟩ := Dec.bind_inv hv
    cases h
    obtain ⟨u', rfl, h1, h2, h3⟩ := decodeVbi_ok hn
    have hlt := decodeVbi_lt hn
    have hn : (UInt32.ofNat n).toNat = n := by simp; omega
    refine ⟨u', rfl, ?_, ?_, trivial⟩
    · simp only [Property.valueSize, hn]
      rw [vbiLen_eq hlt]
      exact encodeVbi_minimal hlt h1 h3
    · simp only [Property.sizePanics, hn]
      simp; omega
  · -- user property
    obtain ⟨k, b'', hk, h⟩ := Dec.bind_inv h
    obtain ⟨v, b3, hv, h⟩ := Dec.bind_inv h
    cases h
    obtain ⟨u1, rfl, h1⟩ := decodeStr_used hk
    obtain ⟨u2, rfl, h2⟩ := decodeStr_used hv
    refine ⟨u1 ++ u2, by simp, ?_, rfl, trivial⟩
    simp only [Property.valueSize, binSize, List.length_append]
    omega

theorem decodeProperty_reads (m : Mode) : (decodeProperty m).Reads 2 := by
  refine ⟨fun b p r h => ?_⟩
  obtain ⟨u, hu, hl, -⟩ := decodeProperty_ok h
  refine ⟨u, hu, Nat.le_trans ?_ hl⟩
  have h1 : Property.vbiLen p.id = 1 := by cases p <;> rfl
  have h2 : 1 ≤ p.valueSize := by
    cases p <;> simp only [Property.valueSize, binSize] <;> try omega
    simp only [Property.vbiLen]; repeat' split
    all_goals omega
  rw [Property.size]; omega

/-! ## Property blocks -/

/-- Reading properties adds at most as many bytes of properties as were read. -/
theorem propLoop_ok {P : Type} {m : Mode} {set : P → Property → Option P} (size : P → Nat)
    (good : P → Prop)
    (hset : ∀ p q p', set p q = some p' → q.sizePanics = false → good p →
      size p' ≤ size p + q.size ∧ good p') :
    ∀ fuel p b p', propLoop m set fuel p b = .ok p' → good p → size p' ≤ size p + b.length ∧ good p' := by
  intro fuel
  induction fuel with
  | zero => intro p b p' h hg; cases b <;> simp only [propLoop] at h <;> cases h; exact ⟨by simp, hg⟩
  | succ fuel ih =>
    intro p b p' h hg
    cases b with
    | nil => simp only [propLoop] at h; cases h; exact ⟨by simp, hg⟩
    | cons c b =>
      simp only [propLoop] at h
      split at h
      · cases h
      · cases h
      · rename_i prop rest hp
        obtain ⟨u, hu, hl, hs, -⟩ := decodeProperty_ok hp
        split at h
        · cases h
        · rename_i p1 h1
          obtain ⟨h2, h3⟩ := hset _ _ _ h1 hs hg
          obtain ⟨h4, h5⟩ := ih _ _ _ h h3
          refine ⟨?_, h5⟩
          rw [hu, List.length_append]
          omega

theorem decodeBlock_inv {P : Type} {m : Mode} {short : Err} {dflt : P}
    {set : P → Property → Option P} {b r : Buf} {p : P}
    (h : decodeBlock m short dflt set b = .ok (p, r)) :
    ∃ len c, decodeVbi m b = .ok (len, c) ∧ len ≤ c.length ∧ r = c.drop len ∧
      propLoop m set len dflt (c.take len) = .ok p := by
  rw [decodeBlock] at h
  obtain ⟨len, c, hv, h'⟩ := Dec.bind_inv h
  refine ⟨len, c, hv, ?_⟩
  split at h'
  · rename_i h0
    cases h'
    subst h0
    exact ⟨by simp, by simp, by simp [propLoop]⟩
  · simp only [Dec.of_apply] at h'
    split at h'
    · cases h'
    · rename_i hlen
      have hle : len ≤ c.length := Nat.le_trans (by omega) (Nat.mod_le c.length (2 ^ 32))
      split at h'
      · cases h'
      · cases h'
      · rename_i q hq
        cases h'
        rw [List.length_take, Nat.min_eq_left hle] at hq
        exact ⟨hle, rfl, hq⟩

theorem decodeBlock_reads {P : Type} (m : Mode) (short : Err) (dflt : P)
    (set : P → Property → Option P) : (decodeBlock m short dflt set).Reads 1 := by
  refine ⟨fun b p r h => ?_⟩
  obtain ⟨len, c, hv, hle, rfl, -⟩ := decodeBlock_inv h
  obtain ⟨u, rfl, hu, -⟩ := decodeVbi_ok hv
  exact ⟨u ++ c.take len, by simp, by simp; omega⟩

/-! ## Packets -/

theorem remaining_reads : remaining.Reads 0 := ⟨fun b a r h => by cases h; exact ⟨[], rfl, by simp⟩⟩

theorem liftRes_reads {α : Type} (x : Res α) : (liftRes x).Reads 0 := by
  refine ⟨fun b a r h => ?_⟩
  cases x <;> cases h
  exact ⟨[], rfl, by simp⟩

theorem decodeIf_reads {α : Type} (c : Bool) {d : Dec α} (hd : d.Reads 0) : (decodeIf c d).Reads 0 := by
  cases c
  · exact Dec.Reads.pure _
  · exact Dec.Reads.bind0 hd (fun _ => Dec.Reads.pure _)

theorem payloadLoop_reads {α : Type} {d : Dec α} (hd : d.Reads 0) (next : Nat) :
    ∀ fuel b as r, payloadLoop d next fuel b = .ok (as, r) → ∃ u, b = u ++ r := by
  intro fuel
  induction fuel with
  | zero =>
    intro b as r h
    simp only [payloadLoop] at h
    split at h <;> cases h
    exact ⟨[], rfl⟩
  | succ fuel ih =>
    intro b as r h
    simp only [payloadLoop] at h
    split at h
    · split at h
      · cases h
      · cases h
      · rename_i a rest ha
        obtain ⟨u, rfl, -⟩ := hd.h _ _ _ ha
        split at h
        · cases h
        · cases h
        · rename_i as' rest' has
          cases h
          obtain ⟨u', rfl⟩ := ih _ _ _ has
          exact ⟨u ++ u', by simp⟩
    · cases h; exact ⟨[], rfl⟩

theorem payloadList_reads {α : Type} {d : Dec α} (hd : d.Reads 0) (next : Nat) :
    (payloadList d next).Reads 0 :=
  ⟨fun b as r h => let ⟨u, hu⟩ := payloadLoop_reads hd next _ b as r h; ⟨u, hu, by simp⟩⟩

theorem decodeEntries_reads {α : Type} (m : Mode) (a b : Nat) {d : Dec α} (hd : d.Reads 0) :
    (decodeEntries m a b d).Reads 0 := by
  rw [decodeEntries]
  refine Dec.Reads.bind0 remaining_reads (fun r => ?_)
  refine Dec.Reads.ite (Dec.Reads.fail _ _) ?_
  exact Dec.Reads.bind0 (liftRes_reads _) (fun _ => payloadList_reads hd _)

theorem decodeConnectFlags_reads : decodeConnectFlags.Reads 0 := by
  rw [decodeConnectFlags]
  refine Dec.Reads.bind0 (decodeU8_reads.mono (by omega)) (fun b => ?_)
  cases ConnectFlags.ofByte b
  · exact Dec.Reads.fail _ _
  · exact Dec.Reads.pure _

theorem decodeConnAckFlags_reads : decodeConnAckFlags.Reads 0 := by
  rw [decodeConnAckFlags]
  refine Dec.Reads.bind0 (getU8_reads.mono (by omega)) (fun b => ?_)
  exact Dec.Reads.ite (Dec.Reads.fail _ _) (Dec.Reads.pure _)

theorem decodePublishId_reads (q : QoS) : (decodePublishId q).Reads 0 := by
  cases q
  · exact Dec.Reads.pure _
  · exact Dec.Reads.bind0 (decodeU16_reads.mono (by omega)) (fun _ => Dec.Reads.pure _)
  · exact Dec.Reads.bind0 (decodeU16_reads.mono (by omega)) (fun _ => Dec.Reads.pure _)
  · exact Dec.Reads.fail _ _

theorem decodeSubscribePayload_reads : decodeSubscribePayload.Reads 3 := by
  rw [decodeSubscribePayload]
  refine Dec.Reads.bind (l := 1) decodeStr_reads (fun _ => ?_)
  refine Dec.Reads.bind (l := 0) getU8_reads (fun b => ?_)
  cases SubscriptionOptions.ofByte b
  · exact Dec.Reads.fail _ _
  · exact Dec.Reads.pure _

theorem publishTail_reads (n : Nat) (f : Buf → PublishPacket) :
    (Dec.of fun buf => if buf.length < n then .err (.mqtt .malformedPacket)
      else .ok (f buf, buf.drop n) : Dec PublishPacket).Reads 0 := by
  refine ⟨fun b a r h => ?_⟩
  simp only [Dec.of_apply] at h
  split at h
  · cases h
  · cases h; exact ⟨b.take n, by simp, by simp⟩

/-- A parsed packet takes at least one byte, from the front; the rest is left as it is. -/
theorem parseWithVersion_reads (m : Mode) (v : ProtocolVersion) : (parseWithVersion m v).Reads 1 := by
  refine ⟨fun b p r h => ?_⟩
  cases b with
  | nil => cases h
  | cons c b =>
    have step : ∀ {α : Type} {f : α → Dec Packet} {d : Dec α}, d.Reads 1 → (∀ a, (f a).Reads 0) →
        (d >>= f) (c :: b) = .ok (p, r) → ∃ u, c :: b = u ++ r ∧ 1 ≤ u.length :=
      fun hd hf h => (Dec.Reads.bind hd hf).h _ _ _ h
    have hpure : ∀ {α : Type} (C : α → Packet) a, (Pure.pure (C a) : Dec Packet).Reads 0 :=
      fun C a => Dec.Reads.pure _
    have conn : (decodeConnect m).Reads 1 := by
      rw [decodeConnect]
      refine Dec.Reads.bind (l := 0) advance1_reads (fun _ => ?_)
      refine Dec.Reads.bind0 ((decodeVbi_reads m).mono (by omega)) (fun _ => ?_)
      refine Dec.Reads.bind0 (decodeStr_reads.mono (by omega)) (fun name => ?_)
      refine Dec.Reads.bind0 (decodeU8_reads.mono (by omega)) (fun level => ?_)
      cases ProtocolVersion.fromNameAndLevel name level with
      | none => exact Dec.Reads.fail _ _
      | some v =>
        refine Dec.Reads.bind0 decodeConnectFlags_reads (fun _ => ?_)
        refine Dec.Reads.bind0 (decodeU16_reads.mono (by omega)) (fun _ => ?_)
        refine Dec.Reads.bind0 (decodeIf_reads _ ((decodeBlock_reads _ _ _ _).mono (by omega)))
          (fun _ => ?_)
        refine Dec.Reads.bind0 (decodeStr_reads.mono (by omega)) (fun name => ?_)
        refine Dec.Reads.bind0 (decodeIf_reads _ ((decodeBlock_reads _ _ _ _).mono (by omega)))
          (fun _ => ?_)
        refine Dec.Reads.bind0 (decodeIf_reads _ (decodeStr_reads.mono (by omega))) (fun _ => ?_)
        refine Dec.Reads.bind0 (decodeIf_reads _ (decodeBin_reads.mono (by omega))) (fun _ => ?_)
        refine Dec.Reads.bind0 (decodeIf_reads _ (decodeStr_reads.mono (by omega))) (fun _ => ?_)
        refine Dec.Reads.bind0 (decodeIf_reads _ (decodeBin_reads.mono (by omega))) (fun _ => ?_)
        exact Dec.Reads.pure _
    have connack : (decodeConnAck m).Reads 1 := by
      rw [decodeConnAck]
      refine Dec.Reads.bind (l := 0) advance1_reads (fun _ => ?_)
      refine Dec.Reads.bind0 ((decodeVbi_reads m).mono (by omega)) (fun _ => ?_)
      refine Dec.Reads.bind0 decodeConnAckFlags_reads (fun _ => ?_)
      refine Dec.Reads.bind0 (decodeReason_reads.mono (by omega)) (fun _ => ?_)
      refine Dec.Reads.bind0 ((decodeBlock_reads _ _ _ _).mono (by omega)) (fun _ => ?_)
      exact Dec.Reads.pure _
    have connack3 : (decodeConnAckV3 m).Reads 1 := by
      rw [decodeConnAckV3]
      refine Dec.Reads.bind (l := 0) advance1_reads (fun _ => ?_)
      refine Dec.Reads.bind0 ((decodeVbi_reads m).mono (by omega)) (fun _ => ?_)
      refine Dec.Reads.bind0 decodeConnAckFlags_reads (fun _ => ?_)
      refine Dec.Reads.bind0 (getU8_reads.mono (by omega)) (fun _ => ?_)
      exact Dec.Reads.pure _
    have publish : (decodePublish m).Reads 1 := by
      rw [decodePublish_def]
      refine Dec.Reads.bind (l := 0) getU8_reads (fun _ => ?_)
      refine Dec.Reads.bind0 ((decodeVbi_reads m).mono (by omega)) (fun _ => ?_)
      refine Dec.Reads.bind0 (decodeStr_reads.mono (by omega)) (fun _ => ?_)
      refine Dec.Reads.bind0 (decodePublishId_reads _) (fun _ => ?_)
      refine Dec.Reads.bind0 ((decodeBlock_reads _ _ _ _).mono (by omega)) (fun _ => ?_)
      refine Dec.Reads.bind0 (liftRes_reads _) (fun _ => ?_)
      refine Dec.Reads.bind0 (liftRes_reads _) (fun _ => ?_)
      exact publishTail_reads _ _
    have ack : (decodeAck m).Reads 1 := by
      rw [decodeAck]
      refine Dec.Reads.bind (l := 0) advance1_reads (fun _ => ?_)
      refine Dec.Reads.bind0 ((decodeVbi_reads m).mono (by omega)) (fun _ => ?_)
      refine Dec.Reads.bind0 (decodeU16_reads.mono (by omega)) (fun _ => ?_)
      refine Dec.Reads.ite (Dec.Reads.pure _) ?_
      refine Dec.Reads.bind0 (decodeReason_reads.mono (by omega)) (fun _ => ?_)
      refine Dec.Reads.bind0 ((decodeBlock_reads _ _ _ _).mono (by omega)) (fun _ => ?_)
      exact Dec.Reads.pure _
    have entries : ∀ {α β γ : Type} {dp : Dec β} {d : Dec α} (g : UInt16 → β → List α → γ),
        dp.Reads 1 → d.Reads 0 →
        (do advance1
            let n ← decodeVbi m
            let k ← remaining
            let i ← decodeU16
            let ps ← dp
            let l ← decodeEntries m k n d
            return g i ps l : Dec γ).Reads 1 := by
      intro α β γ dp d g hp hd
      refine Dec.Reads.bind (l := 0) advance1_reads (fun _ => ?_)
      refine Dec.Reads.bind0 ((decodeVbi_reads m).mono (by omega)) (fun _ => ?_)
      refine Dec.Reads.bind0 remaining_reads (fun _ => ?_)
      refine Dec.Reads.bind0 (decodeU16_reads.mono (by omega)) (fun _ => ?_)
      refine Dec.Reads.bind0 (hp.mono (by omega)) (fun _ => ?_)
      refine Dec.Reads.bind0 (decodeEntries_reads m _ _ hd) (fun _ => ?_)
      exact Dec.Reads.pure _
    have suback3 : (decodeSubAckV3 m).Reads 1 := by
      rw [decodeSubAckV3]
      refine Dec.Reads.bind (l := 0) advance1_reads (fun _ => ?_)
      refine Dec.Reads.bind0 ((decodeVbi_reads m).mono (by omega)) (fun _ => ?_)
      refine Dec.Reads.bind0 remaining_reads (fun _ => ?_)
      refine Dec.Reads.bind0 (decodeU16_reads.mono (by omega)) (fun _ => ?_)
      refine Dec.Reads.bind0 (liftRes_reads _) (fun _ => ?_)
      refine Dec.Reads.bind0 (payloadList_reads ?_ _) (fun _ => Dec.Reads.pure _)
      exact Dec.Reads.bind0 (getU8_reads.mono (by omega)) (fun _ => Dec.Reads.pure _)
    have unsuback3 : (decodeUnsubAckV3 m).Reads 1 := by
      rw [decodeUnsubAckV3]
      refine Dec.Reads.bind (l := 0) advance1_reads (fun _ => ?_)
      refine Dec.Reads.bind0 ((decodeVbi_reads m).mono (by omega)) (fun _ => ?_)
      refine Dec.Reads.bind0 (decodeU16_reads.mono (by omega)) (fun _ => ?_)
      exact Dec.Reads.pure _
    have disc : (decodeDisconnect m).Reads 1 := by
      rw [decodeDisconnect]
      refine Dec.Reads.bind (l := 0) getU8_reads (fun _ => ?_)
      refine Dec.Reads.ite (Dec.Reads.fail _ _) ?_
      refine Dec.Reads.bind0 ((decodeVbi_reads m).mono (by omega)) (fun _ => ?_)
      refine Dec.Reads.bind0 (Dec.Reads.ite (Dec.Reads.pure _) (decodeReason_reads.mono (by omega)))
        (fun _ => ?_)
      refine Dec.Reads.bind0 (decodeIf_reads _ ((decodeBlock_reads _ _ _ _).mono (by omega)))
        (fun _ => Dec.Reads.pure _)
    have auth : (decodeAuth m).Reads 1 := by
      rw [decodeAuth]
      refine Dec.Reads.bind (l := 0) getU8_reads (fun _ => ?_)
      refine Dec.Reads.ite (Dec.Reads.fail _ _) ?_
      refine Dec.Reads.bind0 ((decodeVbi_reads m).mono (by omega)) (fun _ => ?_)
      refine Dec.Reads.bind0 (decodeReason_reads.mono (by omega)) (fun _ => ?_)
      refine Dec.Reads.bind0 ((decodeBlock_reads _ _ _ _).mono (by omega)) (fun _ => ?_)
      exact Dec.Reads.pure _
    have hsub : (decodeSubscribe m).Reads 1 :=
      entries _ (decodeBlock_reads _ _ _ _) (decodeSubscribePayload_reads.mono (by omega))
    have hsuback : (decodeSubAck m).Reads 1 :=
      entries _ (decodeBlock_reads _ _ _ _) (decodeReason_reads.mono (by omega))
    have hunsub : (decodeUnsubscribe m).Reads 1 :=
      entries _ (decodeBlock_reads _ _ _ _) (decodeStr_reads.mono (by omega))
    have hunsuback : (decodeUnsubAck m).Reads 1 :=
      entries _ (decodeBlock_reads _ _ _ _) (decodeReason_reads.mono (by omega))
    simp only [parseWithVersion] at h
    generalize (c >>> 4).toNat = n at h
    match n, h with
    | 0, h => cases h
    | 1, h => exact step conn (hpure _) h
    | 2, h =>
      cases v
      · exact step connack3 (hpure _) h
      · exact step connack3 (hpure _) h
      · exact step connack (hpure _) h
    | 3, h => exact step publish (hpure _) h
    | 4, h => exact step ack (hpure _) h
    | 5, h => exact step ack (hpure _) h
    | 6, h => exact step ack (hpure _) h
    | 7, h => exact step ack (hpure _) h
    | 8, h => exact step hsub (hpure _) h
    | 9, h =>
      cases v
      · exact step suback3 (hpure _) h
      · exact step suback3 (hpure _) h
      · exact step hsuback (hpure _) h
    | 10, h => exact step hunsub (hpure _) h
    | 11, h =>
      cases v
      · exact step unsuback3 (hpure _) h
      · exact step unsuback3 (hpure _) h
      · exact step hunsuback (hpure _) h
    | 12, h => exact step advance1_reads (fun _ => Dec.Reads.pure _) h
    | 13, h => exact step advance1_reads (fun _ => Dec.Reads.pure _) h
    | 14, h => exact step disc (hpure _) h
    | 15, h => exact step auth (hpure _) h
    | n + 16, h => cases h

end Mercurio
