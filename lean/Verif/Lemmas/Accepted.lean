import Verif.Lemmas.Consume
import Verif.Spec.Accepted

/-! # What decoders can return -/

namespace Mercurio

open Spec

/-- Every value the decoder returns has the property. -/
structure Dec.Gives {α : Type} (d : Dec α) (P : α → Prop) : Prop where
  h : ∀ b a r, d b = .ok (a, r) → P a

theorem Dec.Gives.bind {α β : Type} {d : Dec α} {f : α → Dec β} {P : α → Prop} {Q : β → Prop}
    (hd : d.Gives P) (hf : ∀ a, P a → (f a).Gives Q) : (d >>= f).Gives Q := by
  refine ⟨fun b a r h => ?_⟩
  obtain ⟨x, b', h1, h2⟩ := Dec.bind_inv h
  exact (hf x (hd.h _ _ _ h1)).h _ _ _ h2

theorem Dec.Gives.any {α : Type} (d : Dec α) : d.Gives (fun _ => True) := ⟨fun _ _ _ _ => trivial⟩

theorem Dec.Gives.skip {α β : Type} {d : Dec α} {f : α → Dec β} {Q : β → Prop}
    (hf : ∀ a, (f a).Gives Q) : (d >>= f).Gives Q := (Dec.Gives.any d).bind fun a _ => hf a

theorem Dec.Gives.pure {α : Type} {P : α → Prop} {a : α} (h : P a) : (Pure.pure a : Dec α).Gives P :=
  ⟨fun b a r h' => by cases h'; exact h⟩

theorem Dec.Gives.fail {α : Type} (e : Err) (P : α → Prop) : (Dec.fail e : Dec α).Gives P :=
  ⟨fun b a r h => by cases h⟩

theorem Dec.Gives.ite {α : Type} {c : Prop} [Decidable c] {x y : Dec α} {P : α → Prop}
    (hx : x.Gives P) (hy : y.Gives P) : (if c then x else y : Dec α).Gives P := by split <;> assumption

theorem decodeBin_gives : decodeBin.Gives BinaryField := by
  refine ⟨fun b a r h => ?_⟩
  rcases b with _ | ⟨b0, _ | ⟨b1, b⟩⟩
  · cases h
  · cases h
  · simp only [decodeBin] at h
    split at h
    · cases h
    · cases h
      have h0 := b0.toNat_lt
      have h1 := b1.toNat_lt
      rw [BinaryField, List.length_take]; omega

theorem decodeStr_gives : decodeStr.Gives TextField := by
  refine ⟨fun b a r h => ?_⟩
  rcases b with _ | ⟨b0, _ | ⟨b1, b⟩⟩
  · cases h
  · cases h
  · simp only [decodeStr] at h
    split at h
    · cases h
    · split at h
      · rename_i hv
        cases h
        have h0 := b0.toNat_lt
        have h1 := b1.toNat_lt
        refine ⟨(utf8Valid_iff _).mp hv, ?_⟩
        rw [List.length_take]; omega
      · cases h

theorem decodeProperty_gives (m : Mode) :
    (decodeProperty m).Gives (fun p => p.Admissible ∧ p.NotRRI) := by
  refine ⟨fun b p r h => ?_⟩
  obtain ⟨_, _, _, hs, hn⟩ := decodeProperty_ok h
  refine ⟨?_, hn⟩
  have key : (decodeProperty m).Gives (fun p => p.sizePanics = false → p.Admissible) := by
    rw [decodeProperty]
    refine Dec.Gives.skip fun id => ?_
    unfold decodeWithId
    split
    all_goals first
      | exact Dec.Gives.fail _ _
      | exact decodeStr_gives.bind fun a ha => Dec.Gives.pure fun _ => ha
      | exact decodeBin_gives.bind fun a ha => Dec.Gives.pure fun _ => ha
      | exact decodeStr_gives.bind fun a ha => decodeStr_gives.bind fun b hb =>
          Dec.Gives.pure fun _ => ⟨ha, hb⟩
      | exact Dec.Gives.skip fun a => Dec.Gives.pure fun _ => trivial
      | refine Dec.Gives.skip fun a => Dec.Gives.pure fun h => ?_
        simp only [Property.sizePanics, decide_eq_false_iff_not] at h
        simp only [Property.Admissible]; omega
  exact key.h _ _ _ h hs

theorem propLoop_gives {P : Type} {m : Mode} {set : P → Property → Option P} {good : P → Prop}
    (hset : ∀ p q p', set p q = some p' → q.Admissible → q.NotRRI → good p → good p') :
    ∀ fuel p b p', propLoop m set fuel p b = .ok p' → good p → good p' := by
  intro fuel
  induction fuel with
  | zero => intro p b p' h hg; cases b <;> simp only [propLoop] at h <;> cases h; exact hg
  | succ fuel ih =>
    intro p b p' h hg
    cases b with
    | nil => simp only [propLoop] at h; cases h; exact hg
    | cons c b =>
      simp only [propLoop] at h
      split at h
      · cases h
      · cases h
      · rename_i prop rest hp
        obtain ⟨h1, h2⟩ := (decodeProperty_gives m).h _ _ _ hp
        split at h
        · cases h
        · rename_i p1 h3
          exact ih _ _ _ h (hset _ _ _ h3 h1 h2 hg)

theorem decodeBlock_gives {P : Type} {m : Mode} {short : Err} {dflt : P}
    {set : P → Property → Option P} {good : P → Prop}
    (hset : ∀ p q p', set p q = some p' → q.Admissible → q.NotRRI → good p → good p')
    (h0 : good dflt) : (decodeBlock m short dflt set).Gives good := by
  refine ⟨fun b p r h => ?_⟩
  obtain ⟨len, c, _, _, _, hl⟩ := decodeBlock_inv h
  exact propLoop_gives hset _ _ _ _ hl h0

/-! ## Property blocks -/

theorem optText_none : OptText none := fun _ h => by cases h
theorem optBinary_none : OptBinary none := fun _ h => by cases h
theorem userText_none : UserText none := fun _ h => by cases h
theorem optText_some {s : Str} (h : TextField s) : OptText (some s) := fun _ e => by cases e; exact h
theorem optBinary_some {s : Buf} (h : BinaryField s) : OptBinary (some s) := fun _ e => by cases e; exact h
theorem userText_add {o : Option (List (Str × Str))} {k v : Str} (h : UserText o)
    (hkv : TextField k ∧ TextField v) : UserText (some (o.getD [] ++ [(k, v)])) := by
  intro l e kv hm
  cases e
  rcases List.mem_append.mp hm with hm | hm
  · cases o with
    | none => cases hm
    | some l => exact h l rfl kv hm
  · simp only [List.mem_singleton] at hm; subst hm; exact hkv

theorem ConnectProperties.set_good (p : ConnectProperties) (q : Property) (p' : ConnectProperties)
    (h : p.set q = some p') (hq : q.Admissible) (_ : q.NotRRI)
    (hp : p.Admissible ∧ p.requestResponseInformation = none) :
    p'.Admissible ∧ p'.requestResponseInformation = none := by
  obtain ⟨⟨h1, h2, h3⟩, h4⟩ := hp
  cases q <;> simp only [ConnectProperties.set, Option.some.injEq, reduceCtorEq] at h <;> subst h <;>
    refine ⟨⟨?_, ?_, ?_⟩, ?_⟩ <;>
    first | assumption | exact optText_some hq | exact optBinary_some hq | exact userText_add h1 hq

theorem WillProperties.set_good (p : WillProperties) (q : Property) (p' : WillProperties)
    (h : p.set q = some p') (hq : q.Admissible) (_ : q.NotRRI) (hp : p.Admissible) : p'.Admissible := by
  obtain ⟨h1, h2, h3, h4⟩ := hp
  cases q <;> simp only [WillProperties.set, Option.some.injEq, reduceCtorEq] at h <;> subst h <;>
    refine ⟨?_, ?_, ?_, ?_⟩ <;>
    first | assumption | exact optText_some hq | exact optBinary_some hq | exact userText_add h4 hq

theorem ConnAckProperties.set_good (p : ConnAckProperties) (q : Property) (p' : ConnAckProperties)
    (h : p.set q = some p') (hq : q.Admissible) (_ : q.NotRRI) (hp : p.Admissible) : p'.Admissible := by
  obtain ⟨h1, h2, h3, h4, h5, h6, h7⟩ := hp
  cases q <;> simp only [ConnAckProperties.set, Option.some.injEq, reduceCtorEq] at h <;> subst h <;>
    refine ⟨?_, ?_, ?_, ?_, ?_, ?_, ?_⟩ <;>
    first | assumption | exact optText_some hq | exact optBinary_some hq | exact userText_add h3 hq

theorem PublishProperties.set_good (p : PublishProperties) (q : Property) (p' : PublishProperties)
    (h : p.set q = some p') (hq : q.Admissible) (_ : q.NotRRI) (hp : p.Admissible) : p'.Admissible := by
  obtain ⟨h1, h2, h3, h4, h5⟩ := hp
  cases q <;> simp only [PublishProperties.set, Option.some.injEq, reduceCtorEq] at h <;> subst h <;>
    refine ⟨?_, ?_, ?_, ?_, ?_⟩ <;>
    first
      | assumption | exact optText_some hq | exact optBinary_some hq | exact userText_add h3 hq
      | exact fun _ e => by cases e; exact hq

theorem AckProperties.set_good (p : AckProperties) (q : Property) (p' : AckProperties)
    (h : p.set q = some p') (hq : q.Admissible) (_ : q.NotRRI) (hp : p.Admissible) : p'.Admissible := by
  obtain ⟨h1, h2⟩ := hp
  cases q <;> simp only [AckProperties.set, Option.some.injEq, reduceCtorEq] at h <;> subst h <;>
    refine ⟨?_, ?_⟩ <;>
    first | assumption | exact optText_some hq | exact userText_add h2 hq

theorem SubscribeProperties.set_good (p : SubscribeProperties) (q : Property) (p' : SubscribeProperties)
    (h : p.set q = some p') (hq : q.Admissible) (_ : q.NotRRI) (hp : p.Admissible) : p'.Admissible := by
  obtain ⟨h1, h2⟩ := hp
  cases q <;> simp only [SubscribeProperties.set, Option.some.injEq, reduceCtorEq] at h <;> subst h <;>
    refine ⟨?_, ?_⟩ <;>
    first | assumption | exact userText_add h2 hq | exact fun _ e => by cases e; exact hq

theorem UnsubscribeProperties.set_good (p : UnsubscribeProperties) (q : Property)
    (p' : UnsubscribeProperties) (h : p.set q = some p') (hq : q.Admissible) (_ : q.NotRRI)
    (hp : p.Admissible) : p'.Admissible := by
  cases q <;> simp only [UnsubscribeProperties.set, Option.some.injEq, reduceCtorEq] at h <;> subst h
  exact userText_add hp hq

theorem DisconnectProperties.set_good (p : DisconnectProperties) (q : Property)
    (p' : DisconnectProperties) (h : p.set q = some p') (hq : q.Admissible) (_ : q.NotRRI)
    (hp : p.Admissible) : p'.Admissible := by
  obtain ⟨h1, h2, h3⟩ := hp
  cases q <;> simp only [DisconnectProperties.set, Option.some.injEq, reduceCtorEq] at h <;> subst h <;>
    refine ⟨?_, ?_, ?_⟩ <;>
    first | assumption | exact optText_some hq | exact userText_add h2 hq

theorem AuthProperties.set_good (p : AuthProperties) (q : Property) (p' : AuthProperties)
    (h : p.set q = some p') (hq : q.Admissible) (_ : q.NotRRI) (hp : p.Admissible) : p'.Admissible := by
  obtain ⟨h1, h2, h3, h4⟩ := hp
  cases q <;> simp only [AuthProperties.set, Option.some.injEq, reduceCtorEq] at h <;> subst h <;>
    refine ⟨?_, ?_, ?_, ?_⟩ <;>
    first | assumption | exact optText_some hq | exact optBinary_some hq | exact userText_add h4 hq

theorem decodeAckProperties_gives (m : Mode) : (decodeAckProperties m).Gives AckProperties.Admissible :=
  decodeBlock_gives AckProperties.set_good ⟨optText_none, userText_none⟩

/-! ## Packets -/

theorem decodeIf_gives {α : Type} (c : Bool) {d : Dec α} {P : α → Prop} (hd : d.Gives P) :
    (decodeIf c d).Gives (fun o => o.isSome = c ∧ ∀ a, o = some a → P a) := by
  unfold decodeIf
  split
  · rename_i hc
    exact hd.bind fun a ha => Dec.Gives.pure ⟨by simp [hc], fun _ e => by cases e; exact ha⟩
  · rename_i hc
    exact Dec.Gives.pure ⟨by simpa using hc, fun _ e => by cases e⟩

theorem decodeConnectFlags_gives : decodeConnectFlags.Gives
    (fun f => f.willQos ≠ .invalid ∧ (f.willFlag = false → f.willQos = .atMostOnce)) := by
  rw [decodeConnectFlags]
  refine Dec.Gives.skip fun b => ?_
  cases h : ConnectFlags.ofByte b with
  | none => exact Dec.Gives.fail _ _
  | some f =>
    refine Dec.Gives.pure ?_
    unfold ConnectFlags.ofByte at h
    split at h
    · cases h
    · simp only at h
      generalize hq : (if b &&& 4 ≠ 0 then QoS.ofU8 (b >>> 3 &&& 3) else QoS.atMostOnce) = q at h
      by_cases hi : q ≠ .invalid
      · rw [if_pos hi] at h
        cases h
        refine ⟨hi, fun hw => ?_⟩
        have hw' : ¬ b &&& 4 ≠ 0 := by simpa using hw
        rw [if_neg hw'] at hq
        exact hq.symm
      · rw [if_neg hi] at h
        cases h

theorem decodeConnect_gives (m : Mode) :
    (decodeConnect m).Gives (fun p => (Packet.connect p).Legal) := by
  rw [decodeConnect]
  refine Dec.Gives.skip fun _ => Dec.Gives.skip fun _ => Dec.Gives.skip fun name =>
    Dec.Gives.skip fun level => ?_
  cases ProtocolVersion.fromNameAndLevel name level with
  | none => exact Dec.Gives.fail _ _
  | some v =>
    have hv : v.supportsProperties = true ↔ v = .v5 := by cases v <;> decide
    refine decodeConnectFlags_gives.bind fun f hf => Dec.Gives.skip fun _ => ?_
    refine (decodeIf_gives _ (decodeBlock_gives ConnectProperties.set_good
      ⟨⟨userText_none, optText_none, optBinary_none⟩, rfl⟩)).bind fun props hp => ?_
    refine decodeStr_gives.bind fun cid hc => ?_
    refine (decodeIf_gives _ (decodeBlock_gives WillProperties.set_good
      ⟨optText_none, optText_none, optBinary_none, userText_none⟩)).bind fun wp hw => ?_
    refine (decodeIf_gives _ decodeStr_gives).bind fun wt hwt => ?_
    refine (decodeIf_gives _ decodeBin_gives).bind fun wpl hwpl => ?_
    refine (decodeIf_gives _ decodeStr_gives).bind fun un hun => ?_
    refine (decodeIf_gives _ decodeBin_gives).bind fun pw hpw => Dec.Gives.pure ?_
    refine ⟨⟨hwt.1, hwpl.1, fun h => ?_, fun h => ?_, hf.1, hf.2, hun.1, hpw.1⟩,
      ⟨hc, hwt.2, hwpl.2, hun.2, hpw.2, hp.2, hw.2⟩, fun h => ?_⟩
    · have := hw.1.symm.trans h
      rw [Bool.and_eq_true] at this
      exact ⟨this.1, hv.mp this.2⟩
    · exact hv.mp (hp.1.symm.trans h)
    · exact hp.1.trans (hv.mpr h)

theorem decodeConnAck_gives (m : Mode) :
    (decodeConnAck m).Gives (fun p => (Packet.connAck p).Legal) := by
  rw [decodeConnAck]
  refine Dec.Gives.skip fun _ => Dec.Gives.skip fun _ => Dec.Gives.skip fun _ => Dec.Gives.skip fun _ => ?_
  refine (decodeBlock_gives ConnAckProperties.set_good ⟨optText_none, optText_none, userText_none,
    optText_none, optText_none, optText_none, optBinary_none⟩).bind fun q hq => Dec.Gives.pure ?_
  intro q' e; cases e; exact hq

theorem decodeConnAckV3_gives (m : Mode) :
    (decodeConnAckV3 m).Gives (fun p => (Packet.connAck p).Legal) := by
  rw [decodeConnAckV3]
  refine Dec.Gives.skip fun _ => Dec.Gives.skip fun _ => Dec.Gives.skip fun _ => Dec.Gives.skip fun _ =>
    Dec.Gives.pure ?_
  intro q' e; cases e

theorem decodePublishId_gives (q : QoS) : (decodePublishId q).Gives
    (fun o => q ≠ .invalid ∧ (o.isSome ↔ q ≠ .atMostOnce)) := by
  cases q
  · exact Dec.Gives.pure (by decide)
  · exact Dec.Gives.skip fun _ => Dec.Gives.pure ⟨by decide, by simp⟩
  · exact Dec.Gives.skip fun _ => Dec.Gives.pure ⟨by decide, by simp⟩
  · exact Dec.Gives.fail _ _

theorem decodePublish_gives (m : Mode) :
    (decodePublish m).Gives (fun p => (Packet.publish p).Legal) := by
  rw [decodePublish_def]
  refine Dec.Gives.skip fun h => Dec.Gives.skip fun _ => ?_
  refine decodeStr_gives.bind fun t ht => ?_
  refine (decodePublishId_gives _).bind fun i hi => ?_
  refine (decodeBlock_gives PublishProperties.set_good ⟨optText_none, optBinary_none, userText_none,
    (fun _ e => by cases e), optText_none⟩).bind fun q hq => ?_
  refine Dec.Gives.skip fun _ => Dec.Gives.skip fun n => ⟨fun b a r h => ?_⟩
  simp only [Dec.of_apply] at h
  split at h
  · cases h
  · cases h
    exact ⟨ht, hi.1, hi.2, fun _ e => by cases e; exact hq⟩

theorem decodeAck_gives (m : Mode) : (decodeAck m).Gives AckPacket.Admissible := by
  rw [decodeAck]
  refine Dec.Gives.skip fun _ => Dec.Gives.skip fun _ => Dec.Gives.skip fun _ => ?_
  refine Dec.Gives.ite (Dec.Gives.pure fun _ e => by cases e) ?_
  refine Dec.Gives.skip fun _ => (decodeAckProperties_gives m).bind fun q hq => Dec.Gives.pure ?_
  intro q' e; cases e; exact hq

theorem payloadLoop_gives {α : Type} {d : Dec α} {P : α → Prop} (hd : d.Gives P) (next : Nat) :
    ∀ fuel b l r, payloadLoop d next fuel b = .ok (l, r) → ∀ a ∈ l, P a := by
  intro fuel
  induction fuel with
  | zero =>
    intro b l r h
    simp only [payloadLoop] at h
    split at h <;> cases h
    intro a ha; cases ha
  | succ fuel ih =>
    intro b l r h
    simp only [payloadLoop] at h
    split at h
    · split at h
      · cases h
      · cases h
      · rename_i a rest h1
        split at h
        · cases h
        · cases h
        · rename_i as rest' h2
          cases h
          intro x hx
          rcases List.mem_cons.mp hx with rfl | hx
          · exact hd.h _ _ _ h1
          · exact ih _ _ _ h2 x hx
    · cases h
      intro a ha; cases ha

theorem decodeEntries_gives {α : Type} (m : Mode) (a b : Nat) {d : Dec α} {P : α → Prop} (hd : d.Gives P) :
    (decodeEntries m a b d).Gives (fun l => ∀ x ∈ l, P x) := by
  rw [decodeEntries]
  refine Dec.Gives.skip fun r => Dec.Gives.ite (Dec.Gives.fail _ _) ?_
  refine Dec.Gives.skip fun n => ⟨fun b l r h => ?_⟩
  exact payloadLoop_gives hd n _ _ _ _ h

theorem decodeSubscribePayload_gives : decodeSubscribePayload.Gives
    (fun e => TextField e.topicFilter ∧ e.opts.Admissible) := by
  rw [decodeSubscribePayload]
  refine decodeStr_gives.bind fun t ht => Dec.Gives.skip fun b => ?_
  cases h : SubscriptionOptions.ofByte b with
  | none => exact Dec.Gives.fail _ _
  | some o =>
    refine Dec.Gives.pure ⟨ht, ?_⟩
    simp only [SubscriptionOptions.ofByte] at h
    split at h
    · cases h
    · split at h
      · cases h
      · rename_i h1 h2
        cases h
        exact ⟨h1, h2⟩

theorem decodeSubscribe_gives (m : Mode) :
    (decodeSubscribe m).Gives (fun p => (Packet.subscribe p).Legal) := by
  rw [decodeSubscribe]
  refine Dec.Gives.skip fun _ => Dec.Gives.skip fun _ => Dec.Gives.skip fun _ => Dec.Gives.skip fun _ => ?_
  refine (decodeBlock_gives SubscribeProperties.set_good ⟨(fun _ e => by cases e), userText_none⟩).bind
    fun q hq => ?_
  refine (decodeEntries_gives m _ _ decodeSubscribePayload_gives).bind fun l hl => Dec.Gives.pure ?_
  exact ⟨fun _ e => by cases e; exact hq, hl⟩

theorem decodeUnsubscribe_gives (m : Mode) :
    (decodeUnsubscribe m).Gives (fun p => (Packet.unsubscribe p).Legal) := by
  rw [decodeUnsubscribe]
  refine Dec.Gives.skip fun _ => Dec.Gives.skip fun _ => Dec.Gives.skip fun _ => Dec.Gives.skip fun _ => ?_
  refine (decodeBlock_gives UnsubscribeProperties.set_good userText_none).bind fun q hq => ?_
  refine (decodeEntries_gives m _ _ decodeStr_gives).bind fun l hl => Dec.Gives.pure ?_
  exact ⟨fun _ e => by cases e; exact hq, hl⟩

theorem decodeSubAck_gives (m : Mode) : (decodeSubAck m).Gives (fun p => (Packet.subAck p).Legal) := by
  rw [decodeSubAck]
  refine Dec.Gives.skip fun _ => Dec.Gives.skip fun _ => Dec.Gives.skip fun _ => Dec.Gives.skip fun _ => ?_
  refine (decodeAckProperties_gives m).bind fun q hq => Dec.Gives.skip fun _ => Dec.Gives.pure ?_
  intro q' e; cases e; exact hq

theorem decodeUnsubAck_gives (m : Mode) :
    (decodeUnsubAck m).Gives (fun p => (Packet.unsubAck p).Legal) := by
  rw [decodeUnsubAck]
  refine Dec.Gives.skip fun _ => Dec.Gives.skip fun _ => Dec.Gives.skip fun _ => Dec.Gives.skip fun _ => ?_
  refine (decodeAckProperties_gives m).bind fun q hq => Dec.Gives.skip fun _ => Dec.Gives.pure ?_
  intro q' e; cases e; exact hq

theorem decodeSubAckV3_gives (m : Mode) :
    (decodeSubAckV3 m).Gives (fun p => (Packet.subAck p).Legal) := by
  rw [decodeSubAckV3]
  refine Dec.Gives.skip fun _ => Dec.Gives.skip fun _ => Dec.Gives.skip fun _ => Dec.Gives.skip fun _ =>
    Dec.Gives.skip fun _ => Dec.Gives.skip fun _ => Dec.Gives.pure ?_
  intro q' e; cases e

theorem decodeUnsubAckV3_gives (m : Mode) :
    (decodeUnsubAckV3 m).Gives (fun p => (Packet.unsubAck p).Legal) := by
  rw [decodeUnsubAckV3]
  refine Dec.Gives.skip fun _ => Dec.Gives.skip fun _ => Dec.Gives.skip fun _ => Dec.Gives.pure ?_
  intro q' e; cases e

theorem decodeDisconnect_gives (m : Mode) :
    (decodeDisconnect m).Gives (fun p => (Packet.disconnect p).Legal) := by
  rw [decodeDisconnect]
  refine Dec.Gives.skip fun h => Dec.Gives.ite (Dec.Gives.fail _ _) ?_
  refine Dec.Gives.skip fun _ => Dec.Gives.skip fun _ => ?_
  exact (decodeIf_gives _ (decodeBlock_gives DisconnectProperties.set_good
    ⟨optText_none, userText_none, optText_none⟩)).bind fun o ho => Dec.Gives.pure ho.2

theorem decodeAuth_gives (m : Mode) : (decodeAuth m).Gives (fun p => (Packet.auth p).Legal) := by
  rw [decodeAuth]
  refine Dec.Gives.skip fun h => Dec.Gives.ite (Dec.Gives.fail _ _) ?_
  refine Dec.Gives.skip fun _ => Dec.Gives.skip fun _ => ?_
  exact (decodeBlock_gives AuthProperties.set_good ⟨optText_none, optBinary_none, optText_none,
    userText_none⟩).bind fun o ho => Dec.Gives.pure ho

end Mercurio
