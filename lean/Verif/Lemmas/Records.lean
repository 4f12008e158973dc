import Verif.Lemmas.Exact

/-! # The records of properties keep what they are told -/

namespace Mercurio

open Spec

theorem Spec.filter_one {α : Type} (C : α → Property) (o : Option α) (p : Property → Bool) :
    (one C o).filter p = o.elim [] (fun v => if p (C v) = true then [C v] else []) := by
  cases o with
  | none => rfl
  | some v => simp only [one, Option.elim]; by_cases h : p (C v) = true <;> simp [h]

theorem Spec.filter_users (o : Option (List (Str × Str))) (i : Nat) :
    (users o).filter (·.number = i) = if i = 0x26 then users o else [] := by
  cases o with
  | none => simp [users]
  | some l =>
    simp only [users]
    by_cases h : i = 0x26
    · subst h
      rw [if_pos rfl, List.filter_eq_self]
      intro a ha
      obtain ⟨kv, _, rfl⟩ := List.mem_map.mp ha
      rfl
    · rw [if_neg h, List.filter_eq_nil_iff]
      intro a ha
      obtain ⟨kv, _, rfl⟩ := List.mem_map.mp ha
      have : (Property.userProperty kv.1 kv.2).number = 0x26 := rfl
      rw [this]
      simp only [decide_eq_true_eq]
      exact fun e => h e.symm

theorem Spec.elim_nil {α : Type} (o : Option α) : o.elim ([] : List Property) (fun _ => []) = [] := by
  cases o <;> rfl

theorem Spec.mem_one {α : Type} (C : α → Property) (o : Option α) (n : Nat) :
    n ∈ (one C o).map Property.number ↔ ∃ v, o = some v ∧ (C v).number = n := by
  cases o <;> simp [one, eq_comm]

theorem Spec.mem_users (o : Option (List (Str × Str))) (n : Nat) :
    n ∈ (users o).map Property.number → n = 0x26 := by
  cases o with
  | none => simp [users]
  | some l =>
    simp only [users, List.map_map]
    intro h
    obtain ⟨kv, _, rfl⟩ := List.mem_map.mp h
    rfl

theorem Spec.users_add (o : Option (List (Str × Str))) (k v : Str) :
    users (some (o.getD [] ++ [(k, v)])) = users o ++ [.userProperty k v] := by
  cases o <;> simp [users]

theorem Spec.users_inj {o o' : Option (List (Str × Str))} (h : o ≠ some []) (h' : o' ≠ some [])
    (e : users o = users o') : o = o' := by
  have inj : ∀ l l' : List (Str × Str), l.map (fun kv => Property.userProperty kv.1 kv.2) =
      l'.map (fun kv => Property.userProperty kv.1 kv.2) → l = l' := by
    intro l l' h
    exact List.map_inj_right (fun a b hab => by
      cases a; cases b; simp only [Property.userProperty.injEq] at hab; simp [hab]) |>.mp h
  cases o with
  | none =>
    cases o' with
    | none => rfl
    | some l =>
      simp only [users] at e
      have : l = [] := by simpa using e.symm
      exact absurd (by rw [this]) h'
  | some l =>
    cases o' with
    | none =>
      simp only [users] at e
      have : l = [] := by simpa using e
      exact absurd (by rw [this]) h
    | some l' => simp only [users] at e; rw [inj l l' e]

theorem Spec.one_inj {α : Type} {C : α → Property} (hC : ∀ a b, C a = C b → a = b) {o o' : Option α}
    (e : one C o = one C o') : o = o' := by
  cases o <;> cases o' <;> simp_all [one] <;> exact hC _ _ e

section
variable (v8 : UInt8) (v16 : UInt16) (v32 : UInt32) (s t : Str) (b : Bool)
theorem number_01 : (Property.payloadFormatIndicator v8).number = 0x01 := rfl
theorem number_02 : (Property.messageExpiryInterval v32).number = 0x02 := rfl
theorem number_03 : (Property.contentType s).number = 0x03 := rfl
theorem number_08 : (Property.responseTopic s).number = 0x08 := rfl
theorem number_09 : (Property.correlationData s).number = 0x09 := rfl
theorem number_0b : (Property.subscriptionIdentifier v32).number = 0x0b := rfl
theorem number_11 : (Property.sessionExpiryInterval v32).number = 0x11 := rfl
theorem number_12 : (Property.assignedClientIdentifier s).number = 0x12 := rfl
theorem number_13 : (Property.serverKeepAlive v16).number = 0x13 := rfl
theorem number_15 : (Property.authenticationMethod s).number = 0x15 := rfl
theorem number_16 : (Property.authenticationData s).number = 0x16 := rfl
theorem number_17 : (Property.requestProblemInformation v8).number = 0x17 := rfl
theorem number_18 : (Property.willDelayInterval v32).number = 0x18 := rfl
theorem number_19 : (Property.requestResponseInformation v8).number = 0x19 := rfl
theorem number_1a : (Property.responseInformation s).number = 0x1a := rfl
theorem number_1c : (Property.serverReference s).number = 0x1c := rfl
theorem number_1f : (Property.reasonString s).number = 0x1f := rfl
theorem number_21 : (Property.receiveMaximum v16).number = 0x21 := rfl
theorem number_22 : (Property.topicAliasMaximum v16).number = 0x22 := rfl
theorem number_23 : (Property.topicAlias v16).number = 0x23 := rfl
theorem number_24 : (Property.maximumQoS v8).number = 0x24 := rfl
theorem number_25 : (Property.retainAvailable b).number = 0x25 := rfl
theorem number_26 : (Property.userProperty s t).number = 0x26 := rfl
theorem number_27 : (Property.maximumPacketSize v32).number = 0x27 := rfl
theorem number_28 : (Property.wildcardSubscriptionAvailable b).number = 0x28 := rfl
theorem number_29 : (Property.subscriptionIdentifierAvailable b).number = 0x29 := rfl
theorem number_2a : (Property.sharedSubscriptionAvailable b).number = 0x2a := rfl
end

/-- The properties of one kind. -/
def Spec.pick (i : Nat) (l : List Property) : List Property := l.filter (·.number = i)

theorem Spec.pick_append (i : Nat) (l r : List Property) : pick i (l ++ r) = pick i l ++ pick i r :=
  List.filter_append ..

theorem Spec.pick_one {α : Type} (i : Nat) (C : α → Property) (o : Option α) :
    pick i (one C o) = o.elim [] (fun v => if (C v).number = i then [C v] else []) := by
  rw [pick, filter_one]; simp

theorem Spec.pick_cons (i : Nat) (q : Property) (l : List Property) :
    pick i (q :: l) = if q.number = i then q :: pick i l else pick i l := by
  simp [pick, List.filter_cons]

theorem Spec.pick_nil (i : Nat) : pick i [] = [] := rfl

theorem Spec.pick_users (i : Nat) (o : Option (List (Str × Str))) :
    pick i (users o) = if i = 0x26 then users o else [] := filter_users o i

theorem Spec.elim_sing {α : Type} (C : α → Property) (o : Option α) :
    o.elim [] (fun v => [C v]) = one C o := by
  cases o <;> rfl

theorem Spec.users_map (o : Option (List (Str × Str))) (n : Nat) (h : n ≠ 0x26) :
    n ∈ (users o).map Property.number ↔ False :=
  ⟨fun hm => h (mem_users o n hm), False.elim⟩

open Lean.Parser.Tactic in
/-- Compute the properties of one kind. -/
macro "kind" "[" ts:simpLemma,* "]" l:(location)? : tactic => `(tactic|
  simp [pick_cons, pick_nil, pick_append, pick_one, pick_users, users_add, elim_nil, elim_sing, number_01, number_02, number_03, number_08, number_09,
    number_0b, number_11, number_12, number_13, number_15, number_16, number_17, number_18, number_19,
    number_1a, number_1c, number_1f, number_21, number_22, number_23, number_24, number_25, number_26,
    number_27, number_28, number_29, number_2a, $ts,*] $[$l]?)

open Lean.Parser.Tactic in
/-- Compute the identifier of a property. -/
macro "numbers" l:(location)? : tactic => `(tactic| simp only [number_01, number_02, number_03, number_08, number_09,
    number_0b, number_11, number_12, number_13, number_15, number_16, number_17, number_18, number_19,
    number_1a, number_1c, number_1f, number_21, number_22, number_23, number_24, number_25, number_26,
    number_27, number_28, number_29, number_2a] $[$l]?)

theorem ConnectProperties.keeps : Keeps ConnectProperties.set {} ConnectProperties.held (·.userProperty ≠ some []) where
  empty := rfl
  good0 := by simp
  good1 := by
    intro p q p' hg h
    cases q <;> simp only [ConnectProperties.set, Option.some.injEq, reduceCtorEq] at h <;> subst h <;> simp_all
  step := by
    intro p q p' h i
    change pick i _ = if _ then pick i _ else if _ then pick i _ ++ _ else _
    rcases Decidable.em (q.number = i) with he | he
    · rw [if_neg (fun e => e he)]
      cases q <;> simp only [ConnectProperties.set, Option.some.injEq, reduceCtorEq] at h <;> subst h <;>
        numbers at he <;> subst he <;> kind [ConnectProperties.held]
    · rw [if_pos he]
      have he' : ¬ i = q.number := fun e => he e.symm
      cases q <;> simp only [ConnectProperties.set, Option.some.injEq, reduceCtorEq] at h <;> subst h <;>
        numbers at he he' <;> kind [ConnectProperties.held, he, he']
  allowed := by
    intro p q p' hn h
    cases q <;> first
      | rfl
      | exact absurd hn id
      | (exfalso
         simp only [ConnectProperties.held, List.map_append, List.mem_append, mem_one] at h
         revert h
         kind [users_map])
  inj := by
    intro p p' hg hg' h
    have hu : p.userProperty = p'.userProperty := by
      have : pick _ _ = pick _ _ := h 0x26
      refine users_inj hg hg' ?_
      kind [ConnectProperties.held] at this
      exact this
    have h0 : p.sessionExpiryInterval = p'.sessionExpiryInterval := by
      have : pick _ _ = pick _ _ := h 0x11
      kind [ConnectProperties.held] at this
      exact one_inj (C := .sessionExpiryInterval) (by intro a b e; cases e; rfl) this
    have h1 : p.receiveMaximum = p'.receiveMaximum := by
      have : pick _ _ = pick _ _ := h 0x21
      kind [ConnectProperties.held] at this
      exact one_inj (C := .receiveMaximum) (by intro a b e; cases e; rfl) this
    have h2 : p.maximumPacketSize = p'.maximumPacketSize := by
      have : pick _ _ = pick _ _ := h 0x27
      kind [ConnectProperties.held] at this
      exact one_inj (C := .maximumPacketSize) (by intro a b e; cases e; rfl) this
    have h3 : p.topicAliasMaximum = p'.topicAliasMaximum := by
      have : pick _ _ = pick _ _ := h 0x22
      kind [ConnectProperties.held] at this
      exact one_inj (C := .topicAliasMaximum) (by intro a b e; cases e; rfl) this
    have h4 : p.requestResponseInformation = p'.requestResponseInformation := by
      have : pick _ _ = pick _ _ := h 0x19
      kind [ConnectProperties.held] at this
      exact one_inj (C := .requestResponseInformation) (by intro a b e; cases e; rfl) this
    have h5 : p.requestProblemInformation = p'.requestProblemInformation := by
      have : pick _ _ = pick _ _ := h 0x17
      kind [ConnectProperties.held] at this
      exact one_inj (C := .requestProblemInformation) (by intro a b e; cases e; rfl) this
    have h6 : p.authenticationMethod = p'.authenticationMethod := by
      have : pick _ _ = pick _ _ := h 0x15
      kind [ConnectProperties.held] at this
      exact one_inj (C := .authenticationMethod) (by intro a b e; cases e; rfl) this
    have h7 : p.authenticationData = p'.authenticationData := by
      have : pick _ _ = pick _ _ := h 0x16
      kind [ConnectProperties.held] at this
      exact one_inj (C := .authenticationData) (by intro a b e; cases e; rfl) this
    cases p; cases p'; simp_all

theorem WillProperties.keeps : Keeps WillProperties.set {} WillProperties.held (·.userProperty ≠ some []) where
  empty := rfl
  good0 := by simp
  good1 := by
    intro p q p' hg h
    cases q <;> simp only [WillProperties.set, Option.some.injEq, reduceCtorEq] at h <;> subst h <;> simp_all
  step := by
    intro p q p' h i
    change pick i _ = if _ then pick i _ else if _ then pick i _ ++ _ else _
    rcases Decidable.em (q.number = i) with he | he
    · rw [if_neg (fun e => e he)]
      cases q <;> simp only [WillProperties.set, Option.some.injEq, reduceCtorEq] at h <;> subst h <;>
        numbers at he <;> subst he <;> kind [WillProperties.held]
    · rw [if_pos he]
      have he' : ¬ i = q.number := fun e => he e.symm
      cases q <;> simp only [WillProperties.set, Option.some.injEq, reduceCtorEq] at h <;> subst h <;>
        numbers at he he' <;> kind [WillProperties.held, he, he']
  allowed := by
    intro p q p' hn h
    cases q <;> first
      | rfl
      | exact absurd hn id
      | (exfalso
         simp only [WillProperties.held, List.map_append, List.mem_append, mem_one] at h
         revert h
         kind [users_map])
  inj := by
    intro p p' hg hg' h
    have hu : p.userProperty = p'.userProperty := by
      have : pick _ _ = pick _ _ := h 0x26
      refine users_inj hg hg' ?_
      kind [WillProperties.held] at this
      exact this
    have h0 : p.willDelayInterval = p'.willDelayInterval := by
      have : pick _ _ = pick _ _ := h 0x18
      kind [WillProperties.held] at this
      exact one_inj (C := .willDelayInterval) (by intro a b e; cases e; rfl) this
    have h1 : p.payloadFormatIndicator = p'.payloadFormatIndicator := by
      have : pick _ _ = pick _ _ := h 0x01
      kind [WillProperties.held] at this
      exact one_inj (C := .payloadFormatIndicator) (by intro a b e; cases e; rfl) this
    have h2 : p.messageExpiryInterval = p'.messageExpiryInterval := by
      have : pick _ _ = pick _ _ := h 0x02
      kind [WillProperties.held] at this
      exact one_inj (C := .messageExpiryInterval) (by intro a b e; cases e; rfl) this
    have h3 : p.contentType = p'.contentType := by
      have : pick _ _ = pick _ _ := h 0x03
      kind [WillProperties.held] at this
      exact one_inj (C := .contentType) (by intro a b e; cases e; rfl) this
    have h4 : p.responseTopic = p'.responseTopic := by
      have : pick _ _ = pick _ _ := h 0x08
      kind [WillProperties.held] at this
      exact one_inj (C := .responseTopic) (by intro a b e; cases e; rfl) this
    have h5 : p.correlationData = p'.correlationData := by
      have : pick _ _ = pick _ _ := h 0x09
      kind [WillProperties.held] at this
      exact one_inj (C := .correlationData) (by intro a b e; cases e; rfl) this
    cases p; cases p'; simp_all

theorem ConnAckProperties.keeps : Keeps ConnAckProperties.set {} ConnAckProperties.held (·.userProperty ≠ some []) where
  empty := rfl
  good0 := by simp
  good1 := by
    intro p q p' hg h
    cases q <;> simp only [ConnAckProperties.set, Option.some.injEq, reduceCtorEq] at h <;> subst h <;> simp_all
  step := by
    intro p q p' h i
    change pick i _ = if _ then pick i _ else if _ then pick i _ ++ _ else _
    rcases Decidable.em (q.number = i) with he | he
    · rw [if_neg (fun e => e he)]
      cases q <;> simp only [ConnAckProperties.set, Option.some.injEq, reduceCtorEq] at h <;> subst h <;>
        numbers at he <;> subst he <;> kind [ConnAckProperties.held]
    · rw [if_pos he]
      have he' : ¬ i = q.number := fun e => he e.symm
      cases q <;> simp only [ConnAckProperties.set, Option.some.injEq, reduceCtorEq] at h <;> subst h <;>
        numbers at he he' <;> kind [ConnAckProperties.held, he, he']
  allowed := by
    intro p q p' hn h
    cases q <;> first
      | rfl
      | exact absurd hn id
      | (exfalso
         simp only [ConnAckProperties.held, List.map_append, List.mem_append, mem_one] at h
         revert h
         kind [users_map])
  inj := by
    intro p p' hg hg' h
    have hu : p.userProperty = p'.userProperty := by
      have : pick _ _ = pick _ _ := h 0x26
      refine users_inj hg hg' ?_
      kind [ConnAckProperties.held] at this
      exact this
    have h0 : p.sessionExpiryInterval = p'.sessionExpiryInterval := by
      have : pick _ _ = pick _ _ := h 0x11
      kind [ConnAckProperties.held] at this
      exact one_inj (C := .sessionExpiryInterval) (by intro a b e; cases e; rfl) this
    have h1 : p.receiveMaximum = p'.receiveMaximum := by
      have : pick _ _ = pick _ _ := h 0x21
      kind [ConnAckProperties.held] at this
      exact one_inj (C := .receiveMaximum) (by intro a b e; cases e; rfl) this
    have h2 : p.maximumQos = p'.maximumQos := by
      have : pick _ _ = pick _ _ := h 0x24
      kind [ConnAckProperties.held] at this
      exact one_inj (C := .maximumQoS) (by intro a b e; cases e; rfl) this
    have h3 : p.retainAvailable = p'.retainAvailable := by
      have : pick _ _ = pick _ _ := h 0x25
      kind [ConnAckProperties.held] at this
      exact one_inj (C := .retainAvailable) (by intro a b e; cases e; rfl) this
    have h4 : p.maximumPacketSize = p'.maximumPacketSize := by
      have : pick _ _ = pick _ _ := h 0x27
      kind [ConnAckProperties.held] at this
      exact one_inj (C := .maximumPacketSize) (by intro a b e; cases e; rfl) this
    have h5 : p.assignedClientId = p'.assignedClientId := by
      have : pick _ _ = pick _ _ := h 0x12
      kind [ConnAckProperties.held] at this
      exact one_inj (C := .assignedClientIdentifier) (by intro a b e; cases e; rfl) this
    have h6 : p.topicAliasMax = p'.topicAliasMax := by
      have : pick _ _ = pick _ _ := h 0x22
      kind [ConnAckProperties.held] at this
      exact one_inj (C := .topicAliasMaximum) (by intro a b e; cases e; rfl) this
    have h7 : p.reasonString = p'.reasonString := by
      have : pick _ _ = pick _ _ := h 0x1f
      kind [ConnAckProperties.held] at this
      exact one_inj (C := .reasonString) (by intro a b e; cases e; rfl) this
    have h8 : p.wildcardSubscriptionAvailable = p'.wildcardSubscriptionAvailable := by
      have : pick _ _ = pick _ _ := h 0x28
      kind [ConnAckProperties.held] at this
      exact one_inj (C := .wildcardSubscriptionAvailable) (by intro a b e; cases e; rfl) this
    have h9 : p.subscriptionIdentifierAvailable = p'.subscriptionIdentifierAvailable := by
      have : pick _ _ = pick _ _ := h 0x29
      kind [ConnAckProperties.held] at this
      exact one_inj (C := .subscriptionIdentifierAvailable) (by intro a b e; cases e; rfl) this
    have h10 : p.sharedSubscriptionAvailable = p'.sharedSubscriptionAvailable := by
      have : pick _ _ = pick _ _ := h 0x2a
      kind [ConnAckProperties.held] at this
      exact one_inj (C := .sharedSubscriptionAvailable) (by intro a b e; cases e; rfl) this
    have h11 : p.serverKeepalive = p'.serverKeepalive := by
      have : pick _ _ = pick _ _ := h 0x13
      kind [ConnAckProperties.held] at this
      exact one_inj (C := .serverKeepAlive) (by intro a b e; cases e; rfl) this
    have h12 : p.responseInformation = p'.responseInformation := by
      have : pick _ _ = pick _ _ := h 0x1a
      kind [ConnAckProperties.held] at this
      exact one_inj (C := .responseInformation) (by intro a b e; cases e; rfl) this
    have h13 : p.serverReference = p'.serverReference := by
      have : pick _ _ = pick _ _ := h 0x1c
      kind [ConnAckProperties.held] at this
      exact one_inj (C := .serverReference) (by intro a b e; cases e; rfl) this
    have h14 : p.authenticationMethod = p'.authenticationMethod := by
      have : pick _ _ = pick _ _ := h 0x15
      kind [ConnAckProperties.held] at this
      exact one_inj (C := .authenticationMethod) (by intro a b e; cases e; rfl) this
    have h15 : p.authenticationData = p'.authenticationData := by
      have : pick _ _ = pick _ _ := h 0x16
      kind [ConnAckProperties.held] at this
      exact one_inj (C := .authenticationData) (by intro a b e; cases e; rfl) this
    cases p; cases p'; simp_all

theorem PublishProperties.keeps : Keeps PublishProperties.set {} PublishProperties.held (·.userProperty ≠ some []) where
  empty := rfl
  good0 := by simp
  good1 := by
    intro p q p' hg h
    cases q <;> simp only [PublishProperties.set, Option.some.injEq, reduceCtorEq] at h <;> subst h <;> simp_all
  step := by
    intro p q p' h i
    change pick i _ = if _ then pick i _ else if _ then pick i _ ++ _ else _
    rcases Decidable.em (q.number = i) with he | he
    · rw [if_neg (fun e => e he)]
      cases q <;> simp only [PublishProperties.set, Option.some.injEq, reduceCtorEq] at h <;> subst h <;>
        numbers at he <;> subst he <;> kind [PublishProperties.held]
    · rw [if_pos he]
      have he' : ¬ i = q.number := fun e => he e.symm
      cases q <;> simp only [PublishProperties.set, Option.some.injEq, reduceCtorEq] at h <;> subst h <;>
        numbers at he he' <;> kind [PublishProperties.held, he, he']
  allowed := by
    intro p q p' hn h
    cases q <;> first
      | rfl
      | exact absurd hn id
      | (exfalso
         simp only [PublishProperties.held, List.map_append, List.mem_append, mem_one] at h
         revert h
         kind [users_map])
  inj := by
    intro p p' hg hg' h
    have hu : p.userProperty = p'.userProperty := by
      have : pick _ _ = pick _ _ := h 0x26
      refine users_inj hg hg' ?_
      kind [PublishProperties.held] at this
      exact this
    have h0 : p.payloadFormatIndicator = p'.payloadFormatIndicator := by
      have : pick _ _ = pick _ _ := h 0x01
      kind [PublishProperties.held] at this
      exact one_inj (C := .payloadFormatIndicator) (by intro a b e; cases e; rfl) this
    have h1 : p.messageExpiryInterval = p'.messageExpiryInterval := by
      have : pick _ _ = pick _ _ := h 0x02
      kind [PublishProperties.held] at this
      exact one_inj (C := .messageExpiryInterval) (by intro a b e; cases e; rfl) this
    have h2 : p.topicAlias = p'.topicAlias := by
      have : pick _ _ = pick _ _ := h 0x23
      kind [PublishProperties.held] at this
      exact one_inj (C := .topicAlias) (by intro a b e; cases e; rfl) this
    have h3 : p.responseTopic = p'.responseTopic := by
      have : pick _ _ = pick _ _ := h 0x08
      kind [PublishProperties.held] at this
      exact one_inj (C := .responseTopic) (by intro a b e; cases e; rfl) this
    have h4 : p.correlationData = p'.correlationData := by
      have : pick _ _ = pick _ _ := h 0x09
      kind [PublishProperties.held] at this
      exact one_inj (C := .correlationData) (by intro a b e; cases e; rfl) this
    have h5 : p.subscriptionIdentifier = p'.subscriptionIdentifier := by
      have : pick _ _ = pick _ _ := h 0x0b
      kind [PublishProperties.held] at this
      exact one_inj (C := .subscriptionIdentifier) (by intro a b e; cases e; rfl) this
    have h6 : p.contentType = p'.contentType := by
      have : pick _ _ = pick _ _ := h 0x03
      kind [PublishProperties.held] at this
      exact one_inj (C := .contentType) (by intro a b e; cases e; rfl) this
    cases p; cases p'; simp_all

theorem AckProperties.keeps : Keeps AckProperties.set {} AckProperties.held (·.userProperty ≠ some []) where
  empty := rfl
  good0 := by simp
  good1 := by
    intro p q p' hg h
    cases q <;> simp only [AckProperties.set, Option.some.injEq, reduceCtorEq] at h <;> subst h <;> simp_all
  step := by
    intro p q p' h i
    change pick i _ = if _ then pick i _ else if _ then pick i _ ++ _ else _
    rcases Decidable.em (q.number = i) with he | he
    · rw [if_neg (fun e => e he)]
      cases q <;> simp only [AckProperties.set, Option.some.injEq, reduceCtorEq] at h <;> subst h <;>
        numbers at he <;> subst he <;> kind [AckProperties.held]
    · rw [if_pos he]
      have he' : ¬ i = q.number := fun e => he e.symm
      cases q <;> simp only [AckProperties.set, Option.some.injEq, reduceCtorEq] at h <;> subst h <;>
        numbers at he he' <;> kind [AckProperties.held, he, he']
  allowed := by
    intro p q p' hn h
    cases q <;> first
      | rfl
      | exact absurd hn id
      | (exfalso
         simp only [AckProperties.held, List.map_append, List.mem_append, mem_one] at h
         revert h
         kind [users_map])
  inj := by
    intro p p' hg hg' h
    have hu : p.userProperty = p'.userProperty := by
      have : pick _ _ = pick _ _ := h 0x26
      refine users_inj hg hg' ?_
      kind [AckProperties.held] at this
      exact this
    have h0 : p.reasonString = p'.reasonString := by
      have : pick _ _ = pick _ _ := h 0x1f
      kind [AckProperties.held] at this
      exact one_inj (C := .reasonString) (by intro a b e; cases e; rfl) this
    cases p; cases p'; simp_all

theorem SubscribeProperties.keeps : Keeps SubscribeProperties.set {} SubscribeProperties.held (·.userProperty ≠ some []) where
  empty := rfl
  good0 := by simp
  good1 := by
    intro p q p' hg h
    cases q <;> simp only [SubscribeProperties.set, Option.some.injEq, reduceCtorEq] at h <;> subst h <;> simp_all
  step := by
    intro p q p' h i
    change pick i _ = if _ then pick i _ else if _ then pick i _ ++ _ else _
    rcases Decidable.em (q.number = i) with he | he
    · rw [if_neg (fun e => e he)]
      cases q <;> simp only [SubscribeProperties.set, Option.some.injEq, reduceCtorEq] at h <;> subst h <;>
        numbers at he <;> subst he <;> kind [SubscribeProperties.held]
    · rw [if_pos he]
      have he' : ¬ i = q.number := fun e => he e.symm
      cases q <;> simp only [SubscribeProperties.set, Option.some.injEq, reduceCtorEq] at h <;> subst h <;>
        numbers at he he' <;> kind [SubscribeProperties.held, he, he']
  allowed := by
    intro p q p' hn h
    cases q <;> first
      | rfl
      | exact absurd hn id
      | (exfalso
         simp only [SubscribeProperties.held, List.map_append, List.mem_append, mem_one] at h
         revert h
         kind [users_map])
  inj := by
    intro p p' hg hg' h
    have hu : p.userProperty = p'.userProperty := by
      have : pick _ _ = pick _ _ := h 0x26
      refine users_inj hg hg' ?_
      kind [SubscribeProperties.held] at this
      exact this
    have h0 : p.subscriptionId = p'.subscriptionId := by
      have : pick _ _ = pick _ _ := h 0x0b
      kind [SubscribeProperties.held] at this
      exact one_inj (C := .subscriptionIdentifier) (by intro a b e; cases e; rfl) this
    cases p; cases p'; simp_all

theorem UnsubscribeProperties.keeps : Keeps UnsubscribeProperties.set {} UnsubscribeProperties.held (·.userProperty ≠ some []) where
  empty := rfl
  good0 := by simp
  good1 := by
    intro p q p' hg h
    cases q <;> simp only [UnsubscribeProperties.set, Option.some.injEq, reduceCtorEq] at h <;> subst h <;> simp_all
  step := by
    intro p q p' h i
    change pick i _ = if _ then pick i _ else if _ then pick i _ ++ _ else _
    rcases Decidable.em (q.number = i) with he | he
    · rw [if_neg (fun e => e he)]
      cases q <;> simp only [UnsubscribeProperties.set, Option.some.injEq, reduceCtorEq] at h <;> subst h <;>
        numbers at he <;> subst he <;> kind [UnsubscribeProperties.held]
    · rw [if_pos he]
      have he' : ¬ i = q.number := fun e => he e.symm
      cases q <;> simp only [UnsubscribeProperties.set, Option.some.injEq, reduceCtorEq] at h <;> subst h <;>
        numbers at he he' <;> kind [UnsubscribeProperties.held, he, he']
  allowed := by
    intro p q p' hn h
    cases q <;> first
      | rfl
      | exact absurd hn id
      | (exfalso
         simp only [UnsubscribeProperties.held, List.map_append, List.mem_append, mem_one] at h
         revert h
         kind [users_map])
  inj := by
    intro p p' hg hg' h
    have hu : p.userProperty = p'.userProperty := by
      have : pick _ _ = pick _ _ := h 0x26
      refine users_inj hg hg' ?_
      kind [UnsubscribeProperties.held] at this
      exact this
    cases p; cases p'; simp_all

theorem DisconnectProperties.keeps : Keeps DisconnectProperties.set {} DisconnectProperties.held (·.userProperty ≠ some []) where
  empty := rfl
  good0 := by simp
  good1 := by
    intro p q p' hg h
    cases q <;> simp only [DisconnectProperties.set, Option.some.injEq, reduceCtorEq] at h <;> subst h <;> simp_all
  step := by
    intro p q p' h i
    change pick i _ = if _ then pick i _ else if _ then pick i _ ++ _ else _
    rcases Decidable.em (q.number = i) with he | he
    · rw [if_neg (fun e => e he)]
      cases q <;> simp only [DisconnectProperties.set, Option.some.injEq, reduceCtorEq] at h <;> subst h <;>
        numbers at he <;> subst he <;> kind [DisconnectProperties.held]
    · rw [if_pos he]
      have he' : ¬ i = q.number := fun e => he e.symm
      cases q <;> simp only [DisconnectProperties.set, Option.some.injEq, reduceCtorEq] at h <;> subst h <;>
        numbers at he he' <;> kind [DisconnectProperties.held, he, he']
  allowed := by
    intro p q p' hn h
    cases q <;> first
      | rfl
      | exact absurd hn id
      | (exfalso
         simp only [DisconnectProperties.held, List.map_append, List.mem_append, mem_one] at h
         revert h
         kind [users_map])
  inj := by
    intro p p' hg hg' h
    have hu : p.userProperty = p'.userProperty := by
      have : pick _ _ = pick _ _ := h 0x26
      refine users_inj hg hg' ?_
      kind [DisconnectProperties.held] at this
      exact this
    have h0 : p.sessionExpiryInterval = p'.sessionExpiryInterval := by
      have : pick _ _ = pick _ _ := h 0x11
      kind [DisconnectProperties.held] at this
      exact one_inj (C := .sessionExpiryInterval) (by intro a b e; cases e; rfl) this
    have h1 : p.reasonString = p'.reasonString := by
      have : pick _ _ = pick _ _ := h 0x1f
      kind [DisconnectProperties.held] at this
      exact one_inj (C := .reasonString) (by intro a b e; cases e; rfl) this
    have h2 : p.serverReference = p'.serverReference := by
      have : pick _ _ = pick _ _ := h 0x1c
      kind [DisconnectProperties.held] at this
      exact one_inj (C := .serverReference) (by intro a b e; cases e; rfl) this
    cases p; cases p'; simp_all

theorem AuthProperties.keeps : Keeps AuthProperties.set {} AuthProperties.held (·.userProperty ≠ some []) where
  empty := rfl
  good0 := by simp
  good1 := by
    intro p q p' hg h
    cases q <;> simp only [AuthProperties.set, Option.some.injEq, reduceCtorEq] at h <;> subst h <;> simp_all
  step := by
    intro p q p' h i
    change pick i _ = if _ then pick i _ else if _ then pick i _ ++ _ else _
    rcases Decidable.em (q.number = i) with he | he
    · rw [if_neg (fun e => e he)]
      cases q <;> simp only [AuthProperties.set, Option.some.injEq, reduceCtorEq] at h <;> subst h <;>
        numbers at he <;> subst he <;> kind [AuthProperties.held]
    · rw [if_pos he]
      have he' : ¬ i = q.number := fun e => he e.symm
      cases q <;> simp only [AuthProperties.set, Option.some.injEq, reduceCtorEq] at h <;> subst h <;>
        numbers at he he' <;> kind [AuthProperties.held, he, he']
  allowed := by
    intro p q p' hn h
    cases q <;> first
      | rfl
      | exact absurd hn id
      | (exfalso
         simp only [AuthProperties.held, List.map_append, List.mem_append, mem_one] at h
         revert h
         kind [users_map])
  inj := by
    intro p p' hg hg' h
    have hu : p.userProperty = p'.userProperty := by
      have : pick _ _ = pick _ _ := h 0x26
      refine users_inj hg hg' ?_
      kind [AuthProperties.held] at this
      exact this
    have h0 : p.authMethod = p'.authMethod := by
      have : pick _ _ = pick _ _ := h 0x15
      kind [AuthProperties.held] at this
      exact one_inj (C := .authenticationMethod) (by intro a b e; cases e; rfl) this
    have h1 : p.authData = p'.authData := by
      have : pick _ _ = pick _ _ := h 0x16
      kind [AuthProperties.held] at this
      exact one_inj (C := .authenticationData) (by intro a b e; cases e; rfl) this
    have h2 : p.reasonString = p'.reasonString := by
      have : pick _ _ = pick _ _ := h 0x1f
      kind [AuthProperties.held] at this
      exact one_inj (C := .reasonString) (by intro a b e; cases e; rfl) this
    cases p; cases p'; simp_all

end Mercurio
