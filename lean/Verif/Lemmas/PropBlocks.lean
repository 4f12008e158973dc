import Verif.Lemmas.Vbi
import Verif.Lemmas.Utf8
import Verif.Spec.Packets

/-! # Round trip of single properties and of property blocks -/

namespace Mercurio

open Spec

/-- The property is not Request Response Information (whose identifier is decoded wrongly). -/
def Property.NotRRI : Property → Prop
  | .requestResponseInformation _ => False
  | _ => True

theorem TextField.valid {s : Str} (h : TextField s) : s.length < 65536 ∧ utf8Valid s = true :=
  ⟨by have := h.2; omega, utf8Valid_of_isUtf8 h.1⟩

theorem decodeStr_text {s : Str} (h : TextField s) (rest : Buf) :
    decodeStr (encodeStr s ++ rest) = .ok (s, rest) :=
  decodeStr_encode s (TextField.valid h).1 (TextField.valid h).2 rest

theorem decodeBin_binary {s : Buf} (h : BinaryField s) (rest : Buf) :
    decodeBin (encodeBin s ++ rest) = .ok (s, rest) :=
  decodeBin_encode s (by unfold BinaryField at h; omega) rest

theorem decodeVbi32_encode (m : Mode) (v : UInt32) (h : v.toNat < 2 ^ 28) (rest : Buf) :
    decodeVbi32 m (encodeVbi v.toNat ++ rest) = .ok (v, rest) := by
  rw [decodeVbi32, Dec.bind_ok (decodeVbi_encode m v.toNat h rest), Dec.pure_apply]
  simp

theorem Property.id_lt (p : Property) : p.id < 2 ^ 28 := by
  cases p <;> simp [Property.id]

theorem decodeProperty_encode (m : Mode) (p : Property) (hp : p.Admissible) (hn : p.NotRRI)
    (rest : Buf) : decodeProperty m (p.encode ++ rest) = .ok (p, rest) := by
  rw [Property.encode, List.append_assoc, decodeProperty,
    Dec.bind_ok (decodeVbi_encode m p.id p.id_lt _)]
  cases p <;> simp only [Property.Admissible, Property.NotRRI] at hp hn <;>
    simp only [Property.id, decodeWithId, Property.encodeValue, List.append_assoc]
  case userProperty k v =>
    rw [Dec.bind_ok (decodeStr_text hp.1 _), Dec.bind_ok (decodeStr_text hp.2 _)]; rfl
  all_goals
    first
    | (rw [Dec.bind_ok (decodeStr_text hp _)]; rfl)
    | (rw [Dec.bind_ok (decodeBin_binary hp _)]; rfl)
    | (rw [Dec.bind_ok (decodeVbi32_encode m _ hp _)]; rfl)
    | (rw [Dec.bind_ok (decodeU8_encode _ _)]; rfl)
    | (rw [Dec.bind_ok (decodeU16_encode _ _)]; rfl)
    | (rw [Dec.bind_ok (decodeU32_encode _ _)]; rfl)
    | (rw [Dec.bind_ok (decodeBool_encode _ _)]; rfl)
    | exact hn.elim

theorem Property.encode_length_pos (p : Property) : 1 ≤ p.encode.length := by
  have := encodeVbi_length_pos p.id
  simp only [Property.encode, List.length_append]; omega

theorem vbiLen_eq {n : Nat} (h : n < 2 ^ 28) : Property.vbiLen n = (encodeVbi n).length := by
  have := vbiSize_ok h
  simp only [vbiSize] at this
  simp only [Property.vbiLen]
  by_cases h1 : n ≤ 127
  · rw [if_pos h1] at this ⊢; injection this
  rw [if_neg h1] at this ⊢
  by_cases h2 : n ≤ 16383
  · rw [if_pos h2] at this ⊢; injection this
  rw [if_neg h2] at this ⊢
  by_cases h3 : n ≤ 2097151
  · rw [if_pos h3] at this ⊢; injection this
  rw [if_neg h3] at this ⊢
  rw [if_pos (by omega)] at this; injection this

theorem Property.size_eq (p : Property) (h : p.sizePanics = false) : p.size = p.encode.length := by
  rw [Property.size, Property.encode, List.length_append, ← vbiLen_eq p.id_lt]
  congr 1
  cases p <;> simp [Property.valueSize, Property.encodeValue]
  case subscriptionIdentifier v =>
    simp [Property.sizePanics] at h
    exact vbiLen_eq (by omega)

theorem propsSize_eq (ps : List Property) (h : ps.any Property.sizePanics = false) :
    propsSize ps = (encodeProps ps).length := by
  induction ps with
  | nil => rfl
  | cons p ps ih =>
    simp only [List.any_cons, Bool.or_eq_false_iff] at h
    have := ih h.2
    simp only [propsSize, encodeProps, List.map_cons, List.sum_cons, List.flatMap_cons,
      List.length_append] at this ⊢
    rw [p.size_eq h.1, this]

theorem Property.Admissible.no_panic {p : Property} (h : p.Admissible) : p.sizePanics = false := by
  cases p <;> simp_all [Property.Admissible, Property.sizePanics]
  omega

theorem any_no_panic {ps : List Property} (h : ∀ p ∈ ps, p.Admissible) :
    ps.any Property.sizePanics = false := by
  rw [List.any_eq_false]
  intro p hp
  simp [(h p hp).no_panic]

/-- The decoding loop applied to encoded properties folds the field setters over them. -/
theorem propLoop_encode {P : Type} (m : Mode) (set : P → Property → Option P) (ps : List Property) :
    ∀ (s : P) (fuel : Nat), (∀ p ∈ ps, p.Admissible ∧ p.NotRRI) →
      (encodeProps ps).length ≤ fuel →
      propLoop m set fuel s (encodeProps ps) =
        match ps.foldlM set s with
        | some s' => .ok s'
        | none => .err (.mqtt .malformedPacket) := by
  induction ps with
  | nil =>
    intro s fuel _ _
    cases fuel <;> simp [encodeProps, propLoop]
  | cons p ps ih =>
    intro s fuel ha hf
    obtain ⟨h1, h2⟩ := ha p (by simp)
    have e : encodeProps (p :: ps) = p.encode ++ encodeProps ps := by simp [encodeProps]
    rw [e] at hf ⊢
    have hpos := p.encode_length_pos
    have hd := decodeProperty_encode m p h1 h2 (encodeProps ps)
    rw [List.length_append] at hf
    obtain ⟨fuel, rfl⟩ : ∃ f, fuel = f + 1 := ⟨fuel - 1, by omega⟩
    match hx : p.encode ++ encodeProps ps with
    | [] => simp at hx; simp [hx.1] at hpos
    | b :: bs =>
      rw [hx] at hd
      simp only [propLoop, hd, List.foldlM_cons]
      cases hs : set s p with
      | none => rfl
      | some s' => exact ih s' fuel (fun q hq => ha q (by simp [hq])) (by omega)

/-- A property block whose length counts exactly the properties it holds. -/
def encodeBlock (ps : List Property) : Buf :=
  encodeVbi (propsSize ps % 2 ^ 32) ++ encodeProps ps

/-! Each `encoded_size` counts exactly what `encode` writes. -/

theorem ConnectProperties.counted_eq (p : ConnectProperties) : p.counted = p.toProps := rfl
theorem WillProperties.counted_eq (p : WillProperties) : p.counted = p.toProps := rfl
theorem ConnAckProperties.counted_eq (p : ConnAckProperties) : p.counted = p.toProps := rfl
theorem PublishProperties.counted_eq (p : PublishProperties) : p.counted = p.toProps := rfl
theorem AckProperties.counted_eq (p : AckProperties) : p.counted = p.toProps := rfl
theorem SubscribeProperties.counted_eq (p : SubscribeProperties) : p.counted = p.toProps := rfl
theorem UnsubscribeProperties.counted_eq (p : UnsubscribeProperties) : p.counted = p.toProps := rfl
theorem DisconnectProperties.counted_eq (p : DisconnectProperties) : p.counted = p.toProps := rfl
theorem AuthProperties.counted_eq (p : AuthProperties) : p.counted = p.toProps := rfl

theorem optProps_countedConnect (o : Option ConnectProperties) :
    optProps ConnectProperties.counted o = optProps ConnectProperties.toProps o := rfl

theorem optProps_countedWill (o : Option WillProperties) :
    optProps WillProperties.counted o = optProps WillProperties.toProps o := rfl

theorem optProps_countedConnAck (o : Option ConnAckProperties) :
    optProps ConnAckProperties.counted o = optProps ConnAckProperties.toProps o := rfl

theorem optProps_countedPublish (o : Option PublishProperties) :
    optProps PublishProperties.counted o = optProps PublishProperties.toProps o := rfl

theorem optProps_countedAck (o : Option AckProperties) :
    optProps AckProperties.counted o = optProps AckProperties.toProps o := rfl

theorem optProps_countedSubscribe (o : Option SubscribeProperties) :
    optProps SubscribeProperties.counted o = optProps SubscribeProperties.toProps o := rfl

theorem optProps_countedUnsubscribe (o : Option UnsubscribeProperties) :
    optProps UnsubscribeProperties.counted o = optProps UnsubscribeProperties.toProps o := rfl

theorem optProps_countedDisconnect (o : Option DisconnectProperties) :
    optProps DisconnectProperties.counted o = optProps DisconnectProperties.toProps o := rfl

theorem optProps_countedAuth (o : Option AuthProperties) :
    optProps AuthProperties.counted o = optProps AuthProperties.toProps o := rfl

theorem decodeBlock_encode {P : Type} (m : Mode) (short : Err) (dflt : P)
    (set : P → Property → Option P) (ps : List Property) (s' : P) (rest : Buf)
    (ha : ∀ p ∈ ps, p.Admissible ∧ p.NotRRI) (hs : ps.foldlM set dflt = some s')
    (hl : propsSize ps < 2 ^ 28) (hr : (encodeProps ps ++ rest).length < 2 ^ 32) :
    decodeBlock m short dflt set (encodeBlock ps ++ rest) = .ok (s', rest) := by
  have hnp := any_no_panic (fun p hp => (ha p hp).1)
  have hsz := propsSize_eq ps hnp
  rw [encodeBlock, Nat.mod_eq_of_lt (by omega), List.append_assoc, decodeBlock,
    Dec.bind_ok (decodeVbi_encode m _ hl _), Dec.ite_apply]
  by_cases h0 : propsSize ps = 0
  · rw [if_pos h0]
    have : ps = [] := by
      cases ps with
      | nil => rfl
      | cons p ps =>
        have := p.encode_length_pos
        have e : encodeProps (p :: ps) = p.encode ++ encodeProps ps := by simp [encodeProps]
        rw [e, List.length_append] at hsz
        omega
    subst this
    simp at hs
    subst hs
    rfl
  · rw [if_neg h0, Dec.of_apply]
    rw [Nat.mod_eq_of_lt hr, if_neg (by rw [List.length_append]; omega), hsz, List.take_left,
      List.drop_left, propLoop_encode m set ps dflt _ ha (Nat.le_refl _), hs]

theorem blockSize_ok {ps : List Property} (h : ps.any Property.sizePanics = false)
    (hl : propsSize ps < 2 ^ 28) : blockSize ps = .ok (encodeBlock ps).length := by
  have hsz := propsSize_eq ps h
  rw [blockSize, propsSizeRes, h]
  simp only [Bool.false_eq_true, if_false, Res.bind_ok]
  rw [vbiSize_ok (by omega)]
  simp [encodeBlock, hsz]

/-- What a successful `blockSize` says. -/
theorem blockSize_inv {ps : List Property} {n : Nat} (h : blockSize ps = .ok n) :
    ps.any Property.sizePanics = false ∧ n = (encodeBlock ps).length := by
  rw [blockSize, propsSizeRes] at h
  cases hp : ps.any Property.sizePanics with
  | true => rw [hp] at h; simp at h
  | false =>
    rw [hp] at h
    simp only [Bool.false_eq_true, if_false, Res.bind_ok] at h
    refine ⟨rfl, ?_⟩
    have hsz := propsSize_eq ps hp
    by_cases hv : propsSize ps % 2 ^ 32 < 2 ^ 28
    · rw [vbiSize_ok hv] at h
      injection h with h
      rw [← h, encodeBlock, List.length_append, hsz]
    · rw [vbiSize_panic (by omega)] at h
      cases h

/-! ## Folding the setters -/

theorem fold_field {S α : Type} (f : S → Property → Option S) (C : α → Property) (g : Option α → S)
    (h : ∀ v, f (g none) (C v) = some (g (some v))) (o : Option α) (rest : List Property) :
    (o.toList.map C ++ rest).foldlM f (g none) = rest.foldlM f (g o) := by
  cases o with
  | none => rfl
  | some v => simp [List.foldlM_cons, h]

theorem fold_user_list {S : Type} (f : S → Property → Option S)
    (g : Option (List (Str × Str)) → S)
    (h : ∀ o k v, f (g o) (.userProperty k v) = some (g (some (o.getD [] ++ [(k, v)]))))
    (us : List (Str × Str)) : ∀ (acc : List (Str × Str)) (rest : List Property),
    (us.map (fun kv => Property.userProperty kv.1 kv.2) ++ rest).foldlM f (g (some acc)) =
      rest.foldlM f (g (some (acc ++ us))) := by
  induction us with
  | nil => intro acc rest; simp
  | cons u us ih =>
    intro acc rest
    simp only [List.map_cons, List.cons_append, List.foldlM_cons, h, Option.getD_some]
    have := ih (acc ++ [u]) rest
    simpa using this

theorem fold_user {S : Type} (f : S → Property → Option S) (g : Option (List (Str × Str)) → S)
    (h : ∀ o k v, f (g o) (.userProperty k v) = some (g (some (o.getD [] ++ [(k, v)]))))
    (o : Option (List (Str × Str))) (rest : List Property) :
    ((o.getD []).map (fun kv => Property.userProperty kv.1 kv.2) ++ rest).foldlM f (g none) =
      rest.foldlM f (g (receivedUser o)) := by
  match o with
  | none => rfl
  | some [] => rfl
  | some (u :: us) =>
    have h1 := h none u.1 u.2
    have := fold_user_list f g h us [u] rest
    simp only [Option.getD_some, List.map_cons, List.cons_append, List.foldlM_cons, h1]
    simpa [receivedUser] using this

theorem user_mem (o : Option (List (Str × Str))) :
    ∀ kv, kv ∈ o.getD [] → ∃ l, o = some l ∧ kv ∈ l := by
  intro kv h
  cases o with
  | none => simp at h
  | some l => exact ⟨l, rfl, h⟩

theorem UserText.mem {o : Option (List (Str × Str))} (h : UserText o) {a : Str × Str}
    (ha : a ∈ o.getD []) : TextField a.1 ∧ TextField a.2 := by
  obtain ⟨l, h1, h2⟩ := user_mem o a ha
  exact h l h1 a h2

theorem ConnectProperties.fold (p : ConnectProperties) (hr : p.requestResponseInformation = none) :
    p.toProps.foldlM ConnectProperties.set {} = some p.received := by
  have hp : p.received = { p.received with requestResponseInformation := none } := by
    rw [ConnectProperties.received, ← hr]
  rw [hp]
  have e : p.toProps = p.toProps ++ [] := (List.append_nil _).symm
  rw [e]
  simp only [ConnectProperties.toProps, List.append_assoc, hr, Option.toList_none, List.map_nil, List.nil_append]
  refine (fold_field ConnectProperties.set .sessionExpiryInterval
    (fun o => { sessionExpiryInterval := o }) (fun _ => rfl) _ _).trans ?_
  refine (fold_field ConnectProperties.set .receiveMaximum
    (fun o => { sessionExpiryInterval := p.sessionExpiryInterval, receiveMaximum := o }) (fun _ => rfl) _ _).trans ?_
  refine (fold_field ConnectProperties.set .maximumPacketSize
    (fun o => { sessionExpiryInterval := p.sessionExpiryInterval, receiveMaximum := p.receiveMaximum, maximumPacketSize := o }) (fun _ => rfl) _ _).trans ?_
  refine (fold_field ConnectProperties.set .topicAliasMaximum
    (fun o => { sessionExpiryInterval := p.sessionExpiryInterval, receiveMaximum := p.receiveMaximum, maximumPacketSize := p.maximumPacketSize, topicAliasMaximum := o }) (fun _ => rfl) _ _).trans ?_
  refine (fold_field ConnectProperties.set .requestProblemInformation
    (fun o => { sessionExpiryInterval := p.sessionExpiryInterval, receiveMaximum := p.receiveMaximum, maximumPacketSize := p.maximumPacketSize, topicAliasMaximum := p.topicAliasMaximum, requestProblemInformation := o }) (fun _ => rfl) _ _).trans ?_
  refine (fold_user ConnectProperties.set
    (fun o => { sessionExpiryInterval := p.sessionExpiryInterval, receiveMaximum := p.receiveMaximum, maximumPacketSize := p.maximumPacketSize, topicAliasMaximum := p.topicAliasMaximum, requestProblemInformation := p.requestProblemInformation, userProperty := o }) (fun _ _ _ => rfl) _ _).trans ?_
  refine (fold_field ConnectProperties.set .authenticationMethod
    (fun o => { sessionExpiryInterval := p.sessionExpiryInterval, receiveMaximum := p.receiveMaximum, maximumPacketSize := p.maximumPacketSize, topicAliasMaximum := p.topicAliasMaximum, requestProblemInformation := p.requestProblemInformation, userProperty := receivedUser p.userProperty, authenticationMethod := o }) (fun _ => rfl) _ _).trans ?_
  refine (fold_field ConnectProperties.set .authenticationData
    (fun o => { sessionExpiryInterval := p.sessionExpiryInterval, receiveMaximum := p.receiveMaximum, maximumPacketSize := p.maximumPacketSize, topicAliasMaximum := p.topicAliasMaximum, requestProblemInformation := p.requestProblemInformation, userProperty := receivedUser p.userProperty, authenticationMethod := p.authenticationMethod, authenticationData := o }) (fun _ => rfl) _ _).trans ?_
  rfl

theorem ConnectProperties.Admissible.props {p : ConnectProperties} (hp : p.Admissible)
    (hr : p.requestResponseInformation = none) :
    ∀ q ∈ p.toProps, q.Admissible ∧ q.NotRRI := by
  intro q hq
  simp only [ConnectProperties.toProps, List.mem_append, List.mem_map, Option.mem_toList, hr, reduceCtorEq, false_and, exists_false, or_false] at hq
  unfold ConnectProperties.Admissible at hp
  try unfold OptText at hp
  try unfold OptBinary at hp
  rcases hq with (((((((⟨a, ha, rfl⟩) | ⟨a, ha, rfl⟩) | ⟨a, ha, rfl⟩) | ⟨a, ha, rfl⟩) | ⟨a, ha, rfl⟩) | ⟨a, ha, rfl⟩) | ⟨a, ha, rfl⟩) | ⟨a, ha, rfl⟩
  all_goals
    first
    | exact ⟨trivial, trivial⟩
    | (refine ⟨?_, trivial⟩; simp only [Property.Admissible]; simp_all; done)
    | exact ⟨UserText.mem hp ha, trivial⟩
    | exact ⟨UserText.mem hp.1 ha, trivial⟩
    | exact ⟨UserText.mem hp.2 ha, trivial⟩
    | exact ⟨UserText.mem hp.2.1 ha, trivial⟩
    | exact ⟨UserText.mem hp.2.2 ha, trivial⟩
    | exact ⟨UserText.mem hp.2.2.1 ha, trivial⟩
    | exact ⟨UserText.mem hp.2.2.2 ha, trivial⟩

theorem WillProperties.fold (p : WillProperties) :
    p.toProps.foldlM WillProperties.set {} = some p.received := by
  have e : p.toProps = p.toProps ++ [] := (List.append_nil _).symm
  rw [e]
  simp only [WillProperties.toProps, List.append_assoc]
  refine (fold_field WillProperties.set .willDelayInterval
    (fun o => { willDelayInterval := o }) (fun _ => rfl) _ _).trans ?_
  refine (fold_field WillProperties.set .payloadFormatIndicator
    (fun o => { willDelayInterval := p.willDelayInterval, payloadFormatIndicator := o }) (fun _ => rfl) _ _).trans ?_
  refine (fold_field WillProperties.set .messageExpiryInterval
    (fun o => { willDelayInterval := p.willDelayInterval, payloadFormatIndicator := p.payloadFormatIndicator, messageExpiryInterval := o }) (fun _ => rfl) _ _).trans ?_
  refine (fold_field WillProperties.set .contentType
    (fun o => { willDelayInterval := p.willDelayInterval, payloadFormatIndicator := p.payloadFormatIndicator, messageExpiryInterval := p.messageExpiryInterval, contentType := o }) (fun _ => rfl) _ _).trans ?_
  refine (fold_field WillProperties.set .responseTopic
    (fun o => { willDelayInterval := p.willDelayInterval, payloadFormatIndicator := p.payloadFormatIndicator, messageExpiryInterval := p.messageExpiryInterval, contentType := p.contentType, responseTopic := o }) (fun _ => rfl) _ _).trans ?_
  refine (fold_field WillProperties.set .correlationData
    (fun o => { willDelayInterval := p.willDelayInterval, payloadFormatIndicator := p.payloadFormatIndicator, messageExpiryInterval := p.messageExpiryInterval, contentType := p.contentType, responseTopic := p.responseTopic, correlationData := o }) (fun _ => rfl) _ _).trans ?_
  refine (fold_user WillProperties.set
    (fun o => { willDelayInterval := p.willDelayInterval, payloadFormatIndicator := p.payloadFormatIndicator, messageExpiryInterval := p.messageExpiryInterval, contentType := p.contentType, responseTopic := p.responseTopic, correlationData := p.correlationData, userProperty := o }) (fun _ _ _ => rfl) _ _).trans ?_
  rfl

theorem WillProperties.Admissible.props {p : WillProperties} (hp : p.Admissible) :
    ∀ q ∈ p.toProps, q.Admissible ∧ q.NotRRI := by
  intro q hq
  simp only [WillProperties.toProps, List.mem_append, List.mem_map, Option.mem_toList] at hq
  unfold WillProperties.Admissible at hp
  try unfold OptText at hp
  try unfold OptBinary at hp
  rcases hq with ((((((⟨a, ha, rfl⟩) | ⟨a, ha, rfl⟩) | ⟨a, ha, rfl⟩) | ⟨a, ha, rfl⟩) | ⟨a, ha, rfl⟩) | ⟨a, ha, rfl⟩) | ⟨a, ha, rfl⟩
  all_goals
    first
    | exact ⟨trivial, trivial⟩
    | (refine ⟨?_, trivial⟩; simp only [Property.Admissible]; simp_all; done)
    | exact ⟨UserText.mem hp ha, trivial⟩
    | exact ⟨UserText.mem hp.1 ha, trivial⟩
    | exact ⟨UserText.mem hp.2 ha, trivial⟩
    | exact ⟨UserText.mem hp.2.1 ha, trivial⟩
    | exact ⟨UserText.mem hp.2.2 ha, trivial⟩
    | exact ⟨UserText.mem hp.2.2.1 ha, trivial⟩
    | exact ⟨UserText.mem hp.2.2.2 ha, trivial⟩

theorem ConnAckProperties.fold (p : ConnAckProperties) :
    p.toProps.foldlM ConnAckProperties.set {} = some p.received := by
  have e : p.toProps = p.toProps ++ [] := (List.append_nil _).symm
  rw [e]
  simp only [ConnAckProperties.toProps, List.append_assoc]
  refine (fold_field ConnAckProperties.set .sessionExpiryInterval
    (fun o => { sessionExpiryInterval := o }) (fun _ => rfl) _ _).trans ?_
  refine (fold_field ConnAckProperties.set .receiveMaximum
    (fun o => { sessionExpiryInterval := p.sessionExpiryInterval, receiveMaximum := o }) (fun _ => rfl) _ _).trans ?_
  refine (fold_field ConnAckProperties.set .maximumQoS
    (fun o => { sessionExpiryInterval := p.sessionExpiryInterval, receiveMaximum := p.receiveMaximum, maximumQos := o }) (fun _ => rfl) _ _).trans ?_
  refine (fold_field ConnAckProperties.set .retainAvailable
    (fun o => { sessionExpiryInterval := p.sessionExpiryInterval, receiveMaximum := p.receiveMaximum, maximumQos := p.maximumQos, retainAvailable := o }) (fun _ => rfl) _ _).trans ?_
  refine (fold_field ConnAckProperties.set .maximumPacketSize
    (fun o => { sessionExpiryInterval := p.sessionExpiryInterval, receiveMaximum := p.receiveMaximum, maximumQos := p.maximumQos, retainAvailable := p.retainAvailable, maximumPacketSize := o }) (fun _ => rfl) _ _).trans ?_
  refine (fold_field ConnAckProperties.set .assignedClientIdentifier
    (fun o => { sessionExpiryInterval := p.sessionExpiryInterval, receiveMaximum := p.receiveMaximum, maximumQos := p.maximumQos, retainAvailable := p.retainAvailable, maximumPacketSize := p.maximumPacketSize, assignedClientId := o }) (fun _ => rfl) _ _).trans ?_
  refine (fold_field ConnAckProperties.set .topicAliasMaximum
    (fun o => { sessionExpiryInterval := p.sessionExpiryInterval, receiveMaximum := p.receiveMaximum, maximumQos := p.maximumQos, retainAvailable := p.retainAvailable, maximumPacketSize := p.maximumPacketSize, assignedClientId := p.assignedClientId, topicAliasMax := o }) (fun _ => rfl) _ _).trans ?_
  refine (fold_field ConnAckProperties.set .reasonString
    (fun o => { sessionExpiryInterval := p.sessionExpiryInterval, receiveMaximum := p.receiveMaximum, maximumQos := p.maximumQos, retainAvailable := p.retainAvailable, maximumPacketSize := p.maximumPacketSize, assignedClientId := p.assignedClientId, topicAliasMax := p.topicAliasMax, reasonString := o }) (fun _ => rfl) _ _).trans ?_
  refine (fold_user ConnAckProperties.set
    (fun o => { sessionExpiryInterval := p.sessionExpiryInterval, receiveMaximum := p.receiveMaximum, maximumQos := p.maximumQos, retainAvailable := p.retainAvailable, maximumPacketSize := p.maximumPacketSize, assignedClientId := p.assignedClientId, topicAliasMax := p.topicAliasMax, reasonString := p.reasonString, userProperty := o }) (fun _ _ _ => rfl) _ _).trans ?_
  refine (fold_field ConnAckProperties.set .wildcardSubscriptionAvailable
    (fun o => { sessionExpiryInterval := p.sessionExpiryInterval, receiveMaximum := p.receiveMaximum, maximumQos := p.maximumQos, retainAvailable := p.retainAvailable, maximumPacketSize := p.maximumPacketSize, assignedClientId := p.assignedClientId, topicAliasMax := p.topicAliasMax, reasonString := p.reasonString, userProperty := receivedUser p.userProperty, wildcardSubscriptionAvailable := o }) (fun _ => rfl) _ _).trans ?_
  refine (fold_field ConnAckProperties.set .subscriptionIdentifierAvailable
    (fun o => { sessionExpiryInterval := p.sessionExpiryInterval, receiveMaximum := p.receiveMaximum, maximumQos := p.maximumQos, retainAvailable := p.retainAvailable, maximumPacketSize := p.maximumPacketSize, assignedClientId := p.assignedClientId, topicAliasMax := p.topicAliasMax, reasonString := p.reasonString, userProperty := receivedUser p.userProperty, wildcardSubscriptionAvailable := p.wildcardSubscriptionAvailable, subscriptionIdentifierAvailable := o }) (fun _ => rfl) _ _).trans ?_
  refine (fold_field ConnAckProperties.set .sharedSubscriptionAvailable
    (fun o => { sessionExpiryInterval := p.sessionExpiryInterval, receiveMaximum := p.receiveMaximum, maximumQos := p.maximumQos, retainAvailable := p.retainAvailable, maximumPacketSize := p.maximumPacketSize, assignedClientId := p.assignedClientId, topicAliasMax := p.topicAliasMax, reasonString := p.reasonString, userProperty := receivedUser p.userProperty, wildcardSubscriptionAvailable := p.wildcardSubscriptionAvailable, subscriptionIdentifierAvailable := p.subscriptionIdentifierAvailable, sharedSubscriptionAvailable := o }) (fun _ => rfl) _ _).trans ?_
  refine (fold_field ConnAckProperties.set .serverKeepAlive
    (fun o => { sessionExpiryInterval := p.sessionExpiryInterval, receiveMaximum := p.receiveMaximum, maximumQos := p.maximumQos, retainAvailable := p.retainAvailable, maximumPacketSize := p.maximumPacketSize, assignedClientId := p.assignedClientId, topicAliasMax := p.topicAliasMax, reasonString := p.reasonString, userProperty := receivedUser p.userProperty, wildcardSubscriptionAvailable := p.wildcardSubscriptionAvailable, subscriptionIdentifierAvailable := p.subscriptionIdentifierAvailable, sharedSubscriptionAvailable := p.sharedSubscriptionAvailable, serverKeepalive := o }) (fun _ => rfl) _ _).trans ?_
  refine (fold_field ConnAckProperties.set .responseInformation
    (fun o => { sessionExpiryInterval := p.sessionExpiryInterval, receiveMaximum := p.receiveMaximum, maximumQos := p.maximumQos, retainAvailable := p.retainAvailable, maximumPacketSize := p.maximumPacketSize, assignedClientId := p.assignedClientId, topicAliasMax := p.topicAliasMax, reasonString := p.reasonString, userProperty := receivedUser p.userProperty, wildcardSubscriptionAvailable := p.wildcardSubscriptionAvailable, subscriptionIdentifierAvailable := p.subscriptionIdentifierAvailable, sharedSubscriptionAvailable := p.sharedSubscriptionAvailable, serverKeepalive := p.serverKeepalive, responseInformation := o }) (fun _ => rfl) _ _).trans ?_
  refine (fold_field ConnAckProperties.set .serverReference
    (fun o => { sessionExpiryInterval := p.sessionExpiryInterval, receiveMaximum := p.receiveMaximum, maximumQos := p.maximumQos, retainAvailable := p.retainAvailable, maximumPacketSize := p.maximumPacketSize, assignedClientId := p.assignedClientId, topicAliasMax := p.topicAliasMax, reasonString := p.reasonString, userProperty := receivedUser p.userProperty, wildcardSubscriptionAvailable := p.wildcardSubscriptionAvailable, subscriptionIdentifierAvailable := p.subscriptionIdentifierAvailable, sharedSubscriptionAvailable := p.sharedSubscriptionAvailable, serverKeepalive := p.serverKeepalive, responseInformation := p.responseInformation, serverReference := o }) (fun _ => rfl) _ _).trans ?_
  refine (fold_field ConnAckProperties.set .authenticationMethod
    (fun o => { sessionExpiryInterval := p.sessionExpiryInterval, receiveMaximum := p.receiveMaximum, maximumQos := p.maximumQos, retainAvailable := p.retainAvailable, maximumPacketSize := p.maximumPacketSize, assignedClientId := p.assignedClientId, topicAliasMax := p.topicAliasMax, reasonString := p.reasonString, userProperty := receivedUser p.userProperty, wildcardSubscriptionAvailable := p.wildcardSubscriptionAvailable, subscriptionIdentifierAvailable := p.subscriptionIdentifierAvailable, sharedSubscriptionAvailable := p.sharedSubscriptionAvailable, serverKeepalive := p.serverKeepalive, responseInformation := p.responseInformation, serverReference := p.serverReference, authenticationMethod := o }) (fun _ => rfl) _ _).trans ?_
  refine (fold_field ConnAckProperties.set .authenticationData
    (fun o => { sessionExpiryInterval := p.sessionExpiryInterval, receiveMaximum := p.receiveMaximum, maximumQos := p.maximumQos, retainAvailable := p.retainAvailable, maximumPacketSize := p.maximumPacketSize, assignedClientId := p.assignedClientId, topicAliasMax := p.topicAliasMax, reasonString := p.reasonString, userProperty := receivedUser p.userProperty, wildcardSubscriptionAvailable := p.wildcardSubscriptionAvailable, subscriptionIdentifierAvailable := p.subscriptionIdentifierAvailable, sharedSubscriptionAvailable := p.sharedSubscriptionAvailable, serverKeepalive := p.serverKeepalive, responseInformation := p.responseInformation, serverReference := p.serverReference, authenticationMethod := p.authenticationMethod, authenticationData := o }) (fun _ => rfl) _ _).trans ?_
  rfl

theorem ConnAckProperties.Admissible.props {p : ConnAckProperties} (hp : p.Admissible) :
    ∀ q ∈ p.toProps, q.Admissible ∧ q.NotRRI := by
  intro q hq
  simp only [ConnAckProperties.toProps, List.mem_append, List.mem_map, Option.mem_toList] at hq
  unfold ConnAckProperties.Admissible at hp
  try unfold OptText at hp
  try unfold OptBinary at hp
  rcases hq with ((((((((((((((((⟨a, ha, rfl⟩) | ⟨a, ha, rfl⟩) | ⟨a, ha, rfl⟩) | ⟨a, ha, rfl⟩) | ⟨a, ha, rfl⟩) | ⟨a, ha, rfl⟩) | ⟨a, ha, rfl⟩) | ⟨a, ha, rfl⟩) | ⟨a, ha, rfl⟩) | ⟨a, ha, rfl⟩) | ⟨a, ha, rfl⟩) | ⟨a, ha, rfl⟩) | ⟨a, ha, rfl⟩) | ⟨a, ha, rfl⟩) | ⟨a, ha, rfl⟩) | ⟨a, ha, rfl⟩) | ⟨a, ha, rfl⟩
  all_goals
    first
    | exact ⟨trivial, trivial⟩
    | (refine ⟨?_, trivial⟩; simp only [Property.Admissible]; simp_all; done)
    | exact ⟨UserText.mem hp ha, trivial⟩
    | exact ⟨UserText.mem hp.1 ha, trivial⟩
    | exact ⟨UserText.mem hp.2 ha, trivial⟩
    | exact ⟨UserText.mem hp.2.1 ha, trivial⟩
    | exact ⟨UserText.mem hp.2.2 ha, trivial⟩
    | exact ⟨UserText.mem hp.2.2.1 ha, trivial⟩
    | exact ⟨UserText.mem hp.2.2.2 ha, trivial⟩

theorem PublishProperties.fold (p : PublishProperties) :
    p.toProps.foldlM PublishProperties.set {} = some p.received := by
  have e : p.toProps = p.toProps ++ [] := (List.append_nil _).symm
  rw [e]
  simp only [PublishProperties.toProps, List.append_assoc]
  refine (fold_field PublishProperties.set .payloadFormatIndicator
    (fun o => { payloadFormatIndicator := o }) (fun _ => rfl) _ _).trans ?_
  refine (fold_field PublishProperties.set .messageExpiryInterval
    (fun o => { payloadFormatIndicator := p.payloadFormatIndicator, messageExpiryInterval := o }) (fun _ => rfl) _ _).trans ?_
  refine (fold_field PublishProperties.set .topicAlias
    (fun o => { payloadFormatIndicator := p.payloadFormatIndicator, messageExpiryInterval := p.messageExpiryInterval, topicAlias := o }) (fun _ => rfl) _ _).trans ?_
  refine (fold_field PublishProperties.set .responseTopic
    (fun o => { payloadFormatIndicator := p.payloadFormatIndicator, messageExpiryInterval := p.messageExpiryInterval, topicAlias := p.topicAlias, responseTopic := o }) (fun _ => rfl) _ _).trans ?_
  refine (fold_field PublishProperties.set .correlationData
    (fun o => { payloadFormatIndicator := p.payloadFormatIndicator, messageExpiryInterval := p.messageExpiryInterval, topicAlias := p.topicAlias, responseTopic := p.responseTopic, correlationData := o }) (fun _ => rfl) _ _).trans ?_
  refine (fold_user PublishProperties.set
    (fun o => { payloadFormatIndicator := p.payloadFormatIndicator, messageExpiryInterval := p.messageExpiryInterval, topicAlias := p.topicAlias, responseTopic := p.responseTopic, correlationData := p.correlationData, userProperty := o }) (fun _ _ _ => rfl) _ _).trans ?_
  refine (fold_field PublishProperties.set .subscriptionIdentifier
    (fun o => { payloadFormatIndicator := p.payloadFormatIndicator, messageExpiryInterval := p.messageExpiryInterval, topicAlias := p.topicAlias, responseTopic := p.responseTopic, correlationData := p.correlationData, userProperty := receivedUser p.userProperty, subscriptionIdentifier := o }) (fun _ => rfl) _ _).trans ?_
  refine (fold_field PublishProperties.set .contentType
    (fun o => { payloadFormatIndicator := p.payloadFormatIndicator, messageExpiryInterval := p.messageExpiryInterval, topicAlias := p.topicAlias, responseTopic := p.responseTopic, correlationData := p.correlationData, userProperty := receivedUser p.userProperty, subscriptionIdentifier := p.subscriptionIdentifier, contentType := o }) (fun _ => rfl) _ _).trans ?_
  rfl

theorem PublishProperties.Admissible.props {p : PublishProperties} (hp : p.Admissible) :
    ∀ q ∈ p.toProps, q.Admissible ∧ q.NotRRI := by
  intro q hq
  simp only [PublishProperties.toProps, List.mem_append, List.mem_map, Option.mem_toList] at hq
  unfold PublishProperties.Admissible at hp
  try unfold OptText at hp
  try unfold OptBinary at hp
  rcases hq with (((((((⟨a, ha, rfl⟩) | ⟨a, ha, rfl⟩) | ⟨a, ha, rfl⟩) | ⟨a, ha, rfl⟩) | ⟨a, ha, rfl⟩) | ⟨a, ha, rfl⟩) | ⟨a, ha, rfl⟩) | ⟨a, ha, rfl⟩
  all_goals
    first
    | exact ⟨trivial, trivial⟩
    | (refine ⟨?_, trivial⟩; simp only [Property.Admissible]; simp_all; done)
    | exact ⟨UserText.mem hp ha, trivial⟩
    | exact ⟨UserText.mem hp.1 ha, trivial⟩
    | exact ⟨UserText.mem hp.2 ha, trivial⟩
    | exact ⟨UserText.mem hp.2.1 ha, trivial⟩
    | exact ⟨UserText.mem hp.2.2 ha, trivial⟩
    | exact ⟨UserText.mem hp.2.2.1 ha, trivial⟩
    | exact ⟨UserText.mem hp.2.2.2 ha, trivial⟩

theorem AckProperties.fold (p : AckProperties) :
    p.toProps.foldlM AckProperties.set {} = some p.received := by
  have e : p.toProps = p.toProps ++ [] := (List.append_nil _).symm
  rw [e]
  simp only [AckProperties.toProps, List.append_assoc]
  refine (fold_field AckProperties.set .reasonString
    (fun o => { reasonString := o }) (fun _ => rfl) _ _).trans ?_
  refine (fold_user AckProperties.set
    (fun o => { reasonString := p.reasonString, userProperty := o }) (fun _ _ _ => rfl) _ _).trans ?_
  rfl

theorem AckProperties.Admissible.props {p : AckProperties} (hp : p.Admissible) :
    ∀ q ∈ p.toProps, q.Admissible ∧ q.NotRRI := by
  intro q hq
  simp only [AckProperties.toProps, List.mem_append, List.mem_map, Option.mem_toList] at hq
  unfold AckProperties.Admissible at hp
  try unfold OptText at hp
  try unfold OptBinary at hp
  rcases hq with (⟨a, ha, rfl⟩) | ⟨a, ha, rfl⟩
  all_goals
    first
    | exact ⟨trivial, trivial⟩
    | (refine ⟨?_, trivial⟩; simp only [Property.Admissible]; simp_all; done)
    | exact ⟨UserText.mem hp ha, trivial⟩
    | exact ⟨UserText.mem hp.1 ha, trivial⟩
    | exact ⟨UserText.mem hp.2 ha, trivial⟩
    | exact ⟨UserText.mem hp.2.1 ha, trivial⟩
    | exact ⟨UserText.mem hp.2.2 ha, trivial⟩
    | exact ⟨UserText.mem hp.2.2.1 ha, trivial⟩
    | exact ⟨UserText.mem hp.2.2.2 ha, trivial⟩

theorem SubscribeProperties.fold (p : SubscribeProperties) :
    p.toProps.foldlM SubscribeProperties.set {} = some p.received := by
  have e : p.toProps = p.toProps ++ [] := (List.append_nil _).symm
  rw [e]
  simp only [SubscribeProperties.toProps, List.append_assoc]
  refine (fold_field SubscribeProperties.set .subscriptionIdentifier
    (fun o => { subscriptionId := o }) (fun _ => rfl) _ _).trans ?_
  refine (fold_user SubscribeProperties.set
    (fun o => { subscriptionId := p.subscriptionId, userProperty := o }) (fun _ _ _ => rfl) _ _).trans ?_
  rfl

theorem SubscribeProperties.Admissible.props {p : SubscribeProperties} (hp : p.Admissible) :
    ∀ q ∈ p.toProps, q.Admissible ∧ q.NotRRI := by
  intro q hq
  simp only [SubscribeProperties.toProps, List.mem_append, List.mem_map, Option.mem_toList] at hq
  unfold SubscribeProperties.Admissible at hp
  try unfold OptText at hp
  try unfold OptBinary at hp
  rcases hq with (⟨a, ha, rfl⟩) | ⟨a, ha, rfl⟩
  all_goals
    first
    | exact ⟨trivial, trivial⟩
    | (refine ⟨?_, trivial⟩; simp only [Property.Admissible]; simp_all; done)
    | exact ⟨UserText.mem hp ha, trivial⟩
    | exact ⟨UserText.mem hp.1 ha, trivial⟩
    | exact ⟨UserText.mem hp.2 ha, trivial⟩
    | exact ⟨UserText.mem hp.2.1 ha, trivial⟩
    | exact ⟨UserText.mem hp.2.2 ha, trivial⟩
    | exact ⟨UserText.mem hp.2.2.1 ha, trivial⟩
    | exact ⟨UserText.mem hp.2.2.2 ha, trivial⟩

set_option linter.unusedSimpArgs false in
theorem UnsubscribeProperties.fold (p : UnsubscribeProperties) :
    p.toProps.foldlM UnsubscribeProperties.set {} = some p.received := by
  have e : p.toProps = p.toProps ++ [] := (List.append_nil _).symm
  rw [e]
  simp only [UnsubscribeProperties.toProps, List.append_assoc]
  refine (fold_user UnsubscribeProperties.set
    (fun o => { userProperty := o }) (fun _ _ _ => rfl) _ _).trans ?_
  rfl

set_option linter.unusedSimpArgs false in
theorem UnsubscribeProperties.Admissible.props {p : UnsubscribeProperties} (hp : p.Admissible) :
    ∀ q ∈ p.toProps, q.Admissible ∧ q.NotRRI := by
  intro q hq
  simp only [UnsubscribeProperties.toProps, List.mem_append, List.mem_map, Option.mem_toList] at hq
  unfold UnsubscribeProperties.Admissible at hp
  try unfold OptText at hp
  try unfold OptBinary at hp
  rcases hq with ⟨a, ha, rfl⟩
  all_goals
    first
    | exact ⟨trivial, trivial⟩
    | (refine ⟨?_, trivial⟩; simp only [Property.Admissible]; simp_all; done)
    | exact ⟨UserText.mem hp ha, trivial⟩
    | exact ⟨UserText.mem hp.1 ha, trivial⟩
    | exact ⟨UserText.mem hp.2 ha, trivial⟩
    | exact ⟨UserText.mem hp.2.1 ha, trivial⟩
    | exact ⟨UserText.mem hp.2.2 ha, trivial⟩
    | exact ⟨UserText.mem hp.2.2.1 ha, trivial⟩
    | exact ⟨UserText.mem hp.2.2.2 ha, trivial⟩

theorem DisconnectProperties.Admissible.props {p : DisconnectProperties} (hp : p.Admissible) :
    ∀ q ∈ p.toProps, q.Admissible ∧ q.NotRRI := by
  intro q hq
  simp only [DisconnectProperties.toProps, List.mem_append, List.mem_map, Option.mem_toList] at hq
  unfold DisconnectProperties.Admissible at hp
  try unfold OptText at hp
  try unfold OptBinary at hp
  rcases hq with (((⟨a, ha, rfl⟩) | ⟨a, ha, rfl⟩) | ⟨a, ha, rfl⟩) | ⟨a, ha, rfl⟩
  all_goals
    first
    | exact ⟨trivial, trivial⟩
    | (refine ⟨?_, trivial⟩; simp only [Property.Admissible]; simp_all; done)
    | exact ⟨UserText.mem hp ha, trivial⟩
    | exact ⟨UserText.mem hp.1 ha, trivial⟩
    | exact ⟨UserText.mem hp.2 ha, trivial⟩
    | exact ⟨UserText.mem hp.2.1 ha, trivial⟩
    | exact ⟨UserText.mem hp.2.2 ha, trivial⟩
    | exact ⟨UserText.mem hp.2.2.1 ha, trivial⟩
    | exact ⟨UserText.mem hp.2.2.2 ha, trivial⟩

theorem AuthProperties.Admissible.props {p : AuthProperties} (hp : p.Admissible) :
    ∀ q ∈ p.toProps, q.Admissible ∧ q.NotRRI := by
  intro q hq
  simp only [AuthProperties.toProps, List.mem_append, List.mem_map, Option.mem_toList] at hq
  unfold AuthProperties.Admissible at hp
  try unfold OptText at hp
  try unfold OptBinary at hp
  rcases hq with (((⟨a, ha, rfl⟩) | ⟨a, ha, rfl⟩) | ⟨a, ha, rfl⟩) | ⟨a, ha, rfl⟩
  all_goals
    first
    | exact ⟨trivial, trivial⟩
    | (refine ⟨?_, trivial⟩; simp only [Property.Admissible]; simp_all; done)
    | exact ⟨UserText.mem hp ha, trivial⟩
    | exact ⟨UserText.mem hp.1 ha, trivial⟩
    | exact ⟨UserText.mem hp.2 ha, trivial⟩
    | exact ⟨UserText.mem hp.2.1 ha, trivial⟩
    | exact ⟨UserText.mem hp.2.2 ha, trivial⟩
    | exact ⟨UserText.mem hp.2.2.1 ha, trivial⟩
    | exact ⟨UserText.mem hp.2.2.2 ha, trivial⟩

end Mercurio
