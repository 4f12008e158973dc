import Verif.Props.Topic
import Verif.Props.Storage
import Verif.Model.Race

/-!
# C26, C28–C31: retained messages, races, and subscription channels
-/

namespace Mercurio

open Spec

theorem topicMatches_iff (f t : Str) (hf : ValidFilter f) :
    topicMatchesFilter t (splitLevels f) = true ↔ Matches f t := by
  rw [matches_iff]
  exact matchLoop_iff _ _ (fun i hi he =>
    ((hf.hash _ (isLevels_split f) i hi (by rw [he]; simp [hashLevel]))).2)

/-! ## C26: retained lookup and live routing agree -/

/-- C26: with any stored data, any earlier operations on the tree, a valid filter and a valid
topic: the retained lookup finds what is stored under the topic iff a live publication to the
topic reaches a subscription with that filter. -/
theorem C26_agree (before : List (TreeOp Message)) (f t : Str) (hf : ValidFilter f)
    (ht : ValidTopic t) (m : Message) :
    (topicMatchesFilter t (splitLevels f) = true ↔ Matches f t) ∧
    (topicMatchesFilter t (splitLevels f) = true ↔
      let s := TopicTree.subscribe (TreeOp.run TopicTree.new before) f
      pending (TopicTree.publish s.1 t m) s.2 = [m]) ∧
    (¬ topicMatchesFilter t (splitLevels f) = true ↔
      let s := TopicTree.subscribe (TreeOp.run TopicTree.new before) f
      pending (TopicTree.publish s.1 t m) s.2 = []) := by
  have h := C24_one before [] f t m (by simp [publications]) ht
  have h0 := C24_routing before [] f (by simp [publications])
  simp only [TreeOp.run, List.foldl_nil, publications] at h h0
  rw [h0] at h
  have e : Spec.matching f ([] : List (Str × Message)) = [] := rfl
  rw [e] at h
  simp only [topicMatches_iff f t hf]
  simp only [TreeOp.run]
  by_cases hm : Matches f t
  · simp [hm] at h; simp [hm, h]
  · simp [hm] at h; simp [hm, h]

example (m : Message) := C26_agree [.subscribe (str "a/b"), .publish (str "a/c") m] (str "a/+") (str "a/b")
  ((C23_filter_iff _).mp (by decide +kernel)) ((C22_publish_topic_iff _).mp (by decide +kernel)) m

/-- C26 as seen through the broker: on a fresh broker, a retained publication is given to a later
subscriber iff it would be given live to an earlier one. -/
theorem C26_broker (f t : Str) (hf : ValidFilter f) (ht : ValidTopic t) (m : Message)
    (hm : m.retain = true) (hp : hasPayload m = true) :
    let b : Broker := ⟨TopicTree.new, MemoryStore.new⟩
    let late := (b.publish t m).subscribe f
    let early := b.subscribe f
    pending (early.1.publish t m).tree early.2.1 = late.2.2 := by
  intro b late early
  have h := (C26_agree [] f t hf ht m)
  simp only [TreeOp.run, List.foldl_nil] at h
  have hs : Broker.publishStore MemoryStore.new t m =
      ⟨[], [(t, { m with retain := false })], [], []⟩ := by
    unfold Broker.publishStore
    rw [if_pos hm]
    unfold hasPayload at hp
    cases hpl : m.payload with
    | none => simp [hpl] at hp
    | some p =>
      cases p with
      | nil => simp [hpl] at hp
      | cons a p => simp [Broker.noPayload, hpl, MemoryStore.storeRetained, MemoryStore.new, Map.insert, Map.erase]
  have hl : late.2.2 = if topicMatchesFilter t (splitLevels f) then [m] else [] := by
    show (Broker.publishStore MemoryStore.new t m).getRetained f = _
    rw [hs]
    unfold MemoryStore.getRetained
    by_cases hmt : topicMatchesFilter t (splitLevels f) = true
    · simp [hmt, ← hm]
    · simp [hmt]
  rw [hl]
  by_cases hmt : topicMatchesFilter t (splitLevels f) = true
  · rw [if_pos hmt]; exact h.2.1.mp hmt
  · rw [if_neg hmt]; exact h.2.2.mp hmt

example := C26_broker (str "a/+") (str "a/b") ((C23_filter_iff _).mp (by decide +kernel))
  ((C22_publish_topic_iff _).mp (by decide +kernel))
  { packetId := none, topic := str "a/b", dup := false, qos := .atMostOnce, retain := true, payload := some [1] } rfl rfl

/-! ## C28, C29: retained messages -/

/-- One call on the broker by any client. -/
inductive BrokerOp where
  | publish (topic : Str) (m : Message)
  | subscribe (filter : Str)

/-- The broker after a call. -/
def BrokerOp.apply (b : Broker) : BrokerOp → Broker
  | .publish t m => b.publish t m
  | .subscribe f => (b.subscribe f).1

/-- A new broker after a sequence of calls. -/
def BrokerOp.run (ops : List BrokerOp) : Broker :=
  ops.foldl BrokerOp.apply ⟨TopicTree.new, MemoryStore.new⟩

/-- The publications made by a sequence of calls. -/
def BrokerOp.publications : List BrokerOp → List (Str × Message)
  | [] => []
  | .publish t m :: ops => (t, m) :: publications ops
  | .subscribe _ :: ops => publications ops

theorem BrokerOp.publications_append (a b : List BrokerOp) :
    publications (a ++ b) = publications a ++ publications b := by
  induction a with
  | nil => rfl
  | cons op ops ih => cases op <;> simp [publications, ih]

/-- The retained part of a store after the storage steps of publications. -/
structure RetainedIs (s : MemoryStore) (pubs : List (Str × Message)) : Prop where
  nodup : s.retained.keys.Nodup
  get : ∀ t, s.retained.get t = (retainedOf t pubs).map fun m => { m with retain := false }

theorem RetainedIs.publish {s : MemoryStore} {pubs : List (Str × Message)} (h : RetainedIs s pubs)
    (t : Str) (m : Message) : RetainedIs (Broker.publishStore s t m) (pubs ++ [(t, m)]) := by
  unfold Broker.publishStore
  by_cases hr : m.retain = true
  · rw [if_pos hr]
    have he : Broker.noPayload m = !hasPayload m := by
      unfold hasPayload Broker.noPayload
      cases m.payload with
      | none => rfl
      | some p => cases p <;> rfl
    rw [he]
    cases hp : hasPayload m with
    | true =>
      simp only [Bool.not_true, Bool.false_eq_true, if_false, MemoryStore.storeRetained]
      refine ⟨Map.nodup_insert _ _ _ h.nodup, fun t' => ?_⟩
      simp only [Map.get_insert, retainedOf, lastWith_snoc]
      by_cases ht : t = t'
      · simp [ht, hr, hp]
      · simp only [ht, false_and, decide_false, if_false, Bool.false_eq_true]
        exact h.get t'
    | false =>
      simp only [Bool.not_false, if_true, MemoryStore.storeRetained]
      refine ⟨Map.nodup_erase _ _ h.nodup, fun t' => ?_⟩
      simp only [Map.get_erase, retainedOf, lastWith_snoc]
      by_cases ht : t = t'
      · simp [ht, hr, hp]
      · simp only [ht, false_and, decide_false, if_false, Bool.false_eq_true]
        exact h.get t'
  · rw [if_neg hr]
    refine ⟨h.nodup, fun t' => ?_⟩
    simp only [retainedOf, lastWith_snoc, hr, and_false, decide_false, if_false, Bool.false_eq_true]
    exact h.get t'

theorem RetainedIs.new : RetainedIs MemoryStore.new [] :=
  ⟨by simp [MemoryStore.new, Map.keys], fun _ => rfl⟩

theorem broker_retained (ops : List BrokerOp) :
    RetainedIs (BrokerOp.run ops).store (BrokerOp.publications ops) := by
  induction ops using snoc_induction with
  | h0 => exact RetainedIs.new
  | hs l a ih =>
    rw [BrokerOp.publications_append]
    have : BrokerOp.run (l ++ [a]) = BrokerOp.apply (BrokerOp.run l) a := by simp [BrokerOp.run]
    rw [this]
    cases a with
    | publish t m => exact ih.publish t m
    | subscribe f =>
      simp only [BrokerOp.publications, List.append_nil]; exact ih

theorem retainedOf_retain {t : Str} {pubs : List (Str × Message)} {m : Message}
    (h : retainedOf t pubs = some m) : m.retain = true := by
  unfold retainedOf lastWith at h
  cases hf : pubs.reverse.find? (fun p => p.1 = t ∧ p.2.retain = true) with
  | none => simp only [hf] at h; cases h
  | some p =>
    have := List.find?_some hf
    simp only [hf] at h
    simp only [decide_eq_true_eq] at this
    split at h
    · simp only [Option.some.injEq] at h; rw [← h]; exact this.2
    · simp at h

/-- What a lookup gives, given what is stored. -/
theorem RetainedIs.lookup {s : MemoryStore} {pubs : List (Str × Message)} (h : RetainedIs s pubs)
    (f : Str) (hf : ValidFilter f) :
    ∃ topics : List Str, topics.Nodup ∧
      (∀ t, t ∈ topics ↔ Matches f t ∧ (retainedOf t pubs).isSome) ∧
      s.getRetained f = topics.filterMap fun t => retainedOf t pubs := by
  have hnd := h.nodup
  have hmem : ∀ e ∈ s.retained, ∃ m, retainedOf e.1 pubs = some m ∧
      ({ e.2 with retain := true } : Message) = m := by
    intro e he
    have := (Map.mem_iff_get _ hnd e.1 e.2).mp he
    rw [h.get] at this
    cases hr : retainedOf e.1 pubs with
    | none => simp [hr] at this
    | some m =>
      simp only [hr, Option.map_some, Option.some.injEq] at this
      refine ⟨m, rfl, ?_⟩
      rw [← this, ← retainedOf_retain hr]
  refine ⟨(s.retained.filter fun e => topicMatchesFilter e.1 (splitLevels f)).map Prod.fst,
    ?_, fun t => ?_, ?_⟩
  · have : ((s.retained.filter fun e => topicMatchesFilter e.1 (splitLevels f)).map Prod.fst) =
        s.retained.keys.filter (fun t => topicMatchesFilter t (splitLevels f)) := by
      rw [Map.keys, List.filter_map]; rfl
    rw [this]; exact hnd.filter _
  · rw [List.mem_map]
    constructor
    · rintro ⟨⟨t', m⟩, he, rfl⟩
      rw [List.mem_filter] at he
      obtain ⟨m', hm', _⟩ := hmem _ he.1
      exact ⟨(topicMatches_iff _ _ hf).mp he.2, by simp only [hm']; rfl⟩
    · rintro ⟨hm, hs⟩
      obtain ⟨m, hm'⟩ := Option.isSome_iff_exists.mp hs
      have := h.get t
      rw [hm'] at this
      exact ⟨(t, _), List.mem_filter.mpr ⟨(Map.mem_iff_get _ hnd _ _).mpr this,
        (topicMatches_iff _ _ hf).mpr hm⟩, rfl⟩
  · simp only [MemoryStore.getRetained]
    have : ∀ l : Map Str Message, (∀ e ∈ l, e ∈ s.retained) →
        l.map (fun e => { e.2 with retain := true }) =
          (l.map Prod.fst).filterMap fun t => retainedOf t pubs := by
      intro l
      induction l with
      | nil => intro _; rfl
      | cons e l ih =>
        intro hl
        obtain ⟨m, hm, he⟩ := hmem e (hl e (by simp))
        simp only [List.map_cons, List.filterMap_cons, hm, he]
        rw [ih (fun x hx => hl x (by simp [hx]))]
    exact this _ (fun e he => (List.mem_filter.mp he).1)

/-- C29: after any calls, a new subscriber with a valid filter is given exactly one message for
each topic that has a retained message and that the filter matches, and it is the retained
publication itself: same topic, payload, QoS, with the retain flag. -/
theorem C29_subscriber_gets_retained (ops : List BrokerOp) (f : Str) (hf : ValidFilter f) :
    ∃ topics : List Str, topics.Nodup ∧
      (∀ t, t ∈ topics ↔ Matches f t ∧ (retainedOf t (BrokerOp.publications ops)).isSome) ∧
      ((BrokerOp.run ops).subscribe f).2.2 =
        topics.filterMap fun t => retainedOf t (BrokerOp.publications ops) :=
  (broker_retained ops).lookup f hf

/-- C29: everything a new subscriber is given is marked as retained and has a payload. -/
theorem C29_marked (ops : List BrokerOp) (f : Str) (hf : ValidFilter f) (m : Message)
    (h : m ∈ ((BrokerOp.run ops).subscribe f).2.2) : m.retain = true ∧ hasPayload m = true := by
  obtain ⟨ts, _, _, he⟩ := C29_subscriber_gets_retained ops f hf
  rw [he, List.mem_filterMap] at h
  obtain ⟨t, _, ht⟩ := h
  refine ⟨retainedOf_retain ht, ?_⟩
  unfold retainedOf at ht
  split at ht
  · split at ht
    · simp only [Option.some.injEq] at ht; rw [← ht]; assumption
    · simp at ht
  · simp at ht

/-- C28: after any calls, subscribing to exactly a topic gives its retained message: the last
publication to the topic with the retain flag if that one had a payload, otherwise nothing. -/
theorem C28_last_retained (ops : List BrokerOp) (t : Str) (ht : ValidTopic t) :
    ((BrokerOp.run ops).subscribe t).2.2 = (retainedOf t (BrokerOp.publications ops)).toList := by
  obtain ⟨hf, hm⟩ := C23_topic_is_filter t ht
  obtain ⟨ts, hnd, hts, he⟩ := C29_subscriber_gets_retained ops t hf
  rw [he]
  cases hr : retainedOf t (BrokerOp.publications ops) with
  | none =>
    have : ts = [] := by
      apply List.eq_nil_iff_forall_not_mem.mpr
      intro x hx
      obtain ⟨a, b⟩ := (hts x).mp hx
      have : t = x := (hm x).mp a
      rw [← this, hr] at b; simp at b
    simp [this]
  | some m =>
    have h1 : t ∈ ts := (hts t).mpr ⟨(hm t).mpr rfl, by simp [hr]⟩
    have h2 : ∀ x ∈ ts, x = t := fun x hx => ((hm x).mp ((hts x).mp hx).1).symm
    have : ts = [t] := by
      cases ts with
      | nil => simp at h1
      | cons a ts =>
        have ha := h2 a (by simp)
        subst ha
        cases ts with
        | nil => rfl
        | cons b ts =>
          have hb := h2 b (by simp)
          subst hb
          simp at hnd
    simp [this, hr]

/-- C28: a publication without the flag, or to another topic, changes no retained message. -/
theorem C28_unchanged (ops : List BrokerOp) (t t' : Str) (m : Message) (ht : ValidTopic t)
    (h : t' ≠ t ∨ m.retain = false) :
    ((BrokerOp.run (ops ++ [.publish t' m])).subscribe t).2.2 =
      ((BrokerOp.run ops).subscribe t).2.2 := by
  rw [C28_last_retained _ _ ht, C28_last_retained _ _ ht, BrokerOp.publications_append]
  have : retainedOf t (BrokerOp.publications ops ++ BrokerOp.publications [.publish t' m]) =
      retainedOf t (BrokerOp.publications ops) := by
    simp only [BrokerOp.publications, retainedOf, lastWith_snoc]
    rcases h with h | h
    · simp [h]
    · simp [h]
  rw [this]

/-- A retained publication used in examples. -/
def sampleRetained : Message :=
  ⟨none, str "a/b", false, .atLeastOnce, true, some (str "22")⟩

example : ValidTopic (str "a/b") ∧ hasPayload sampleRetained = true ∧
    retainedOf (str "a/b") [(str "a/b", sampleRetained), (str "a/c", sampleRetained)] =
      some sampleRetained := by
  refine ⟨?_, by decide +kernel, by decide +kernel⟩
  rw [← C22_publish_topic_iff]; decide +kernel

/-! ## C30: retained publications racing with subscriptions -/

namespace Race

/-- The storage steps in an interleaving. -/
def stored : List Event → List (Str × Message)
  | [] => []
  | .pubStore _ t m :: es => (t, m) :: stored es
  | _ :: es => stored es

theorem stored_append (a b : List Event) : stored (a ++ b) = stored a ++ stored b := by
  induction a with
  | nil => rfl
  | cons e es ih => cases e <;> simp [stored, ih]

theorem run_append (s : State) (a b : List Event) :
    run s (a ++ b) = (run s a).bind fun s' => run s' b := by
  induction a generalizing s with
  | nil => rfl
  | cons e es ih =>
    simp only [List.cons_append, run]
    cases step s e with
    | none => rfl
    | some s' => exact ih s'

/-- Facts about the state after an interleaving. -/
structure Inv (es : List Event) (s : State) : Prop where
  store : RetainedIs s.store (stored es)
  pubs : ∀ p pub, s.pubs.get p = some pub → .pubStore p pub.topic pub.message ∈ es

theorem inv_run (es : List Event) : ∀ s, run init es = some s → Inv es s := by
  induction es using snoc_induction with
  | h0 => intro s h; simp [run] at h; subst h; exact ⟨RetainedIs.new, by simp [init, Map.get]⟩
  | hs es e ih =>
    intro s h
    rw [run_append] at h
    cases h0 : run init es with
    | none => simp [h0] at h
    | some s0 =>
      have hi := ih s0 h0
      have pubs' : ∀ p pub, s0.pubs.get p = some pub →
          Event.pubStore p pub.topic pub.message ∈ es ++ [e] :=
        fun p pub hp => List.mem_append_left _ (hi.pubs p pub hp)
      simp only [h0, Option.bind_some, run] at h
      cases hs : step s0 e with
      | none => simp [hs] at h
      | some s1 =>
        simp only [hs, Option.some.injEq] at h
        subst h
        cases e with
        | subTree q f =>
          simp only [step] at hs
          split at hs
          · simp at hs
          · simp only [Option.some.injEq] at hs; subst hs
            exact ⟨by simpa [stored_append, stored] using hi.store, pubs'⟩
        | subRead q =>
          simp only [step] at hs
          split at hs
          · simp only [Option.some.injEq] at hs; subst hs
            exact ⟨by simpa [stored_append, stored] using hi.store, pubs'⟩
          · simp at hs
        | pubStore p t m =>
          simp only [step] at hs
          split at hs
          · simp at hs
          · simp only [Option.some.injEq] at hs; subst hs
            refine ⟨by simpa [stored_append, stored] using hi.store.publish t m, ?_⟩
            intro p' pub hp
            simp only [Map.get_insert] at hp
            by_cases hpp : p = p'
            · simp only [hpp, if_true, Option.some.injEq] at hp
              subst hp; subst hpp; simp
            · rw [if_neg hpp] at hp; exact pubs' _ _ hp
        | pubRoute p =>
          simp only [step] at hs
          split at hs
          · rename_i t m hg
            simp only [Option.some.injEq] at hs; subst hs
            refine ⟨by simpa [stored_append, stored] using hi.store, ?_⟩
            intro p' pub hp
            simp only [Map.get_insert] at hp
            by_cases hpp : p = p'
            · simp only [hpp, if_true, Option.some.injEq] at hp
              subst hp; subst hpp
              have := pubs' _ _ hg
              exact this
            · rw [if_neg hpp] at hp; exact pubs' _ _ hp
          · simp at hs

/-- Steps never remove messages from channels, and never move or forget a subscription. -/
theorem step_mono {s s' : State} {e : Event} (h : step s e = some s') :
    (∀ path l, TopicNode.sentAt s.tree path = some l →
      ∃ l', TopicNode.sentAt s'.tree path = some (l ++ l')) ∧
    (∀ q sub, s.subs.get q = some sub → ∃ sub', s'.subs.get q = some sub' ∧
      sub'.filter = sub.filter ∧ sub'.receiver = sub.receiver ∧
      (∀ x, sub.retained = some x → sub'.retained = some x)) ∧
    (∀ p pub, s.pubs.get p = some pub → ∃ pub', s'.pubs.get p = some pub' ∧
      pub'.topic = pub.topic ∧ pub'.message = pub.message) := by
  cases e with
  | subTree q f =>
    simp only [step] at h
    split at h
    · simp at h
    · rename_i hq
      simp only [Option.some.injEq] at h; subst h
      refine ⟨fun path l hl => ⟨[], ?_⟩, fun q' sub hs => ?_, fun p pub hp => ⟨pub, hp, rfl, rfl⟩⟩
      · rw [List.append_nil]; exact TopicNode.sentAt_ensure s.tree (splitLevels f) path l hl
      · refine ⟨sub, ?_, rfl, rfl, fun _ h => h⟩
        simp only [Map.get_insert]
        by_cases hqq : q = q'
        · subst hqq; rw [hq] at hs; simp at hs
        · rw [if_neg hqq]; exact hs
  | subRead q =>
    simp only [step] at h
    split at h
    · rename_i f r hq
      simp only [Option.some.injEq] at h; subst h
      refine ⟨fun path l hl => ⟨[], by simpa using hl⟩, fun q' sub hs => ?_,
        fun p pub hp => ⟨pub, hp, rfl, rfl⟩⟩
      simp only [Map.get_insert]
      by_cases hqq : q = q'
      · subst hqq
        rw [hq] at hs
        simp only [Option.some.injEq] at hs; subst hs
        exact ⟨_, if_pos rfl, rfl, rfl, by simp⟩
      · exact ⟨sub, by rw [if_neg hqq]; exact hs, rfl, rfl, fun _ h => h⟩
    · simp at h
  | pubStore p t m =>
    simp only [step] at h
    split at h
    · simp at h
    · rename_i hp0
      simp only [Option.some.injEq] at h; subst h
      refine ⟨fun path l hl => ⟨[], by simpa using hl⟩,
        fun q sub hs => ⟨sub, hs, rfl, rfl, fun _ h => h⟩, fun p' pub hp => ?_⟩
      simp only [Map.get_insert]
      by_cases hpp : p = p'
      · subst hpp; rw [hp0] at hp; simp at hp
      · exact ⟨pub, by rw [if_neg hpp]; exact hp, rfl, rfl⟩
  | pubRoute p =>
    simp only [step] at h
    split at h
    · rename_i t m hp0
      simp only [Option.some.injEq] at h; subst h
      refine ⟨fun path l hl => ⟨_, sentAt_publish s.tree t m path l hl⟩,
        fun q sub hs => ⟨sub, hs, rfl, rfl, fun _ h => h⟩, fun p' pub hp => ?_⟩
      simp only [Map.get_insert]
      by_cases hpp : p = p'
      · subst hpp; rw [hp0] at hp
        simp only [Option.some.injEq] at hp; subst hp
        exact ⟨_, if_pos rfl, rfl, rfl⟩
      · exact ⟨pub, by rw [if_neg hpp]; exact hp, rfl, rfl⟩
    · simp at h

theorem run_mono {s s' : State} {es : List Event} (h : run s es = some s') :
    (∀ path l, TopicNode.sentAt s.tree path = some l →
      ∃ l', TopicNode.sentAt s'.tree path = some (l ++ l')) ∧
    (∀ q sub, s.subs.get q = some sub → ∃ sub', s'.subs.get q = some sub' ∧
      sub'.filter = sub.filter ∧ sub'.receiver = sub.receiver ∧
      (∀ x, sub.retained = some x → sub'.retained = some x)) ∧
    (∀ p pub, s.pubs.get p = some pub → ∃ pub', s'.pubs.get p = some pub' ∧
      pub'.topic = pub.topic ∧ pub'.message = pub.message) := by
  induction es generalizing s with
  | nil =>
    simp only [run, Option.some.injEq] at h; subst h
    exact ⟨fun path l hl => ⟨[], by simpa using hl⟩,
      fun q sub hs => ⟨sub, hs, rfl, rfl, fun _ h => h⟩, fun p pub hp => ⟨pub, hp, rfl, rfl⟩⟩
  | cons e es ih =>
    simp only [run] at h
    cases hs : step s e with
    | none => simp [hs] at h
    | some s1 =>
      simp only [hs] at h
      obtain ⟨a1, b1, c1⟩ := step_mono hs
      obtain ⟨a2, b2, c2⟩ := ih h
      refine ⟨fun path l hl => ?_, fun q sub hq => ?_, fun p pub hp => ?_⟩
      · obtain ⟨l1, h1⟩ := a1 path l hl
        obtain ⟨l2, h2⟩ := a2 path _ h1
        exact ⟨l1 ++ l2, by simpa using h2⟩
      · obtain ⟨s1, h1, e1, f1, g1⟩ := b1 q sub hq
        obtain ⟨s2, h2, e2, f2, g2⟩ := b2 q s1 h1
        exact ⟨s2, h2, e2.trans e1, f2.trans f1, fun x hx => g2 x (g1 x hx)⟩
      · obtain ⟨p1, h1, e1, f1⟩ := c1 p pub hp
        obtain ⟨p2, h2, e2, f2⟩ := c2 p p1 h1
        exact ⟨p2, h2, e2.trans e1, f2.trans f1⟩

/-- An interleaving that ran can be cut at any position. -/
theorem run_cut {es : List Event} {s : State} (h : run init es = some s) {i : Nat} {e : Event}
    (he : es[i]? = some e) :
    ∃ s1 s2, run init (es.take i) = some s1 ∧ step s1 e = some s2 ∧
      run s2 (es.drop (i + 1)) = some s := by
  have hi : i < es.length := by
    rw [List.getElem?_eq_some_iff] at he; exact he.1
  have hsplit : es = es.take i ++ (e :: es.drop (i + 1)) := by
    have h1 : es.drop i = e :: es.drop (i + 1) := by
      rw [List.drop_eq_getElem_cons hi]
      rw [List.getElem?_eq_getElem hi, Option.some.injEq] at he
      rw [he]
    rw [← h1, List.take_append_drop]
  rw [hsplit, run_append] at h
  cases h1 : run init (es.take i) with
  | none => simp [h1] at h
  | some s1 =>
    simp only [h1, Option.bind_some, run] at h
    cases h2 : step s1 e with
    | none => simp [h2] at h
    | some s2 => simp only [h2] at h; exact ⟨s1, s2, rfl, h2, h⟩

theorem run_prefix {es : List Event} {i j : Nat} (hij : i ≤ j) {s1 s2 : State}
    (h1 : run init (es.take i) = some s1) (h2 : run init (es.take j) = some s2) :
    run s1 ((es.take j).drop i) = some s2 := by
  have : es.take j = es.take i ++ (es.take j).drop i := by
    have := List.take_append_drop i (es.take j)
    rw [List.take_take, Nat.min_eq_left hij] at this
    exact this.symm
  rw [this, run_append, h1] at h2
  exact h2

theorem take_succ {es : List Event} {i : Nat} {e : Event} (he : es[i]? = some e) :
    es.take (i + 1) = es.take i ++ [e] := by
  rw [List.take_add_one, he]; rfl

theorem run_take_succ {es : List Event} {i : Nat} {e : Event} (he : es[i]? = some e) {s1 s2 : State}
    (h1 : run init (es.take i) = some s1) (h2 : step s1 e = some s2) :
    run init (es.take (i + 1)) = some s2 := by
  rw [take_succ he, run_append, h1]
  simp [run, h2]

end Race

open Race in
/-- C30: in every possible interleaving of the steps of any number of `publish` and `subscribe`
calls, take a publication `p` of `m` to a valid topic `t` with the retain flag (storage step at
time `i`, routing step at time `j`), and a subscription `q` with a valid matching filter `f` (tree
step at time `k`, read step at time `l`).  Then
* the subscriber's channel was given `m`, or
* among the storage steps up to the read there is a last one for topic `t` with the retain flag,
  it is `p`'s or a later one, and the subscriber was given that one's message as retained, unless
  it had an empty payload (which clears the topic). -/
theorem C30_never_missed (es : List Event) (s : State) (hrun : run init es = some s)
    (p q : Nat) (t f : Str) (m : Message) (i j k l : Nat)
    (hi : es[i]? = some (.pubStore p t m)) (hj : es[j]? = some (.pubRoute p))
    (hk : es[k]? = some (.subTree q f)) (hl : es[l]? = some (.subRead q))
    (ht : ValidTopic t) (hf : ValidFilter f) (hm : Matches f t) (hr : m.retain = true) :
    ∃ sub, s.subs.get q = some sub ∧
      (m ∈ pending s.tree sub.receiver ∨
       ∃ i' p' m' r, i ≤ i' ∧ i' < l ∧ es[i']? = some (.pubStore p' t m') ∧ m'.retain = true ∧
         (∀ i'' p'' m'', i' < i'' → i'' < l → es[i'']? = some (.pubStore p'' t m'') →
           m''.retain = false) ∧
         sub.retained = some r ∧ (m' ∈ r ∨ hasPayload m' = false)) := by
  -- the states around the four events
  obtain ⟨si, si', hi1, hi2, hi3⟩ := run_cut hrun hi
  obtain ⟨sj, sj', hj1, hj2, hj3⟩ := run_cut hrun hj
  obtain ⟨sk, sk', hk1, hk2, hk3⟩ := run_cut hrun hk
  obtain ⟨sl, sl', hl1, hl2, hl3⟩ := run_cut hrun hl
  have hi' := run_take_succ hi hi1 hi2
  have hk' := run_take_succ hk hk1 hk2
  -- `p`'s storage step comes before its routing step
  have hij : i < j := by
    rcases Nat.lt_trichotomy i j with h | h | h
    · exact h
    · subst h; rw [hi] at hj; simp at hj
    · exfalso
      have hjp : ∃ pub, sj'.pubs.get p = some pub := by
        simp only [Race.step] at hj2
        split at hj2
        · simp only [Option.some.injEq] at hj2; subst hj2
          exact ⟨_, by simp [Map.get_insert]; rfl⟩
        · simp at hj2
      obtain ⟨pub, hpub⟩ := hjp
      have hj' := run_take_succ hj hj1 hj2
      have := run_mono (run_prefix (by omega : j + 1 ≤ i) hj' hi1)
      obtain ⟨pub', hp', _⟩ := this.2.2 p pub hpub
      simp [Race.step, hp'] at hi2
  -- `q`'s tree step comes before its read step
  have hkl : k < l := by
    rcases Nat.lt_trichotomy k l with h | h | h
    · exact h
    · subst h; rw [hk] at hl; simp at hl
    · exfalso
      have hlq : ∃ sub, sl'.subs.get q = some sub := by
        simp only [Race.step] at hl2
        split at hl2
        · simp only [Option.some.injEq] at hl2; subst hl2
          exact ⟨_, by simp [Map.get_insert]; rfl⟩
        · simp at hl2
      obtain ⟨sub, hsub⟩ := hlq
      have hl' := run_take_succ hl hl1 hl2
      have := run_mono (run_prefix (by omega : l + 1 ≤ k) hl' hk1)
      obtain ⟨sub', hs', _⟩ := this.2.1 q sub hsub
      simp [Race.step, hs'] at hk2
  -- the subscription right after its tree step
  have hsubk : sk'.subs.get q = some ⟨f, (TopicTree.subscribe sk.tree f).2, none⟩ ∧
      sk'.tree = (TopicTree.subscribe sk.tree f).1 := by
    simp only [Race.step] at hk2
    split at hk2
    · simp at hk2
    · simp only [Option.some.injEq] at hk2; subst hk2
      simp [Map.get_insert]
  -- the publication right after its storage step
  have hpubi : ∃ pub, si'.pubs.get p = some pub ∧ pub.topic = t ∧ pub.message = m := by
    simp only [Race.step] at hi2
    split at hi2
    · simp at hi2
    · simp only [Option.some.injEq] at hi2; subst hi2
      exact ⟨⟨t, m, false⟩, by simp [Map.get_insert], rfl, rfl⟩
  obtain ⟨sub, hsub, hsf, hsr, _⟩ := (run_mono hk3).2.1 q _ hsubk.1
  refine ⟨sub, hsub, ?_⟩
  obtain ⟨z, hz⟩ := TopicNode.sentAt_ensure_self sk.tree (splitLevels f)
  have hrec : (TopicTree.subscribe sk.tree f).2 = ⟨splitLevels f, z.length⟩ := by
    unfold TopicTree.subscribe
    unfold TopicNode.sentAt at hz
    cases hff : (TopicNode.ensure sk.tree (splitLevels f)).find (splitLevels f) with
    | none => simp [hff] at hz
    | some n => simp [hff] at hz; simp [hff, hz]
  have hzk : TopicNode.sentAt sk'.tree (splitLevels f) = some z := by rw [hsubk.2]; exact hz
  rcases Nat.lt_trichotomy j k with hjk | hjk | hjk
  · -- routed before the subscription: the read sees the stored message or a later one
    right
    have hinv := inv_run _ _ hl1
    -- the read step
    have hread : sl'.subs.get q = some ⟨f, (TopicTree.subscribe sk.tree f).2,
        some (sl.store.getRetained f)⟩ := by
      obtain ⟨sub1, hs1, hf1, hr1, _⟩ := (run_mono (run_prefix (by omega : k + 1 ≤ l) hk' hl1)).2.1 q _ hsubk.1
      simp only [Race.step] at hl2
      split at hl2
      · rename_i f0 r0 hg
        simp only [Option.some.injEq] at hl2; subst hl2
        rw [hs1] at hg
        simp only [Option.some.injEq] at hg
        subst hg
        simp only at hf1 hr1
        subst hf1 hr1
        simp [Map.get_insert]
      · simp at hl2
    obtain ⟨sub2, hs2, _, _, hret⟩ := (run_mono hl3).2.1 q _ hread
    have hss : sub2 = sub := by rw [hsub] at hs2; simpa using hs2.symm
    subst hss
    have hret := hret _ rfl
    -- the last storage step for the topic before the read
    have hlast : ∀ n, n ≤ l → i < n → ∃ i' p' m', i ≤ i' ∧ i' < n ∧
        es[i']? = some (.pubStore p' t m') ∧ m'.retain = true ∧
        (∀ i'' p'' m'', i' < i'' → i'' < n → es[i'']? = some (.pubStore p'' t m'') →
          m''.retain = false) ∧
        lastWith (fun x : Str × Message => x.1 = t ∧ x.2.retain = true) (stored (es.take n)) =
          some (t, m') := by
      intro n
      induction n with
      | zero => intro _ h; omega
      | succ n ih =>
        intro hnl hin
        have hnlen : n < es.length := by
          have := (List.getElem?_eq_some_iff.mp hl).1
          omega
        have hen : es[n]? = some es[n] := List.getElem?_eq_getElem hnlen
        by_cases hin' : i = n
        · subst hin'
          refine ⟨i, p, m, Nat.le_refl _, by omega, hi, hr, fun i'' _ _ h1 h2 => by omega, ?_⟩
          rw [take_succ hi, stored_append]
          simp [stored, lastWith_snoc, hr]
        · obtain ⟨i', p', m', a1, a2, a3, a4, a5, a6⟩ := ih (by omega) (by omega)
          have other : (∀ p'' m'', es[n]? = some (.pubStore p'' t m'') → m''.retain = false) →
              lastWith (fun x : Str × Message => x.1 = t ∧ x.2.retain = true)
                (stored (es.take (n + 1))) = some (t, m') →
              ∃ i' p' m', i ≤ i' ∧ i' < n + 1 ∧
                es[i']? = some (.pubStore p' t m') ∧ m'.retain = true ∧
                (∀ i'' p'' m'', i' < i'' → i'' < n + 1 → es[i'']? = some (.pubStore p'' t m'') →
                  m''.retain = false) ∧
                lastWith (fun x : Str × Message => x.1 = t ∧ x.2.retain = true)
                  (stored (es.take (n + 1))) = some (t, m') := by
            intro h1 h2
            refine ⟨i', p', m', a1, by omega, a3, a4, fun i'' p'' m'' b1 b2 b3 => ?_, h2⟩
            by_cases hc : i'' = n
            · subst hc; exact h1 p'' m'' b3
            · exact a5 i'' p'' m'' b1 (by omega) b3
          rw [take_succ hen, stored_append]
          rw [take_succ hen, stored_append] at other
          cases hee : es[n] with
          | pubStore p2 t2 m2 =>
            rw [hee] at other
            simp only [stored, lastWith_snoc] at other ⊢
            by_cases hc : t2 = t ∧ m2.retain = true
            · refine ⟨n, p2, m2, by omega, by omega, ?_, hc.2, fun i'' _ _ h1 h2 => by omega, ?_⟩
              · rw [hen, hee, hc.1]
              · simp [hc]
            · refine other ?_ ?_
              · intro p3 m3 h3
                rw [hen, hee] at h3
                simp only [Option.some.injEq, Event.pubStore.injEq] at h3
                obtain ⟨_, rfl, rfl⟩ := h3
                cases hrr : m2.retain with
                | false => rfl
                | true => exact absurd ⟨rfl, hrr⟩ hc
              · rw [if_neg (by simpa using hc)]; exact a6
          | subTree q2 f2 =>
            rw [hee] at other
            exact other (by intro p3 m3 h3; rw [hen, hee] at h3; simp at h3) (by simpa [stored] using a6)
          | subRead q2 =>
            rw [hee] at other
            exact other (by intro p3 m3 h3; rw [hen, hee] at h3; simp at h3) (by simpa [stored] using a6)
          | pubRoute p2 =>
            rw [hee] at other
            exact other (by intro p3 m3 h3; rw [hen, hee] at h3; simp at h3) (by simpa [stored] using a6)
    obtain ⟨i', p', m', a1, a2, a3, a4, a5, a6⟩ := hlast l (Nat.le_refl _) (by omega)
    refine ⟨i', p', m', _, a1, a2, a3, a4, a5, hret, ?_⟩
    cases hp : hasPayload m' with
    | false => right; rfl
    | true =>
      left
      obtain ⟨ts, _, hts, he⟩ := hinv.store.lookup f hf
      have hro : retainedOf t (stored (es.take l)) = some m' := by
        simp only [retainedOf, a6, hp, if_true]
      rw [he, List.mem_filterMap]
      exact ⟨t, (hts t).mpr ⟨hm, by simp [hro]⟩, hro⟩
  · subst hjk; rw [hj] at hk; simp at hk
  · -- routed after the subscription: delivered live
    left
    obtain ⟨l1, h1⟩ := (run_mono (run_prefix (by omega : k + 1 ≤ j) hk' hj1)).1 _ _ hzk
    obtain ⟨pub, hp1, hp2, hp3⟩ := hpubi
    obtain ⟨pub', hq1, hq2, hq3⟩ := (run_mono (run_prefix (by omega : i + 1 ≤ j) hi' hj1)).2.2 p pub hp1
    have hcop := (copies_iff f t ht).1 hm
    have h2 : TopicNode.sentAt sj'.tree (splitLevels f) = some (z ++ l1 ++ [m]) := by
      simp only [Race.step, hq1] at hj2
      obtain ⟨t0, m0, b0⟩ := pub'
      simp only at hq2 hq3
      subst hq2 hq3
      cases b0 with
      | true => simp at hj2
      | false =>
        simp only [Option.some.injEq] at hj2; subst hj2
        have := sentAt_publish sj.tree pub.topic pub.message (splitLevels f) _ h1
        rw [hp2, hp3] at this
        rw [hcop] at this
        simpa [hp2, hp3] using this
    obtain ⟨l2, h3⟩ := (run_mono hj3).1 _ _ h2
    rw [hsr, hrec, pending_eq _ _ _ h3]
    simp

-- a concrete interleaving that meets the hypotheses: subscribe between store and route
example : ∃ s, Race.run Race.init [.pubStore 0 (str "a/b") sampleRetained, .subTree 0 (str "a/+"),
    .subRead 0, .pubRoute 0] = some s := by
  exact Option.isSome_iff_exists.mp (by decide +kernel)
example : Matches (str "a/+") (str "a/b") := by
  rw [matches_iff]
  have h1 : splitLevels (str "a/+") = [str "a", plusLevel] := by decide +kernel
  have h2 : splitLevels (str "a/b") = [str "a", str "b"] := by decide +kernel
  rw [h1, h2]; exact .same _ (.plus _ .nil)

/-! ## C31: subscription channels -/

/-- Something that happens to a channel with one reader. -/
inductive ChanOp (T : Type) where
  | send (v : T)
  | recv

/-- The channel, the reader's position and what the reader got so far. -/
structure ChanState (T : Type) where
  sent : List T
  next : Nat
  got : List (Recv T)

/-- One step of a channel with one reader. -/
def ChanState.step {T : Type} (s : ChanState T) : ChanOp T → ChanState T
  | .send v => { s with sent := s.sent ++ [v] }
  | .recv =>
    let r := Receiver.recv s.sent s.next
    { s with next := r.2, got := s.got ++ [r.1] }

/-- Any interleaving of sends and receives, from the moment of subscribing. -/
def ChanState.run {T : Type} (old : List T) (ops : List (ChanOp T)) : ChanState T :=
  ops.foldl ChanState.step ⟨old, old.length, []⟩

/-- The messages sent in an interleaving. -/
def ChanOp.sends {T : Type} : List (ChanOp T) → List T
  | [] => []
  | .send v :: ops => v :: sends ops
  | .recv :: ops => sends ops

/-- The messages among what the reader got. -/
def Spec.values {T : Type} (got : List (Recv T)) : List T :=
  got.filterMap fun r => match r with | .value v => some v | _ => none

/-- `got` is a faithful account of reading the stream `all` up to the unread rest `rest`: each
value is the next message, and each report of lag skips exactly the number of messages it says. -/
inductive Spec.Account {T : Type} : List T → List (Recv T) → List T → Prop where
  | done (rest : List T) : Account rest [] rest
  | value (v : T) {all : List T} {got : List (Recv T)} {rest : List T} :
      Account all got rest → Account (v :: all) (.value v :: got) rest
  | empty {all : List T} {got : List (Recv T)} {rest : List T} :
      Account all got rest → Account all (.empty :: got) rest
  | lagged (lost : List T) {all : List T} {got : List (Recv T)} {rest : List T} :
      Account all got rest → Account (lost ++ all) (.lagged lost.length :: got) rest

theorem Spec.Account.snoc {T : Type} {all : List T} {got : List (Recv T)} {rest rest' : List T}
    {got' : List (Recv T)}
    (h : Account all got rest) (h' : Account rest got' rest') : Account all (got ++ got') rest' := by
  induction h with
  | done => exact h'
  | value v _ ih => exact .value v (ih h')
  | empty _ ih => exact .empty (ih h')
  | lagged lost _ ih => exact .lagged lost (ih h')

theorem Spec.Account.extend {T : Type} {all : List T} {got : List (Recv T)} {rest : List T}
    (h : Account all got rest) (more : List T) : Account (all ++ more) got (rest ++ more) := by
  induction h with
  | done => exact .done _
  | value v _ ih => exact .value v ih
  | empty _ ih => exact .empty ih
  | lagged lost _ ih => rw [List.append_assoc]; exact .lagged lost ih

theorem ChanOp.sends_append {T : Type} (a b : List (ChanOp T)) :
    sends (a ++ b) = sends a ++ sends b := by
  induction a with
  | nil => rfl
  | cons op ops ih => cases op <;> simp [sends, ih]

/-- C31: for every interleaving of sends and receives, what the reader got is a faithful account
of the messages sent since it subscribed: in order, nothing invented, nothing twice, and nothing
missing except what was reported as lag. -/
theorem C31_account {T : Type} (old : List T) (ops : List (ChanOp T)) :
    let s := ChanState.run old ops
    Spec.Account (ChanOp.sends ops) s.got (s.sent.drop s.next) := by
  have main : Spec.Account (ChanOp.sends ops) (ChanState.run old ops).got
        ((ChanState.run old ops).sent.drop (ChanState.run old ops).next) ∧
      (ChanState.run old ops).next ≤ (ChanState.run old ops).sent.length := by
    induction ops using snoc_induction with
    | h0 => exact ⟨by simpa [ChanState.run, ChanOp.sends] using Spec.Account.done [], by simp [ChanState.run]⟩
    | hs l a ih =>
      have e : ChanState.run old (l ++ [a]) = (ChanState.run old l).step a := by
        simp [ChanState.run]
      rw [e, ChanOp.sends_append]
      generalize ChanState.run old l = s at *
      cases a with
      | send v =>
        refine ⟨?_, by simp [ChanState.step]; omega⟩
        have := ih.1.extend [v]
        simp only [ChanState.step, ChanOp.sends]
        rwa [List.drop_append_of_le_length ih.2]
      | recv =>
        simp only [ChanOp.sends, List.append_nil, ChanState.step, Receiver.recv]
        by_cases hlag : s.next + channelCapacity < s.sent.length
        · rw [if_pos hlag]
          simp only
          refine ⟨ih.1.snoc ?_, by omega⟩
          have hl : (s.sent.drop s.next).take (s.sent.length - channelCapacity - s.next) ++
              s.sent.drop (s.sent.length - channelCapacity) = s.sent.drop s.next := by
            have := List.take_append_drop (s.sent.length - channelCapacity - s.next) (s.sent.drop s.next)
            rw [List.drop_drop] at this
            have e2 : s.next + (s.sent.length - channelCapacity - s.next) =
                s.sent.length - channelCapacity := by omega
            rwa [e2] at this
          have := Spec.Account.lagged
            ((s.sent.drop s.next).take (s.sent.length - channelCapacity - s.next))
            (Spec.Account.done (s.sent.drop (s.sent.length - channelCapacity)))
          rw [hl] at this
          have e3 : ((s.sent.drop s.next).take (s.sent.length - channelCapacity - s.next)).length =
              s.sent.length - channelCapacity - s.next := by
            rw [List.length_take, List.length_drop]; omega
          rwa [e3] at this
        · rw [if_neg hlag]
          cases hg : s.sent[s.next]? with
          | none =>
            simp only
            exact ⟨ih.1.snoc (.empty (.done _)), ih.2⟩
          | some v =>
            simp only
            obtain ⟨hlt, hv⟩ := List.getElem?_eq_some_iff.mp hg
            refine ⟨ih.1.snoc ?_, by omega⟩
            rw [List.drop_eq_getElem_cons hlt, hv]
            exact .value v (.done _)
  exact main.1

theorem Spec.Account.sublist {T : Type} {all : List T} {got : List (Recv T)} {rest : List T}
    (h : Account all got rest) : (Spec.values got ++ rest).Sublist all := by
  induction h with
  | done => exact List.Sublist.refl _
  | value v _ ih => exact ih.cons_cons v
  | empty _ ih => exact ih
  | lagged lost _ ih => exact ih.trans (List.sublist_append_right _ _)

/-- C31: the reader gets a subsequence, in order, of the messages sent since it subscribed. -/
theorem C31_in_order {T : Type} (old : List T) (ops : List (ChanOp T)) :
    (Spec.values (ChanState.run old ops).got).Sublist (ChanOp.sends ops) :=
  (List.sublist_append_left _ _).trans (C31_account old ops).sublist

/-- C31: without a report of lag nothing is lost: what was got and what is still unread are
together exactly what was sent. -/
theorem C31_complete {T : Type} (old : List T) (ops : List (ChanOp T))
    (h : ∀ n, Recv.lagged n ∉ (ChanState.run old ops).got) :
    let s := ChanState.run old ops
    Spec.values s.got ++ s.sent.drop s.next = ChanOp.sends ops := by
  intro s
  have ha : Spec.Account (ChanOp.sends ops) s.got (s.sent.drop s.next) := C31_account old ops
  change ∀ n, Recv.lagged n ∉ s.got at h
  generalize ChanOp.sends ops = all at ha
  generalize s.got = got at ha h
  generalize s.sent.drop s.next = rest at ha
  clear s
  induction ha with
  | done => simp [Spec.values]
  | value v _ ih =>
    have := ih (fun n hn => h n (by simp [hn]))
    simpa [Spec.values] using this
  | empty _ ih =>
    have := ih (fun n hn => h n (by simp [hn]))
    simpa [Spec.values] using this
  | lagged lost _ ih => exact absurd (by simp) (h lost.length)

/-- C31: lag is reported exactly when the reader is more than 16 messages behind, and then the
16 newest are kept. -/
theorem C31_lag_iff {T : Type} (sent : List T) (next : Nat) (hn : next ≤ sent.length) (n : Nat) :
    (Receiver.recv sent next).1 = .lagged n ↔
      16 < (sent.drop next).length ∧ n + 16 = (sent.drop next).length := by
  unfold Receiver.recv channelCapacity
  rw [List.length_drop]
  by_cases h : next + 16 < sent.length
  · rw [if_pos h]; simp; omega
  · rw [if_neg h]
    cases sent[next]? <;> simp <;> omega

example : (ChanState.run [0] [.send 1, .recv, .send 2, .recv, .recv]).got =
    [Recv.value 1, .value 2, .empty] := by decide +kernel

end Mercurio
