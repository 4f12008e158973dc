import Verif.Lemmas.Topic

/-!
# C22–C25, C27: topic validation and live routing
-/

namespace Mercurio

open Spec

/-! ## C22, C23: validators -/

theorem validateCommon_ok (s : Str) :
    validateCommon s = .ok () ↔ s ≠ [] ∧ s.length ≤ 65535 ∧ (0 : UInt8) ∉ s := by
  unfold validateCommon maxTopicLength
  by_cases h1 : s = []
  · subst h1; simp
  · by_cases h2 : s.length > 65535
    · simp [h1, h2]; omega
    · by_cases h3 : (0 : UInt8) ∈ s
      · simp [h1, h2, h3]
      · simp [h1, h2, h3]; omega

/-- C22: a topic name is accepted for publishing iff it is a valid topic name. -/
theorem C22_publish_topic_iff (s : Str) : validatePublishTopic s = .ok () ↔ ValidTopic s := by
  unfold validatePublishTopic
  cases hc : validateCommon s with
  | error e =>
    simp only [reduceCtorEq, false_iff]
    intro h
    have := (validateCommon_ok s).mpr ⟨h.nonempty, h.short, h.no_nul⟩
    rw [hc] at this; cases this
  | ok u =>
    cases u
    obtain ⟨a, b, c⟩ := (validateCommon_ok s).mp hc
    by_cases h1 : (0x2b : UInt8) ∈ s
    · simp only [List.contains_iff_mem, h1, Bool.or_eq_true, true_or, if_true, reduceCtorEq,
        false_iff]
      exact fun h => h.no_plus h1
    · by_cases h2 : (0x23 : UInt8) ∈ s
      · simp only [List.contains_iff_mem, h2, Bool.or_eq_true, or_true, if_true, reduceCtorEq,
          false_iff]
        exact fun h => h.no_hash h2
      · simp only [List.contains_iff_mem, h1, h2, Bool.or_eq_true, or_self, if_false, true_iff]
        exact ⟨a, b, c, h1, h2⟩

/-- The error reported for a refused topic name names the first rule broken. -/
theorem C22_publish_topic_error (s : Str) (e : TopicError) (h : validatePublishTopic s = .error e) :
    (e = .empty ∧ s = []) ∨ (e = .tooLong ∧ 65535 < s.length) ∨
    (e = .containsNullChar ∧ (0 : UInt8) ∈ s) ∨
    (e = .wildcardInPublishTopic ∧ ((0x2b : UInt8) ∈ s ∨ (0x23 : UInt8) ∈ s)) := by
  unfold validatePublishTopic validateCommon maxTopicLength at h
  by_cases h1 : s = []
  · subst h1; simp at h; simp [← h]
  · by_cases h2 : s.length > 65535
    · simp [h1, h2] at h; simp [← h]; omega
    · by_cases h3 : (0 : UInt8) ∈ s
      · simp [h1, h2, h3] at h; simp [← h, h3]
      · simp only [List.isEmpty_iff, h1, h2, h3, if_false, List.contains_iff_mem,
          Bool.or_eq_true] at h
        by_cases h4 : (0x2b : UInt8) ∈ s ∨ (0x23 : UInt8) ∈ s
        · simp only [h4, if_true, Except.error.injEq] at h
          simp [← h, h4]
        · simp [h4] at h

example : ValidTopic (str "sensors/temperature/room1") := by
  rw [← C22_publish_topic_iff]; decide +kernel
example : ¬ ValidTopic (str "sensors/+/room1") := by
  rw [← C22_publish_topic_iff]; decide +kernel

theorem validateFilterLevels_ok (ls : List Str) :
    validateFilterLevels ls = .ok () ↔
      (∀ l ∈ ls, (0x2b : UInt8) ∈ l → l = plusLevel) ∧
      (∀ i (h : i < ls.length), (0x23 : UInt8) ∈ ls[i] → ls[i] = hashLevel ∧ i + 1 = ls.length) := by
  induction ls with
  | nil => simp [validateFilterLevels]
  | cons l ls ih =>
    have split : ((∀ x ∈ l :: ls, (0x2b : UInt8) ∈ x → x = plusLevel) ∧
        (∀ i (h : i < (l :: ls).length), (0x23 : UInt8) ∈ (l :: ls)[i] →
          (l :: ls)[i] = hashLevel ∧ i + 1 = (l :: ls).length)) ↔
        (((0x2b : UInt8) ∈ l → l = plusLevel) ∧
          ((0x23 : UInt8) ∈ l → l = hashLevel ∧ ls = [])) ∧
        ((∀ x ∈ ls, (0x2b : UInt8) ∈ x → x = plusLevel) ∧
          (∀ i (h : i < ls.length), (0x23 : UInt8) ∈ ls[i] →
            ls[i] = hashLevel ∧ i + 1 = ls.length)) := by
      constructor
      · rintro ⟨a, b⟩
        refine ⟨⟨a l (by simp), fun h => ?_⟩, fun x hx => a x (by simp [hx]), fun i hi hm => ?_⟩
        · have := b 0 (by simp) (by simpa using h)
          simpa using this
        · have := b (i + 1) (by simpa using hi) (by simpa using hm)
          simpa using this
      · rintro ⟨⟨a, b⟩, c, d⟩
        refine ⟨fun x hx => ?_, fun i hi hm => ?_⟩
        · rcases List.mem_cons.mp hx with rfl | hx
          · exact a
          · exact c x hx
        · cases i with
          | zero => simpa using b (by simpa using hm)
          | succ i => simpa using d i (by simpa using hi) (by simpa using hm)
    rw [split, ← ih]
    simp only [validateFilterLevels, Bool.and_eq_true, List.contains_iff_mem, bne_iff_ne, ne_eq]
    show _ ↔ ((_ → l = [0x2b]) ∧ (_ → l = [0x23] ∧ _)) ∧ _
    by_cases h1 : (0x2b : UInt8) ∈ l ∧ ¬ l = [0x2b]
    · simp [h1]
    · have h1' : (0x2b : UInt8) ∈ l → l = [0x2b] := fun h => Classical.byContradiction
        fun hn => h1 ⟨h, hn⟩
      rw [if_neg h1]
      by_cases h2 : (0x23 : UInt8) ∈ l
      · by_cases h3 : l = [0x23]
        · by_cases h4 : ls = []
          · simp [h3, h4]
          · simp [h3, h4]
        · simp [h2, h3]
      · simpa [h2] using fun _ => h1'

/-- C23: a filter is accepted for subscribing iff it is a valid topic filter. -/
theorem C23_filter_iff (s : Str) : validateSubscribeFilter s = .ok () ↔ ValidFilter s := by
  unfold validateSubscribeFilter
  cases hc : validateCommon s with
  | error e =>
    simp only [reduceCtorEq, false_iff]
    intro h
    have := (validateCommon_ok s).mpr ⟨h.nonempty, h.short, h.no_nul⟩
    rw [hc] at this; cases this
  | ok u =>
    cases u
    obtain ⟨a, b, c⟩ := (validateCommon_ok s).mp hc
    simp only []
    rw [validateFilterLevels_ok]
    constructor
    · rintro ⟨d, e⟩
      refine ⟨a, b, c, fun ls hls => ?_, fun ls hls => ?_⟩
      · rw [isLevels_iff] at hls; subst hls; exact d
      · rw [isLevels_iff] at hls; subst hls; exact e
    · intro h
      exact ⟨h.plus _ (isLevels_split s), h.hash _ (isLevels_split s)⟩

example : ValidFilter (str "sensors/+/room1/#") := by rw [← C23_filter_iff]; decide +kernel
example : ¬ ValidFilter (str "sensors/#/room1") := by rw [← C23_filter_iff]; decide +kernel
example : ¬ ValidFilter (str "sensors/temp+") := by rw [← C23_filter_iff]; decide +kernel

/-- Every topic name is also a filter, and matches exactly itself among valid topic names. -/
theorem C23_topic_is_filter (s : Str) (h : ValidTopic s) :
    ValidFilter s ∧ ∀ t, Matches s t ↔ s = t := by
  have hl := levels_of_valid h
  refine ⟨⟨h.nonempty, h.short, h.no_nul, fun ls hls l hm hp => ?_, fun ls hls i hi hp => ?_⟩,
    fun t => ?_⟩
  · rw [isLevels_iff] at hls; subst hls
    exact absurd (mem_of_mem_level hm hp) h.no_plus
  · rw [isLevels_iff] at hls; subst hls
    exact absurd (mem_of_mem_level (List.getElem_mem hi) hp) h.no_hash
  · rw [matches_iff]
    have key : ∀ f t : List Str, (∀ l ∈ f, l ≠ plusLevel ∧ l ≠ hashLevel) →
        (MatchesLevels f t ↔ f = t) := by
      intro f
      induction f with
      | nil => intro t _; exact ⟨fun hm => by cases hm; rfl, fun e => e ▸ .nil⟩
      | cons p f ih =>
        intro t hw
        have hp := hw p (by simp)
        constructor
        · intro hm
          cases hm with
          | same _ hm => rw [(ih _ (fun l hl => hw l (by simp [hl]))).mp hm]
          | plus => exact absurd rfl hp.1
          | hash => exact absurd rfl hp.2
        · rintro rfl
          exact .same _ ((ih _ (fun l hl => hw l (by simp [hl]))).mpr rfl)
    rw [key _ _ hl]
    constructor
    · intro e
      rw [(isLevels_split s).joined, (isLevels_split t).joined, e]
    · rintro rfl; rfl

/-! ## Histories of the topic tree -/

/-- One operation on the topic tree, by any client. -/
inductive TreeOp (T : Type) where
  | subscribe (filter : Str)
  | publish (topic : Str) (v : T)

/-- The tree after an operation. -/
def TreeOp.apply {T : Type} (t : TopicTree T) : TreeOp T → TopicTree T
  | .subscribe f => (TopicTree.subscribe t f).1
  | .publish topic v => TopicTree.publish t topic v

/-- The tree after a sequence of operations. -/
def TreeOp.run {T : Type} (t : TopicTree T) (ops : List (TreeOp T)) : TopicTree T :=
  ops.foldl TreeOp.apply t

/-- The publications (topic, message) in a sequence of operations, in order. -/
def publications {T : Type} : List (TreeOp T) → List (Str × T)
  | [] => []
  | .subscribe _ :: ops => publications ops
  | .publish t v :: ops => (t, v) :: publications ops

/-- What is in the channel of a receiver, from its position on. -/
def pending {T : Type} (t : TopicTree T) (r : Receiver) : List T :=
  ((t.find r.path).map fun n => n.sent.drop r.next).getD []

theorem pending_eq {T : Type} (t : TopicTree T) (r : Receiver) (s : List T)
    (h : TopicNode.sentAt t r.path = some s) : pending t r = s.drop r.next := by
  unfold TopicNode.sentAt at h
  cases hf : t.find r.path with
  | none => simp [hf] at h
  | some n => simp [hf] at h; simp [pending, hf, h]

theorem sentAt_publish {T : Type} (t : TopicTree T) (topic : Str) (v : T) (q : List Str) (s : List T)
    (h : TopicNode.sentAt t q = some s) :
    TopicNode.sentAt (TopicTree.publish t topic v) q =
      some (s ++ List.replicate (TopicNode.copies q (splitLevels topic)) v) := by
  unfold TopicTree.publish
  have hf : (t.find q).isSome := by
    unfold TopicNode.sentAt at h
    cases hf : t.find q <;> simp [hf] at h ⊢
  rw [TopicNode.sentAt_sends, h, TopicNode.targets_eq, TopicNode.count_visit, if_pos hf]
  rfl

theorem sentAt_run {T : Type} (t : TopicTree T) (ops : List (TreeOp T)) (q : List Str) (s : List T)
    (h : TopicNode.sentAt t q = some s) :
    TopicNode.sentAt (TreeOp.run t ops) q =
      some (s ++ (publications ops).flatMap fun p =>
        List.replicate (TopicNode.copies q (splitLevels p.1)) p.2) := by
  induction ops generalizing t s with
  | nil => simpa [TreeOp.run, publications] using h
  | cons op ops ih =>
    cases op with
    | subscribe f =>
      exact ih _ _ (TopicNode.sentAt_ensure t (splitLevels f) q s h)
    | publish topic v =>
      have := ih _ _ (sentAt_publish t topic v q s h)
      simpa [TreeOp.run, TreeOp.apply, publications] using this

/-- What a subscription made at any point receives from all later operations. -/
theorem pending_run {T : Type} (t : TopicTree T) (f : Str) (ops : List (TreeOp T)) :
    pending (TreeOp.run (TopicTree.subscribe t f).1 ops) (TopicTree.subscribe t f).2 =
      (publications ops).flatMap fun p =>
        List.replicate (TopicNode.copies (splitLevels f) (splitLevels p.1)) p.2 := by
  obtain ⟨s, hs⟩ := TopicNode.sentAt_ensure_self t (splitLevels f)
  have hr : (TopicTree.subscribe t f).2 = ⟨splitLevels f, s.length⟩ := by
    unfold TopicTree.subscribe
    unfold TopicNode.sentAt at hs
    cases hf : (TopicNode.ensure t (splitLevels f)).find (splitLevels f) with
    | none => simp [hf] at hs
    | some n => simp [hf] at hs; simp [hf, hs]
  have := sentAt_run (TopicTree.subscribe t f).1 ops (splitLevels f) s hs
  rw [pending_eq _ _ _ (by rw [hr]; exact this), hr]
  simp

/-! ## C24: exactly the matching subscriptions -/

theorem copies_iff (f topic : Str) (h : ValidTopic topic) :
    (Matches f topic → TopicNode.copies (splitLevels f) (splitLevels topic) = 1) ∧
      (¬ Matches f topic → TopicNode.copies (splitLevels f) (splitLevels topic) = 0) := by
  rw [matches_iff]
  exact TopicNode.copies_eq _ _ (levels_of_valid h)

/-- C24: after any history (`before`), a subscription receives, from everything that happens
later (`after`: any mix of other clients' subscriptions and publications to valid topics),
exactly the publications whose topic its filter matches, in order, once each. -/
theorem C24_routing {T : Type} (before after : List (TreeOp T)) (f : Str)
    (hv : ∀ p ∈ publications after, ValidTopic p.1) :
    let s := TopicTree.subscribe (TreeOp.run TopicTree.new before) f
    pending (TreeOp.run s.1 after) s.2 = Spec.matching f (publications after) := by
  intro s
  rw [pending_run]
  unfold Spec.matching
  revert hv
  generalize publications after = ps
  intro hv
  induction ps with
  | nil => rfl
  | cons p ps ih =>
    have ih := ih (fun q hq => hv q (by simp [hq]))
    have hp := copies_iff f p.1 (hv p (by simp))
    rw [List.flatMap_cons, ih]
    by_cases hm : Matches f p.1
    · simp [hm, hp.1 hm]
    · simp [hm, hp.2 hm]

theorem publications_append {T : Type} (a b : List (TreeOp T)) :
    publications (a ++ b) = publications a ++ publications b := by
  induction a with
  | nil => rfl
  | cons op ops ih => cases op <;> simp [publications, ih]

/-- C24 for one publication: it is handed to the subscription iff the filter matches. -/
theorem C24_one {T : Type} (before between : List (TreeOp T)) (f topic : Str) (v : T)
    (hv : ∀ p ∈ publications between, ValidTopic p.1) (ht : ValidTopic topic) :
    let s := TopicTree.subscribe (TreeOp.run TopicTree.new before) f
    let t := TreeOp.run s.1 between
    pending (TopicTree.publish t topic v) s.2 =
      pending t s.2 ++ (open Classical in if Matches f topic then [v] else []) := by
  intro s t
  have hp : publications (between ++ [TreeOp.publish topic v]) =
      publications between ++ [(topic, v)] := publications_append _ _
  have h1 : pending t s.2 = _ := C24_routing before between f hv
  have h2 : pending (TreeOp.run s.1 (between ++ [.publish topic v])) s.2 = _ :=
    C24_routing before (between ++ [.publish topic v]) f (by
      intro p hm
      rw [hp] at hm
      rcases List.mem_append.mp hm with hm | hm
      · exact hv p hm
      · simp at hm; rw [hm]; exact ht)
  have hr : TreeOp.run s.1 (between ++ [.publish topic v]) = TopicTree.publish t topic v := by
    simp [TreeOp.run, t, TreeOp.apply]
  rw [hr, hp] at h2
  rw [h2, h1]
  unfold Spec.matching
  by_cases hm : Matches f topic <;> simp [hm]

-- the rules on familiar cases: '#' includes the parent level, '+' is one level
example : Matches (str "sport/#") (str "sport") := by
  rw [matches_iff]
  have h1 : splitLevels (str "sport/#") = [str "sport", hashLevel] := by decide +kernel
  have h2 : splitLevels (str "sport") = [str "sport"] := by decide +kernel
  rw [h1, h2]; exact .same _ (.hash _)
example : ∃ before after : List (TreeOp Nat), (∀ p ∈ publications after, ValidTopic p.1) ∧
    let s := TopicTree.subscribe (TreeOp.run TopicTree.new before) (str "a/+")
    pending (TreeOp.run s.1 after) s.2 = [1, 3] := by
  refine ⟨[.subscribe (str "#"), .publish (str "a/b") 0],
    [.publish (str "a/b") 1, .subscribe (str "a/b"), .publish (str "a/b/c") 2,
      .publish (str "a/") 3], ?_, by decide +kernel⟩
  intro p hp
  simp [publications] at hp
  rcases hp with rfl | rfl | rfl <;> (rw [← C22_publish_topic_iff]; decide +kernel)

/-! ## C25: at most one copy -/

/-- C25: one publication to a valid topic puts at most one copy into any channel of any tree. -/
theorem C25_one_copy {T : Type} (t : TopicTree T) (topic : Str) (v : T) (ht : ValidTopic topic)
    (path : List Str) (n : TopicNode T) (hn : t.find path = some n) :
    ∃ n', (TopicTree.publish t topic v).find path = some n' ∧
      (n'.sent = n.sent ∨ n'.sent = n.sent ++ [v]) := by
  have h := sentAt_publish t topic v path n.sent (by simp [TopicNode.sentAt, hn])
  unfold TopicNode.sentAt at h
  cases hf : (TopicTree.publish t topic v).find path with
  | none => simp [hf] at h
  | some n' =>
    refine ⟨n', rfl, ?_⟩
    simp [hf] at h
    have hc := TopicNode.copies_eq path (splitLevels topic) (levels_of_valid ht)
    by_cases hm : MatchesLevels path (splitLevels topic)
    · rw [hc.1 hm] at h; right; simpa using h
    · rw [hc.2 hm] at h; left; simpa using h

/-- C25 fails without the validity of the topic: a publication to the topic "+" or "#" (which the
will path does not exclude) is put twice into the channel of the subscription of the same name,
whatever the tree. -/
theorem C25_wildcard_topic_false {T : Type} (before : List (TreeOp T)) (v : T) (topic : Str)
    (h : topic = str "+" ∨ topic = str "#") :
    let s := TopicTree.subscribe (TreeOp.run TopicTree.new before) topic
    pending (TopicTree.publish s.1 topic v) s.2 = [v, v] := by
  intro s
  have := pending_run (TreeOp.run TopicTree.new before) topic [.publish topic v]
  have hc : TopicNode.copies (splitLevels topic) (splitLevels topic) = 2 := by
    rcases h with rfl | rfl <;> decide +kernel
  simp only [publications, List.flatMap_cons, List.flatMap_nil, List.append_nil, hc] at this
  exact this

/-- The number of copies doubles with every level: n levels "+" give 2^n copies. -/
theorem C25_copies_double_false (n : Nat) :
    TopicNode.copies (List.replicate n plusLevel) (List.replicate n plusLevel) = 2 ^ n := by
  induction n with
  | zero => rfl
  | succ n ih =>
    simp only [List.replicate_succ, TopicNode.copies, ih]
    have : ¬ plusLevel = hashLevel := by decide
    simp [this]; omega

/-! ## C27: independence of other subscriptions -/

/-- C27: what a subscription receives depends only on its filter and on what is published after
it was made: not on earlier operations, nor on other subscriptions made before or afterwards.
Holds for all topics, also invalid ones. -/
theorem C27_independent {T : Type} (before₁ before₂ after₁ after₂ : List (TreeOp T)) (f : Str)
    (h : publications after₁ = publications after₂) :
    let s₁ := TopicTree.subscribe (TreeOp.run TopicTree.new before₁) f
    let s₂ := TopicTree.subscribe (TreeOp.run TopicTree.new before₂) f
    pending (TreeOp.run s₁.1 after₁) s₁.2 = pending (TreeOp.run s₂.1 after₂) s₂.2 := by
  intro s₁ s₂
  rw [pending_run, pending_run, h]

/-- C27: adding a subscription changes nothing for an existing one: neither what it has already
been sent nor what it gets from the next publication. -/
theorem C27_add {T : Type} (t : TopicTree T) (path : List Str) (n : TopicNode T)
    (hn : t.find path = some n) (g topic : Str) (v : T) :
    let t' := (TopicTree.subscribe t g).1
    (∃ n', t'.find path = some n' ∧ n'.sent = n.sent) ∧
    ∃ m m', (TopicTree.publish t topic v).find path = some m ∧
      (TopicTree.publish t' topic v).find path = some m' ∧ m'.sent = m.sent := by
  intro t'
  have h0 : TopicNode.sentAt t path = some n.sent := by simp [TopicNode.sentAt, hn]
  have h1 : TopicNode.sentAt t' path = some n.sent :=
    TopicNode.sentAt_ensure t (splitLevels g) path _ h0
  have h2 := sentAt_publish t topic v path _ h0
  have h3 := sentAt_publish t' topic v path _ h1
  have get : ∀ (u : TopicTree T) (s : List T), TopicNode.sentAt u path = some s →
      ∃ m, u.find path = some m ∧ m.sent = s := by
    intro u s h
    unfold TopicNode.sentAt at h
    cases hf : u.find path with
    | none => simp [hf] at h
    | some m => simp [hf] at h; exact ⟨m, rfl, h⟩
  refine ⟨get _ _ h1, ?_⟩
  obtain ⟨m, hm, hs⟩ := get _ _ h2
  obtain ⟨m', hm', hs'⟩ := get _ _ h3
  exact ⟨m, m', hm, hm', by rw [hs, hs']⟩

example : publications [TreeOp.subscribe (T := Nat) (str "x"), .publish (str "a") 1] =
    publications [TreeOp.publish (str "a") 1, .subscribe (str "y")] := rfl

end Mercurio
