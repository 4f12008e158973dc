import Verif.Spec.Calls
import Verif.Props.Walk
import Verif.Props.Broker

/-!
# C88: concurrent publications and subscriptions
-/

namespace Mercurio

open Spec

namespace Calls

/-- The step of the topic tree in an event, if it has one. -/
def toWalk : Event → Option (Walk.Event Message)
  | .subTree q f => some (.subscribe q f)
  | .begin k t m => some (.begin k t m)
  | .work k => some (.work k)
  | .finish k => some (.finish k)
  | _ => none

theorem run_append (s : State) (a b : List Event) :
    run s (a ++ b) = (run s a).bind fun s' => run s' b := by
  induction a generalizing s with
  | nil => rfl
  | cons e es ih =>
    simp only [List.cons_append, run]
    cases step s e with
    | none => rfl
    | some s' => exact ih s'

theorem run_cons {s s' : State} {e : Event} {es : List Event} (h : run s (e :: es) = some s') :
    ∃ s1, step s e = some s1 ∧ run s1 es = some s' := by
  simp only [run] at h
  cases hs : step s e with
  | none => rw [hs] at h; cases h
  | some s1 => rw [hs] at h; exact ⟨s1, rfl, h⟩

theorem tree_some {s s' : State} {e : Walk.Event Message} (h : s.tree e = some s') :
    ∃ w, Walk.step s.walk e = some w ∧ s' = { s with walk := w } := by
  unfold State.tree at h
  cases hw : Walk.step s.walk e with
  | none => rw [hw] at h; cases h
  | some w => rw [hw] at h; cases h; exact ⟨w, rfl, rfl⟩

/-- What a step does to the parts of the state. -/
theorem step_parts {s s' : State} {e : Event} (h : step s e = some s') :
    (match toWalk e with
      | some w => Walk.step s.walk w = some s'.walk
      | none => s'.walk = s.walk) ∧
    s'.store = (match e with | .store _ t m => Broker.publishStore s.store t m | _ => s.store) ∧
    (∀ q f r, s.reads.get q = some (f, some r) → (∀ f', e ≠ .subTree q f') →
      s'.reads.get q = some (f, some r)) ∧
    (∀ q f, s.reads.get q = some (f, none) → (∀ f', e ≠ .subTree q f') → e ≠ .subRead q →
      s'.reads.get q = some (f, none)) := by
  cases e with
  | subTree q f =>
    obtain ⟨w, hw, rfl⟩ := tree_some h
    refine ⟨hw, rfl, fun q' f' r hr hn => ?_, fun q' f' hr hn _ => ?_⟩
    · show (s.reads.insert q (f, none)).get q' = _
      rw [Map.get_insert, if_neg (fun h => hn f (by rw [h])), hr]
    · show (s.reads.insert q (f, none)).get q' = _
      rw [Map.get_insert, if_neg (fun h => hn f (by rw [h])), hr]
  | subRead q =>
    simp only [step] at h
    split at h
    · rename_i f hq
      simp only [Option.some.injEq] at h
      subst h
      refine ⟨rfl, rfl, fun q' f' r hr _ => ?_, fun q' f' hr _ hn => ?_⟩
      · show (s.reads.insert q _).get q' = _
        rw [Map.get_insert]
        split
        · rename_i hqq; subst hqq; rw [hq] at hr; cases hr
        · exact hr
      · show (s.reads.insert q _).get q' = _
        rw [Map.get_insert, if_neg (fun h => hn (by rw [h])), hr]
    · cases h
  | store k t m =>
    simp only [step] at h
    split at h
    · simp only [Option.some.injEq] at h
      subst h
      exact ⟨rfl, rfl, fun _ _ _ h _ => h, fun _ _ h _ _ => h⟩
    · cases h
  | begin k t m =>
    simp only [step] at h
    split at h
    · obtain ⟨w, hw, rfl⟩ := tree_some h
      exact ⟨hw, rfl, fun _ _ _ h _ => h, fun _ _ h _ _ => h⟩
    · cases h
  | work k =>
    obtain ⟨w, hw, rfl⟩ := tree_some h
    exact ⟨hw, rfl, fun _ _ _ h _ => h, fun _ _ h _ _ => h⟩
  | finish k =>
    obtain ⟨w, hw, rfl⟩ := tree_some h
    exact ⟨hw, rfl, fun _ _ _ h _ => h, fun _ _ h _ _ => h⟩

theorem run_walk {s s' : State} {es : List Event} (h : run s es = some s') :
    Walk.run s.walk (es.filterMap toWalk) = some s'.walk := by
  induction es generalizing s with
  | nil => cases h; rfl
  | cons e es ih =>
    obtain ⟨s1, h1, h2⟩ := run_cons h
    have := (step_parts h1).1
    rw [List.filterMap_cons]
    cases hw : toWalk e with
    | none => rw [hw] at this; rw [← ih h2]; simp only at this; rw [this]
    | some w =>
      rw [hw] at this
      simp only [Walk.run, this]
      exact ih h2

theorem begun_toWalk (k : Nat) (es : List Event) : begun k (es.filterMap toWalk) = walked k es := by
  induction es with
  | nil => rfl
  | cons e es ih =>
    rw [List.filterMap_cons]
    cases e <;> simp [toWalk, begun, walked, ih]

theorem storeSteps_append (a b : List Event) : storeSteps (a ++ b) = storeSteps a ++ storeSteps b := by
  induction a with
  | nil => rfl
  | cons e es ih => cases e <;> simp [storeSteps, ih]

theorem run_store {s s' : State} {es : List Event} (h : run s es = some s') {pubs : List (Str × Message)}
    (hs : RetainedIs s.store pubs) : RetainedIs s'.store (pubs ++ storeSteps es) := by
  induction es generalizing s pubs with
  | nil => cases h; simpa [storeSteps] using hs
  | cons e es ih =>
    obtain ⟨s1, h1, h2⟩ := run_cons h
    have hst := (step_parts h1).2.1
    cases e with
    | store k t m =>
      have := ih h2 (pubs := pubs ++ [(t, m)]) (by rw [hst]; exact hs.publish t m)
      simpa [storeSteps] using this
    | _ => exact ih h2 (by rw [hst]; exact hs)

/-- A call that has taken its tree step is not taken again. -/
theorem subTree_fresh {s s' : State} {q : Nat} {f : Str} (h : step s (.subTree q f) = some s') :
    s.walk.subs.get q = none ∧ ∃ r, s'.walk.subs.get q = some r := by
  have hw : Walk.step s.walk (.subscribe q f) = some s'.walk := (step_parts h).1
  simp only [Walk.step] at hw
  split at hw
  · rename_i hc
    simp only [Option.some.injEq] at hw
    refine ⟨Option.isNone_iff_eq_none.mp hc.2, (TopicTree.subscribe s.walk.tree f).2, ?_⟩
    rw [← hw]
    exact (Map.get_insert _ _ _ _).trans (if_pos rfl)
  · cases hw

theorem step_subs {s s' : State} {e : Event} (h : step s e = some s') {q : Nat} {r : Receiver}
    (hq : s.walk.subs.get q = some r) : s'.walk.subs.get q = some r ∧ ∀ f, e ≠ .subTree q f := by
  constructor
  · have := (step_parts h).1
    cases hw : toWalk e with
    | none => rw [hw] at this; simp only at this; rw [this]; exact hq
    | some w => rw [hw] at this; exact Walk.subs_step this hq
  · rintro f rfl
    rw [(subTree_fresh h).1] at hq
    cases hq

theorem run_subs {s s' : State} {es : List Event} (h : run s es = some s') {q : Nat} {r : Receiver}
    (hq : s.walk.subs.get q = some r) : s'.walk.subs.get q = some r ∧ ∀ f, .subTree q f ∉ es := by
  induction es generalizing s with
  | nil => cases h; exact ⟨hq, fun _ h => by cases h⟩
  | cons e es ih =>
    obtain ⟨s1, h1, h2⟩ := run_cons h
    obtain ⟨h3, h4⟩ := step_subs h1 hq
    obtain ⟨h5, h6⟩ := ih h2 h3
    refine ⟨h5, fun f hf => ?_⟩
    rcases List.mem_cons.mp hf with hf | hf
    · exact h4 f hf.symm
    · exact h6 f hf

theorem run_reads {s s' : State} {es : List Event} (h : run s es = some s') {q : Nat} {f : Str}
    (hn : ∀ f, .subTree q f ∉ es) :
    (∀ r, s.reads.get q = some (f, some r) → s'.reads.get q = some (f, some r)) ∧
    (s.reads.get q = some (f, none) → .subRead q ∉ es → s'.reads.get q = some (f, none)) := by
  induction es generalizing s with
  | nil => cases h; exact ⟨fun _ h => h, fun h _ => h⟩
  | cons e es ih =>
    obtain ⟨s1, h1, h2⟩ := run_cons h
    obtain ⟨_, _, h3, h4⟩ := step_parts h1
    obtain ⟨h5, h6⟩ := ih h2 (fun f hf => hn f (List.mem_cons_of_mem _ hf))
    have hne : ∀ f', e ≠ .subTree q f' := fun f' he => hn f' (by simp [he])
    exact ⟨fun r hr => h5 r (h3 q f r hr hne),
      fun hr hs => h6 (h4 q f hr hne (fun he => hs (by simp [he]))) (fun h => hs (List.mem_cons_of_mem _ h))⟩

theorem run_filter {s s' : State} {es : List Event} (h : run s es = some s') {q : Nat} {f : Str}
    {x : Option (List Message)} (hn : ∀ f, .subTree q f ∉ es) (hr : s.reads.get q = some (f, x)) :
    ∃ y, s'.reads.get q = some (f, y) := by
  induction es generalizing s x with
  | nil => cases h; exact ⟨x, hr⟩
  | cons e es ih =>
    obtain ⟨s1, h1, h2⟩ := run_cons h
    have hn' : ∀ f, .subTree q f ∉ es := fun f hf => hn f (List.mem_cons_of_mem _ hf)
    obtain ⟨_, _, h3, h4⟩ := step_parts h1
    have hne : ∀ f', e ≠ .subTree q f' := fun f' he => hn f' (by simp [he])
    cases x with
    | some r => exact ih h2 hn' (h3 q f r hr hne)
    | none =>
      by_cases he : e = .subRead q
      · subst he
        simp only [step, hr, Option.some.injEq] at h1
        subst h1
        exact ih h2 hn' ((Map.get_insert _ _ _ _).trans (if_pos rfl))
      · exact ih h2 hn' (h4 q f hr hne he)

end Calls

open Calls

/-- C88: any number of tasks call `publish` and `subscribe` at the same time, their steps interleaved in any
way.  A subscription with filter `f` has been given, live, an interleaving of the messages that `f` matches
and that the tasks began to route after its tree step: each once, those of one task in its order.  Only
a message that is still being routed may be missing. -/
theorem C88_live (before after : List Calls.Event) (q : Nat) (f : Str) (s : Calls.State)
    (hrun : Calls.run Calls.init (before ++ .subTree q f :: after) = some s)
    (hv : ∀ k t m, .begin k t m ∈ after → ValidTopic t) :
    ∃ r parts, s.walk.subs.get q = some r ∧ Interleaves (pending s.walk.tree r) parts ∧
      ∀ k, parts k = Spec.matching f (walked k after) ∨
        ((s.walk.calls.get k).isSome ∧ parts k = Spec.matching f (walked k after).dropLast) := by
  have h := run_walk hrun
  rw [List.filterMap_append, List.filterMap_cons] at h
  obtain ⟨r, parts, h1, h2, h3⟩ := C82_once_in_order (before.filterMap toWalk) (after.filterMap toWalk) q f
    s.walk h (by
      intro k t m hm
      rw [List.mem_filterMap] at hm
      obtain ⟨e, he, hw⟩ := hm
      cases e <;> simp [toWalk] at hw
      obtain ⟨rfl, rfl, rfl⟩ := hw
      exact hv _ _ _ he)
  refine ⟨r, parts, h1, h2, fun k => ?_⟩
  rw [← begun_toWalk]
  exact h3 k

/-- C88: as retained messages it is given, for each topic that `f` matches, the last message stored for the
topic with the retain flag when it reads them, unless that one had no payload; one for each such topic. -/
theorem C88_retained (before mid after : List Calls.Event) (q : Nat) (f : Str) (hf : ValidFilter f)
    (s : Calls.State)
    (hrun : Calls.run Calls.init (before ++ .subTree q f :: (mid ++ .subRead q :: after)) = some s) :
    ∃ (r : List Message) (topics : List Str), s.reads.get q = some (f, some r) ∧ topics.Nodup ∧
      (∀ t, t ∈ topics ↔ Matches f t ∧ (retainedOf t (storeSteps (before ++ mid))).isSome) ∧
      r = topics.filterMap fun t => retainedOf t (storeSteps (before ++ mid)) := by
  rw [Calls.run_append] at hrun
  cases h0 : Calls.run Calls.init before with
  | none => rw [h0] at hrun; cases hrun
  | some s0 =>
    rw [h0] at hrun
    simp only [Option.bind_some] at hrun
    obtain ⟨s1, h1, hrun⟩ := run_cons hrun
    rw [Calls.run_append] at hrun
    cases h2 : Calls.run s1 mid with
    | none => rw [h2] at hrun; cases hrun
    | some s2 =>
      rw [h2] at hrun
      simp only [Option.bind_some] at hrun
      obtain ⟨s3, h3, hrun⟩ := run_cons hrun
      obtain ⟨_, r1, hr1⟩ := subTree_fresh h1
      obtain ⟨hr2, hn2⟩ := run_subs h2 hr1
      have hr3 := (step_subs h3 hr2).1
      obtain ⟨_, hn3⟩ := run_subs hrun hr3
      have hread1 : s1.reads.get q = some (f, none) := by
        obtain ⟨w, _, rfl⟩ := tree_some h1
        exact (Map.get_insert _ _ _ _).trans (if_pos rfl)
      have hst : RetainedIs s2.store (storeSteps (before ++ mid)) := by
        have a0 := run_store h0 (pubs := []) RetainedIs.new
        have a1 : RetainedIs s1.store ([] ++ storeSteps before) := by rw [(step_parts h1).2.1]; exact a0
        have a2 := run_store h2 a1
        rw [storeSteps_append]
        simpa using a2
      have hread3 : s3.reads.get q = some (f, some (s2.store.getRetained f)) := by
        simp only [Calls.step] at h3
        split at h3
        · rename_i f' hq
          simp only [Option.some.injEq] at h3
          have hff : f' = f := by
            obtain ⟨x, hx⟩ := run_filter h2 hn2 hread1
            rw [hq] at hx
            cases hx
            rfl
          subst h3 hff
          exact (Map.get_insert _ _ _ _).trans (if_pos rfl)
        · cases h3
      obtain ⟨ts, hnd, hts, he⟩ := hst.lookup f hf
      exact ⟨_, ts, (run_reads hrun hn3).1 _ hread3, hnd, hts, he⟩

namespace Calls

theorem cut {es : List Event} {a : Nat} {e : Event} (h : es[a]? = some e) :
    es = es.take a ++ e :: es.drop (a + 1) := by
  obtain ⟨hlt, he⟩ := List.getElem?_eq_some_iff.mp h
  rw [← he, ← List.drop_eq_getElem_cons hlt, List.take_append_drop]

theorem walked_append (k : Nat) (a b : List Event) : walked k (a ++ b) = walked k a ++ walked k b := by
  rw [← begun_toWalk, ← begun_toWalk, ← begun_toWalk, List.filterMap_append, Walk.begun_append]

theorem walked_mem {k : Nat} {es : List Event} {x : Str × Message} (h : x ∈ walked k es) :
    .begin k x.1 x.2 ∈ es := by
  induction es with
  | nil => cases h
  | cons e es ih =>
    cases e with
    | begin k' t m =>
      simp only [walked] at h
      split at h
      · rename_i hk
        subst hk
        rcases List.mem_cons.mp h with h | h
        · subst h; simp
        · exact List.mem_cons_of_mem _ (ih h)
      · exact List.mem_cons_of_mem _ (ih h)
    | _ => exact List.mem_cons_of_mem _ (ih h)

theorem begin_walked {k : Nat} {t : Str} {m : Message} {es : List Event} (h : .begin k t m ∈ es) :
    (t, m) ∈ walked k es := by
  obtain ⟨a, b, rfl⟩ := List.append_of_mem h
  rw [walked_append]
  simp [walked]

end Calls

/-- C88: a message published with the retain flag (stored at time `i`, its walk begun at time `j`) is not
missed by a subscription with a matching filter (tree step at time `a`, read at time `l`), whatever else
happens.  Either the subscription was given it live, or it is still being routed; or it was given, as
retained, the last message stored for the topic before its read, which is that message or a later one, unless
that one cleared the topic. -/
theorem C88_never_missed (es : List Calls.Event) (s : Calls.State) (hrun : Calls.run Calls.init es = some s)
    (k q : Nat) (t f : Str) (m : Message) (i j a l : Nat)
    (hi : es[i]? = some (.store k t m)) (hj : es[j]? = some (.begin k t m)) (hij : i < j)
    (ha : es[a]? = some (.subTree q f)) (hl : es[l]? = some (.subRead q)) (hal : a < l)
    (hv : ∀ k t m, .begin k t m ∈ es → ValidTopic t) (hf : ValidFilter f) (hm : Matches f t)
    (hr : m.retain = true) :
    ∃ r, s.walk.subs.get q = some r ∧
      (m ∈ pending s.walk.tree r ∨
       ((s.walk.calls.get k).isSome ∧ ∀ j' t' m', j < j' → es[j']? ≠ some (.begin k t' m')) ∨
       ∃ rs m', s.reads.get q = some (f, some rs) ∧
         lastWith (fun x => x.1 = t ∧ x.2.retain = true) (storeSteps (es.take l)) = some (t, m') ∧
         (m' = m ∨ (t, m') ∈ storeSteps ((es.take l).drop (i + 1))) ∧
         (m' ∈ rs ∨ hasPayload m' = false)) := by
  have hrun1 := hrun
  rw [cut ha] at hrun1
  have hv' : ∀ k t m, .begin k t m ∈ es.drop (a + 1) → ValidTopic t :=
    fun k t m h => hv k t m (List.mem_of_mem_drop h)
  obtain ⟨r, parts, h1, ⟨g, hg1, hg2⟩, h3⟩ := C88_live _ _ q f s hrun1 hv'
  refine ⟨r, h1, ?_⟩
  rcases Nat.lt_trichotomy j a with hja | hja | hja
  · -- routed before: stored before the read
    right; right
    have hmid : es.drop (a + 1) = (es.take l).drop (a + 1) ++ .subRead q :: es.drop (l + 1) := by
      conv => lhs; rw [cut hl]
      rw [List.drop_append_of_le_length]
      rw [List.length_take]
      have := (List.getElem?_eq_some_iff.mp hl).1
      omega
    rw [hmid] at hrun1
    obtain ⟨rs, topics, h4, _, h6, h7⟩ := C88_retained _ _ _ q f hf s hrun1
    have hst : storeSteps (es.take a ++ (es.take l).drop (a + 1)) = storeSteps (es.take l) := by
      have hcut : es.take l = es.take a ++ .subTree q f :: (es.take l).drop (a + 1) := by
        have h8 : (es.take l)[a]? = some (.subTree q f) := by
          rw [List.getElem?_take, if_pos hal]; exact ha
        have h9 := cut h8
        rw [List.take_take, Nat.min_eq_left (by omega)] at h9
        exact h9
      conv => rhs; rw [hcut]
      rw [storeSteps_append, storeSteps_append]
      rfl
    rw [hst] at h6 h7
    have hsplit : storeSteps (es.take l) =
        storeSteps (es.take i) ++ (t, m) :: storeSteps ((es.take l).drop (i + 1)) := by
      have h8 : (es.take l)[i]? = some (.store k t m) := by
        rw [List.getElem?_take, if_pos (by omega)]; exact hi
      have h9 := cut h8
      rw [List.take_take, Nat.min_eq_left (by omega)] at h9
      conv => lhs; rw [h9]
      rw [storeSteps_append]
      rfl
    obtain ⟨m', hm1, hm2⟩ : ∃ m', lastWith (fun x => x.1 = t ∧ x.2.retain = true)
        (storeSteps (es.take l)) = some (t, m') ∧
        (m' = m ∨ (t, m') ∈ storeSteps ((es.take l).drop (i + 1))) := by
      rw [hsplit]
      generalize storeSteps ((es.take l).drop (i + 1)) = y
      generalize storeSteps (es.take i) = x
      unfold lastWith
      rw [List.reverse_append, List.reverse_cons, List.append_assoc, List.find?_append]
      cases hy : y.reverse.find? (fun x => decide (x.1 = t ∧ x.2.retain = true)) with
      | some z =>
        have h8 := List.find?_some hy
        have h9 := List.mem_of_find?_eq_some hy
        obtain ⟨t', m'⟩ := z
        simp only [decide_eq_true_eq] at h8
        obtain ⟨rfl, _⟩ := h8
        exact ⟨m', by simp, .inr (by simpa using h9)⟩
      | none =>
        refine ⟨m, ?_, .inl rfl⟩
        simp [hr]
    refine ⟨rs, m', h4, hm1, hm2, ?_⟩
    cases hp : hasPayload m' with
    | false => right; rfl
    | true =>
      left
      have hro : retainedOf t (storeSteps (es.take l)) = some m' := by
        simp only [retainedOf, hm1, hp, if_true]
      rw [h7, List.mem_filterMap]
      exact ⟨t, (h6 t).mpr ⟨hm, by simp [hro]⟩, hro⟩
  · subst hja; rw [hj] at ha; cases ha
  · -- routed after: delivered live
    obtain ⟨A, B, hAB, hB⟩ : ∃ A B, es.drop (a + 1) = A ++ .begin k t m :: B ∧ B = es.drop (j + 1) := by
      have h8 : (es.drop (a + 1))[j - (a + 1)]? = some (.begin k t m) := by
        rw [List.getElem?_drop, ← hj]; congr 1; omega
      refine ⟨_, _, cut h8, ?_⟩
      rw [List.drop_drop]; congr 1; omega
    have hw : walked k (es.drop (a + 1)) = walked k A ++ (t, m) :: walked k B := by
      rw [hAB, walked_append]; simp [walked]
    have hin : m ∈ parts k → m ∈ pending s.walk.tree r := by
      intro h
      rw [← hg2 k, List.mem_map] at h
      obtain ⟨x, hx, rfl⟩ := h
      rw [← hg1, List.mem_map]
      exact ⟨x, (List.mem_filter.mp hx).1, rfl⟩
    have hmatch : ∀ ps : List (Str × Message), (t, m) ∈ ps → m ∈ Spec.matching f ps := by
      intro ps hps
      simp only [Spec.matching, List.mem_map, List.mem_filter]
      exact ⟨(t, m), ⟨hps, by simpa using hm⟩, rfl⟩
    rcases h3 k with h3 | ⟨h3, h4⟩
    · left
      apply hin
      rw [h3, hw]
      exact hmatch _ (by simp)
    · cases hwB : walked k B with
      | nil =>
        right; left
        refine ⟨h3, fun j' t' m' hjj he => ?_⟩
        have : .begin k t' m' ∈ B := by
          rw [hB]
          refine List.mem_of_getElem? (i := j' - (j + 1)) ?_
          rw [List.getElem?_drop, ← he]; congr 1; omega
        have := begin_walked this
        rw [hwB] at this
        cases this
      | cons x xs =>
        left
        apply hin
        rw [h4, hw, hwB]
        apply hmatch
        rw [List.dropLast_append_of_ne_nil (by simp)]
        simp

/-! ## Who is right about the last message -/

/-- Two messages to the same topic, with the retain flag. -/
def exFirst : Message := ⟨none, str "a", false, .atMostOnce, true, some (str "1")⟩
def exSecond : Message := ⟨none, str "a", false, .atMostOnce, true, some (str "2")⟩

/-- Two tasks publish to the topic `a` while a client is subscribed; the one that stored first routes
last. -/
def exCalls : List Calls.Event :=
  [.subTree 0 (str "a"), .subRead 0, .store 1 (str "a") exFirst, .store 2 (str "a") exSecond,
    .begin 2 (str "a") exSecond, .work 2, .work 2, .work 2, .finish 2,
    .begin 1 (str "a") exFirst, .work 1, .work 1, .work 1, .finish 1, .subTree 3 (str "a"), .subRead 3]

/-- C88, that the retained message is the last one the subscribers were given, is false: here the first
subscriber was given the second message and then the first, and is left with the first, while all who come
later are given the second.  All calls have returned. -/
theorem C88_agree_false : ∃ s, Calls.run Calls.init exCalls = some s ∧ s.walk.calls = [] ∧ s.stored = [] ∧
    (s.walk.subs.get 0).map (pending s.walk.tree) = some [exSecond, exFirst] ∧
    s.reads.get 3 = some (str "a", some [exSecond]) :=
  ⟨_, rfl, by decide +kernel, by decide +kernel, by decide +kernel, by decide +kernel⟩

/-- A limit of C88: a message can be given both as retained and live, if the subscription is made between the
two steps of its publication. -/
theorem C88_twice : ∃ s, Calls.run Calls.init
      [.store 1 (str "a") exFirst, .subTree 0 (str "a"), .subRead 0, .begin 1 (str "a") exFirst, .work 1, .work 1,
        .work 1, .finish 1] = some s ∧
    (s.walk.subs.get 0).map (pending s.walk.tree) = some [exFirst] ∧
    s.reads.get 0 = some (str "a", some [exFirst]) :=
  ⟨_, rfl, by decide +kernel, by decide +kernel⟩

/-- The hypotheses of C88 are met: a publication that began before the subscription and one after it. -/
example : ∃ s, Calls.run Calls.init exCalls = some s ∧ exCalls[2]? = some (.store 1 (str "a") exFirst) ∧
    exCalls[9]? = some (.begin 1 (str "a") exFirst) ∧ exCalls[14]? = some (.subTree 3 (str "a")) ∧
    exCalls[15]? = some (.subRead 3) ∧ ValidTopic (str "a") ∧ ValidFilter (str "a") ∧
    Matches (str "a") (str "a") := by
  have h := (C22_publish_topic_iff (str "a")).mp (by decide +kernel)
  exact ⟨_, rfl, rfl, rfl, rfl, rfl, h, (C23_topic_is_filter _ h).1,
    ((C23_topic_is_filter _ h).2 _).mpr rfl⟩

namespace Calls

/-- The storage steps of one task. -/
def storesBy (k : Nat) : List Event → List (Str × Message)
  | [] => []
  | .store k' t m :: es => if k' = k then (t, m) :: storesBy k es else storesBy k es
  | _ :: es => storesBy k es

theorem storesBy_append (k : Nat) (a b : List Event) :
    storesBy k (a ++ b) = storesBy k a ++ storesBy k b := by
  induction a with
  | nil => rfl
  | cons e es ih =>
    cases e <;> simp only [List.cons_append, storesBy, ih]
    split <;> simp

/-- A task routes what it has stored, in order. -/
theorem stores_walked (k : Nat) (es : List Event) : ∀ s, run init es = some s →
    storesBy k es = walked k es ++ (s.stored.get k).toList := by
  induction es using snoc_induction with
  | h0 => intro s h; cases h; rfl
  | hs es e ih =>
    intro s h
    rw [run_append] at h
    cases h0 : run init es with
    | none => rw [h0] at h; cases h
    | some s0 =>
      rw [h0] at h
      obtain ⟨s1, h1, h2⟩ := run_cons h
      cases h2
      rw [storesBy_append, walked_append, ih s0 h0]
      cases e with
      | subTree q f =>
        obtain ⟨w, _, rfl⟩ := tree_some h1
        simp [storesBy, walked]
      | subRead q =>
        simp only [step] at h1
        split at h1
        · cases h1; simp [storesBy, walked]
        · cases h1
      | store k' t m =>
        simp only [step] at h1
        split at h1
        · rename_i hc
          cases h1
          simp only [storesBy, walked, Map.get_insert]
          split
          · rename_i hk
            subst hk
            rw [Option.isNone_iff_eq_none.mp hc.1]
            simp
          · simp
        · cases h1
      | begin k' t m =>
        simp only [step] at h1
        split at h1
        · rename_i hc
          obtain ⟨w, _, rfl⟩ := tree_some h1
          simp only [storesBy, walked, Map.get_erase]
          split
          · rename_i hk
            subst hk
            rw [hc]
            simp
          · simp
        · cases h1
      | work k' =>
        obtain ⟨w, _, rfl⟩ := tree_some h1
        simp [storesBy, walked]
      | finish k' =>
        obtain ⟨w, _, rfl⟩ := tree_some h1
        simp [storesBy, walked]

theorem storesBy_mem {k : Nat} {es : List Event} {x : Str × Message} (h : x ∈ storesBy k es) :
    .store k x.1 x.2 ∈ es := by
  induction es with
  | nil => cases h
  | cons e es ih =>
    cases e with
    | store k' t m =>
      simp only [storesBy] at h
      split at h
      · rename_i hk
        subst hk
        rcases List.mem_cons.mp h with h | h
        · subst h; simp
        · exact List.mem_cons_of_mem _ (ih h)
      · exact List.mem_cons_of_mem _ (ih h)
    | _ => exact List.mem_cons_of_mem _ (ih h)

theorem storeSteps_filter {k : Nat} {t : Str} (es : List Event)
    (h : ∀ k' m, .store k' t m ∈ es → k' = k ∧ m.retain = true) :
    (storeSteps es).filter (fun x => decide (x.1 = t ∧ x.2.retain = true)) =
      (storesBy k es).filter (fun x => decide (x.1 = t)) := by
  induction es with
  | nil => rfl
  | cons e es ih =>
    have ih := ih (fun k' m hm => h k' m (List.mem_cons_of_mem _ hm))
    cases e with
    | store k' t' m =>
      simp only [storeSteps, storesBy, List.filter_cons]
      by_cases ht : t' = t
      · subst ht
        obtain ⟨rfl, hr⟩ := h k' m (by simp)
        rw [if_pos (by simp [hr]), if_pos rfl, List.filter_cons, if_pos (by simp), ih]
      · rw [if_neg (by simp [ht]), ih]
        split
        · rw [List.filter_cons, if_neg (by simp [ht])]
        · rfl
    | _ => exact ih

end Calls

theorem lastWith_filter {α : Type} (p : α → Bool) (l : List α) : lastWith p l = (l.filter p).getLast? := by
  unfold lastWith
  rw [← List.head?_filter, List.filter_reverse, List.head?_reverse]

theorem interleaves_one {T : Type} {l : List T} {parts : Nat → List T} (h : Interleaves l parts) (k : Nat)
    (hk : ∀ k', k' ≠ k → parts k' = []) : l = parts k := by
  obtain ⟨g, h1, h2⟩ := h
  rw [← h1, ← h2 k, List.filter_eq_self.mpr]
  intro x hx
  by_cases hc : x.1 = k
  · simpa using hc
  · exfalso
    have h3 := h2 x.1
    rw [hk _ hc, List.map_eq_nil_iff, List.filter_eq_nil_iff] at h3
    exact h3 x hx (by simp)

/-- What holds of it: if only one task publishes to a topic, with the retain flag and a payload, and its calls
have returned, then the last message a subscriber of the topic was given is the one retained. -/
theorem C88_agree_partial (before after : List Calls.Event) (q k : Nat) (t : Str) (s : Calls.State)
    (hrun : Calls.run Calls.init (before ++ .subTree q t :: after) = some s)
    (hv : ∀ k t m, .begin k t m ∈ after → ValidTopic t) (ht : ValidTopic t)
    (hone : ∀ k' m, .store k' t m ∈ before ++ after → k' = k ∧ m.retain = true ∧ hasPayload m = true)
    (hdone : s.walk.calls.get k = none ∧ s.stored.get k = none)
    (hsome : ∃ m, .begin k t m ∈ after) :
    ∃ r m, s.walk.subs.get q = some r ∧ (pending s.walk.tree r).getLast? = some m ∧
      retainedOf t (storeSteps (before ++ after)) = some m := by
  obtain ⟨r, parts, h1, h2, h3⟩ := C88_live before after q t s hrun hv
  have hex := (C23_topic_is_filter t ht).2
  have hsb : ∀ k', storesBy k' (before ++ .subTree q t :: after) = storesBy k' (before ++ after) := by
    intro k'; rw [storesBy_append, storesBy_append]; rfl
  have hwb : ∀ k', walked k' (before ++ .subTree q t :: after) = walked k' (before ++ after) := by
    intro k'; rw [walked_append, walked_append]; rfl
  have hsw : ∀ k', storesBy k' (before ++ after) = walked k' (before ++ after) ++ (s.stored.get k').toList := by
    intro k'; rw [← hsb, ← hwb]; exact stores_walked k' _ s hrun
  have hmat : ∀ ps : List (Str × Message),
      Spec.matching t ps = (ps.filter fun x => decide (x.1 = t)).map Prod.snd := by
    intro ps
    unfold Spec.matching
    congr 1
    apply List.filter_congr
    intro x _
    simp only [hex, eq_comm]
  have hother : ∀ k', k' ≠ k → parts k' = [] := by
    intro k' hk
    have h4 : ∀ ps : List (Str × Message), (∀ x ∈ ps, x ∈ walked k' after) → Spec.matching t ps = [] := by
      intro ps hps
      rw [hmat, List.map_eq_nil_iff, List.filter_eq_nil_iff]
      intro x hx hxt
      have h5 : x ∈ storesBy k' (before ++ after) := by
        rw [hsw, walked_append]
        exact List.mem_append_left _ (List.mem_append_right _ (hps x hx))
      have h6 := storesBy_mem h5
      simp only [decide_eq_true_eq] at hxt
      rw [hxt] at h6
      exact hk (hone k' x.2 h6).1
    rcases h3 k' with h | ⟨_, h⟩
    · rw [h]; exact h4 _ (fun _ h => h)
    · rw [h]; exact h4 _ (fun _ h => List.dropLast_subset _ h)
  have hp := interleaves_one h2 k hother
  have hpk : parts k = ((walked k after).filter fun x => decide (x.1 = t)).map Prod.snd := by
    rcases h3 k with h | ⟨h, _⟩
    · rw [h, hmat]
    · rw [hdone.1] at h; cases h
  obtain ⟨m0, hm0⟩ := hsome
  have hne : (walked k after).filter (fun x => decide (x.1 = t)) ≠ [] := by
    intro h
    rw [List.filter_eq_nil_iff] at h
    exact h _ (begin_walked hm0) (by simp)
  obtain ⟨⟨t', m⟩, hlast⟩ : ∃ x, ((walked k after).filter fun x => decide (x.1 = t)).getLast? = some x :=
    ⟨_, List.getLast?_eq_some_getLast hne⟩
  have hmem := List.mem_filter.mp (List.mem_of_getLast? hlast)
  obtain rfl : t' = t := by simpa using hmem.2
  refine ⟨r, m, h1, ?_, ?_⟩
  · rw [hp, hpk, List.getLast?_map, hlast]; rfl
  · have h5 : lastWith (fun x => decide (x.1 = t' ∧ x.2.retain = true)) (storeSteps (before ++ after)) =
        some (t', m) := by
      rw [lastWith_filter, storeSteps_filter (k := k) _ (fun k' m' h => ⟨(hone k' m' h).1, (hone k' m' h).2.1⟩),
        hsw, hdone.2, Option.toList_none, List.append_nil, walked_append, List.filter_append,
        List.getLast?_append, hlast]
      rfl
    have h6 : (t', m) ∈ storesBy k (before ++ after) := by
      rw [hsw, walked_append]
      exact List.mem_append_left _ (List.mem_append_right _ hmem.1)
    simp only [retainedOf, h5, (hone k m (storesBy_mem h6)).2.2, if_true]

/-- A case for it. -/
example : ∃ s, Calls.run Calls.init
    ([] ++ .subTree 0 (str "a") :: [.store 1 (str "a") exFirst, .begin 1 (str "a") exFirst, .work 1, .work 1,
      .work 1, .finish 1, .store 1 (str "a") exSecond, .begin 1 (str "a") exSecond, .work 1, .work 1, .work 1,
      .finish 1]) = some s ∧ s.walk.calls.get 1 = none ∧ s.stored.get 1 = none ∧ hasPayload exFirst = true ∧
      hasPayload exSecond = true :=
  ⟨_, rfl, by decide +kernel, by decide +kernel, by decide +kernel, by decide +kernel⟩

end Mercurio
