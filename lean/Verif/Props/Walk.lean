import Verif.Spec.Walk
import Verif.Props.Broker

/-!
# C82: concurrent publications
-/

namespace Mercurio

open Spec

namespace Walk

variable {T : Type}

theorem run_append (s : State T) (a b : List (Event T)) :
    run s (a ++ b) = (run s a).bind fun s' => run s' b := by
  induction a generalizing s with
  | nil => rfl
  | cons e es ih =>
    simp only [List.cons_append, run]
    cases step s e with
    | none => rfl
    | some s' => exact ih s'

theorem run_snoc {s s' : State T} {es : List (Event T)} {e : Event T} (h : run s (es ++ [e]) = some s') :
    ∃ s1, run s es = some s1 ∧ step s1 e = some s' := by
  rw [run_append] at h
  cases h1 : run s es with
  | none => rw [h1] at h; cases h
  | some s1 =>
    rw [h1] at h
    simp only [Option.bind_some, run] at h
    cases h2 : step s1 e with
    | none => rw [h2] at h; cases h
    | some s2 => rw [h2] at h; exact ⟨s1, rfl, h2.trans h⟩

theorem begun_append (k : Nat) (a b : List (Event T)) : begun k (a ++ b) = begun k a ++ begun k b := by
  induction a with
  | nil => rfl
  | cons e es ih =>
    cases e with
    | begin j t v =>
      simp only [List.cons_append, begun]
      split
      · rw [ih]; rfl
      · exact ih
    | _ => exact ih

/-- `q` without the beginning `p`. -/
def strip : List Str → List Str → Option (List Str)
  | [], q => some q
  | _ :: _, [] => none
  | a :: p, b :: q => if a = b then strip p q else none

theorem strip_some {p q r : List Str} : strip p q = some r ↔ q = p ++ r := by
  induction p generalizing q with
  | nil => simp [strip]
  | cons a p ih =>
    cases q with
    | nil => simp [strip]
    | cons b q =>
      simp only [strip]
      by_cases h : a = b
      · subst h; simp [ih]
      · simp only [if_neg h, List.cons_append, List.cons.injEq]
        constructor
        · rintro ⟨⟩
        · rintro ⟨rfl, _⟩; exact absurd rfl h

/-- How often an action (with all that follows from it) sends to the node with path `q`. -/
def remOne (q : List Str) : Act → Nat
  | .send p => if p = q then 1 else 0
  | .visit p rest => match strip p q with
    | some r => TopicNode.copies r rest
    | none => 0

/-- How often these actions send to the node with path `q`. -/
def rem (q : List Str) (as : List Act) : Nat := (as.map (remOne q)).sum

theorem rem_append (q : List Str) (a b : List Act) : rem q (a ++ b) = rem q a + rem q b := by
  simp [rem]

theorem find_append (t : TopicNode T) (p q : List Str) :
    t.find (p ++ q) = (t.find p).bind fun n => n.find q := by
  induction p generalizing t with
  | nil => rfl
  | cons a p ih =>
    rw [List.cons_append, TopicNode.find_cons, TopicNode.find_cons]
    cases t.child a with
    | none => rfl
    | some c => exact ih c

theorem rem_ifChild_send {n : TopicNode T} {p r : List Str} (level : Str) (hn : (n.find r).isSome) :
    rem (p ++ r) (ifChild n level (.send (p ++ [level]))) = if r = [level] then 1 else 0 := by
  unfold ifChild
  cases hc : n.child level with
  | none =>
    have : r ≠ [level] := by
      rintro rfl
      rw [TopicNode.find_isSome_cons, hc] at hn
      cases hn
    simp [rem, this]
  | some c =>
    simp only [rem, List.map_cons, remOne, List.map_nil, List.sum_cons, List.sum_nil, Nat.add_zero,
      List.append_cancel_left_eq]
    by_cases h : r = [level]
    · rw [if_pos h, if_pos h.symm]
    · rw [if_neg h, if_neg (Ne.symm h)]

theorem rem_ifChild_visit {n : TopicNode T} {p : List Str} (k level : Str) (r rest : List Str)
    (hn : (n.find (k :: r)).isSome) :
    rem (p ++ k :: r) (ifChild n level (.visit (p ++ [level]) rest)) =
      if k = level then TopicNode.copies r rest else 0 := by
  unfold ifChild
  cases hc : n.child level with
  | none =>
    have : k ≠ level := by
      rintro rfl
      rw [TopicNode.find_isSome_cons, hc] at hn
      cases hn
    simp [rem, this]
  | some c =>
    simp only [rem, List.map_cons, remOne, List.map_nil, List.sum_cons, List.sum_nil, Nat.add_zero]
    by_cases h : k = level
    · subst h
      have : strip (p ++ [k]) (p ++ k :: r) = some r := strip_some.mpr (by simp)
      rw [this, if_pos rfl]
    · have : strip (p ++ [level]) (p ++ k :: r) = none := by
        cases hs : strip (p ++ [level]) (p ++ k :: r) with
        | none => rfl
        | some r' =>
          rw [strip_some] at hs
          simp at hs
          exact absurd hs.1 h
      rw [this, if_neg h]

theorem rem_ifChild_visit_nil {n : TopicNode T} {p : List Str} (level : Str) (rest : List Str) :
    rem p (ifChild n level (.visit (p ++ [level]) rest)) = 0 := by
  unfold ifChild
  cases hc : n.child level with
  | none => rfl
  | some c =>
    have : strip (p ++ [level]) p = none := by
      cases hs : strip (p ++ [level]) p with
      | none => rfl
      | some r' =>
        rw [strip_some] at hs
        have := congrArg List.length hs
        simp at this
    simp [rem, remOne, this]

/-- A turn of the loop sends to the node at `p ++ r` as often as it should. -/
theorem rem_turn {n : TopicNode T} {p r : List Str} (rest : List Str) (hn : (n.find r).isSome) :
    rem (p ++ r) (turn n p rest) = TopicNode.copies r rest := by
  cases rest with
  | nil =>
    rw [show turn n p [] = [.send p] ++ ifChild n [0x23] (.send (p ++ [[0x23]])) from rfl, rem_append,
      rem_ifChild_send _ hn]
    simp only [rem, List.map_cons, remOne, List.map_nil, List.sum_cons, List.sum_nil, Nat.add_zero,
      TopicNode.copies]
    by_cases h0 : r = []
    · subst h0; simp
    · have : p ≠ p ++ r := fun e => h0 (by simpa using e)
      rw [if_neg this]
      by_cases h1 : r = [[0x23]]
      · simp [h1, hashLevel]
      · simp [h0, h1, hashLevel]
  | cons level rest =>
    rw [show turn n p (level :: rest) = ifChild n [0x23] (.send (p ++ [[0x23]])) ++
      ifChild n [0x2b] (.visit (p ++ [[0x2b]]) rest) ++ ifChild n level (.visit (p ++ [level]) rest) from rfl,
      rem_append, rem_append, rem_ifChild_send _ hn]
    cases r with
    | nil =>
      rw [List.append_nil, rem_ifChild_visit_nil, rem_ifChild_visit_nil]
      simp [TopicNode.copies]
    | cons k r =>
      rw [rem_ifChild_visit _ _ _ _ hn, rem_ifChild_visit _ _ _ _ hn]
      simp only [TopicNode.copies, hashLevel, plusLevel, List.cons.injEq]
      rfl

theorem strip_none_of {p q x : List Str} (h : strip p q = none) : strip (p ++ x) q = none := by
  cases hs : strip (p ++ x) q with
  | none => rfl
  | some r =>
    rw [strip_some] at hs
    have : strip p q = some (x ++ r) := strip_some.mpr (by rw [hs]; simp)
    rw [this] at h; cases h

theorem strip_none_ne {p q x : List Str} (h : strip p q = none) : p ++ x ≠ q := by
  rintro rfl
  have : strip p (p ++ x) = some x := strip_some.mpr rfl
  rw [this] at h; cases h

theorem rem_turn_other {n : TopicNode T} {p q : List Str} (rest : List Str) (h : strip p q = none) :
    rem q (turn n p rest) = 0 := by
  have hs : ∀ level : Str, rem q (ifChild n level (.send (p ++ [level]))) = 0 := by
    intro level
    unfold ifChild
    cases n.child level with
    | none => rfl
    | some c => simp [rem, remOne, strip_none_ne h]
  have hv : ∀ (level : Str) (r : List Str), rem q (ifChild n level (.visit (p ++ [level]) r)) = 0 := by
    intro level r
    unfold ifChild
    cases n.child level with
    | none => rfl
    | some c => simp [rem, remOne, strip_none_of h]
  cases rest with
  | nil =>
    rw [show turn n p [] = [.send p] ++ ifChild n [0x23] (.send (p ++ [[0x23]])) from rfl, rem_append, hs]
    have : p ≠ q := fun e => strip_none_ne (x := []) h (by simpa using e)
    simp [rem, remOne, this]
  | cons level rest =>
    rw [show turn n p (level :: rest) = ifChild n [0x23] (.send (p ++ [[0x23]])) ++
      ifChild n [0x2b] (.visit (p ++ [[0x2b]]) rest) ++ ifChild n level (.visit (p ++ [level]) rest) from rfl,
      rem_append, rem_append, hs, hv, hv]

/-- What a turn adds sends to an existing node as often as the stack entry it handles. -/
theorem rem_act_visit (t : TopicTree T) (v : T) (p rest q : List Str) (hq : (t.find q).isSome) :
    act t v (.visit p rest) = (t, (act t v (.visit p rest)).2) ∧
    rem q (act t v (.visit p rest)).2 = remOne q (.visit p rest) := by
  unfold act
  simp only [remOne]
  cases hs : strip p q with
  | none =>
    cases t.find p with
    | none => exact ⟨rfl, rfl⟩
    | some n => exact ⟨rfl, rem_turn_other rest hs⟩
  | some r =>
    rw [strip_some] at hs
    subst hs
    rw [find_append] at hq
    cases hn : t.find p with
    | none => rw [hn] at hq; cases hq
    | some n => rw [hn] at hq; exact ⟨rfl, rem_turn rest hq⟩

/-- The copies of publications that are for the node at `q`. -/
def due (q : List Str) (ps : List (Str × T)) : List T :=
  ps.flatMap fun p => List.replicate (TopicNode.copies q (splitLevels p.1)) p.2

theorem due_snoc (q : List Str) (ps : List (Str × T)) (x : Str × T) :
    due q (ps ++ [x]) = due q ps ++ List.replicate (TopicNode.copies q (splitLevels x.1)) x.2 := by
  simp [due]

/-- What the owner `k` has in `g`. -/
def ofOwner (g : List (Nat × T)) (k : Nat) : List T := (g.filter fun x => decide (x.1 = k)).map Prod.snd

theorem ofOwner_snoc (g : List (Nat × T)) (j k : Nat) (v : T) :
    ofOwner (g ++ [(j, v)]) k = ofOwner g k ++ if j = k then [v] else [] := by
  unfold ofOwner
  by_cases h : j = k <;> simp [h]

/-- What holds of the part of task `k` in what a channel has been given. -/
def PartOk (q : List Str) (es : List (Event T)) (k : Nat) (part : List T) : Option (Call T) → Prop
  | none => part = due q (begun k es)
  | some call => ∃ p topic c, begun k es = p ++ [(topic, call.value)] ∧
      part = due q p ++ List.replicate c call.value ∧
      c + rem q call.todo = TopicNode.copies q (splitLevels topic)

/-- What holds of the channel of a node after the events `es`. -/
def Good (q : List Str) (base : List T) (es : List (Event T)) (s : State T) : Prop :=
  ∃ g : List (Nat × T), TopicNode.sentAt s.tree q = some (base ++ g.map Prod.snd) ∧
    ∀ k, PartOk q es k (ofOwner g k) (s.calls.get k)

theorem find_of_sentAt {t : TopicTree T} {q : List Str} {l : List T} (h : TopicNode.sentAt t q = some l) :
    (t.find q).isSome := by
  unfold TopicNode.sentAt at h
  cases hf : t.find q with
  | none => rw [hf] at h; cases h
  | some n => rfl

theorem begun_quiet {k : Nat} (es : List (Event T)) {e : Event T} (h : begun k [e] = []) :
    begun k (es ++ [e]) = begun k es := by
  rw [begun_append, h, List.append_nil]

theorem PartOk.quiet {q : List Str} {es : List (Event T)} {k : Nat} {part : List T} {o : Option (Call T)}
    {e : Event T} (h : PartOk q es k part o) (he : begun k [e] = []) : PartOk q (es ++ [e]) k part o := by
  cases o with
  | none => unfold PartOk at *; rw [begun_quiet es he]; exact h
  | some c => unfold PartOk at *; rw [begun_quiet es he]; exact h

theorem good_step {q : List Str} {base : List T} {es : List (Event T)} {s s' : State T} {e : Event T}
    (h : Good q base es s) (hs : step s e = some s') : Good q base (es ++ [e]) s' := by
  obtain ⟨g, hg, hk⟩ := h
  cases e with
  | subscribe q' f =>
    simp only [step] at hs
    split at hs
    · cases hs
      refine ⟨g, TopicNode.sentAt_ensure _ _ _ _ hg, fun k => (hk k).quiet rfl⟩
    · cases hs
  | begin j topic v =>
    simp only [step] at hs
    cases hc : s.calls.get j with
    | some c => rw [hc] at hs; cases hs
    | none =>
      rw [hc] at hs
      cases hs
      refine ⟨g, hg, fun k => ?_⟩
      rw [Map.get_insert]
      by_cases hjk : j = k
      · subst hjk
        rw [if_pos rfl]
        have h1 := hk j
        rw [hc] at h1
        refine ⟨begun j es, topic, 0, ?_, ?_, ?_⟩
        · rw [begun_append]; simp [begun]
        · simpa [PartOk] using h1
        · simp [rem, remOne, strip]
      · rw [if_neg hjk]
        exact (hk k).quiet (by simp [begun, hjk])
  | work j =>
    simp only [step] at hs
    cases hc : s.calls.get j with
    | none => rw [hc] at hs; cases hs
    | some c =>
      obtain ⟨v, todo⟩ := c
      rw [hc] at hs
      cases todo with
      | nil => cases hs
      | cons a as =>
        cases hs
        have h1 := hk j
        rw [hc] at h1
        obtain ⟨p, topic, c, h2, h3, h4⟩ := h1
        simp only at h2 h3
        rw [show a :: as = [a] ++ as from rfl, rem_append] at h4
        cases a with
        | send path =>
          by_cases hp : path = q
          · subst hp
            refine ⟨g ++ [(j, v)], ?_, fun k => ?_⟩
            · show TopicNode.sentAt (TopicNode.send s.tree path v) path = _
              rw [TopicNode.sentAt_send, if_pos rfl, hg]
              simp
            · rw [Map.get_insert, ofOwner_snoc]
              by_cases hjk : j = k
              · subst hjk
                rw [if_pos rfl, if_pos rfl]
                refine ⟨p, topic, c + 1, ?_, ?_, ?_⟩
                · rw [begun_quiet es rfl]; exact h2
                · rw [h3, List.append_assoc, List.replicate_succ']
                · rw [← h4]
                  show c + 1 + rem path ([] ++ as) = _
                  simp [rem, remOne]; omega
              · rw [if_neg hjk, if_neg hjk, List.append_nil]
                exact (hk k).quiet rfl
          · refine ⟨g, ?_, fun k => ?_⟩
            · show TopicNode.sentAt (TopicNode.send s.tree path v) q = _
              rw [TopicNode.sentAt_send, if_neg hp, hg]
            · rw [Map.get_insert]
              by_cases hjk : j = k
              · subst hjk
                rw [if_pos rfl]
                refine ⟨p, topic, c, ?_, h3, ?_⟩
                · rw [begun_quiet es rfl]; exact h2
                · rw [← h4]
                  show c + rem q ([] ++ as) = _
                  simp [rem, remOne, hp]
              · rw [if_neg hjk]
                exact (hk k).quiet rfl
        | visit path rest =>
          obtain ⟨e1, e2⟩ := rem_act_visit s.tree v path rest q (find_of_sentAt hg)
          refine ⟨g, ?_, fun k => ?_⟩
          · show TopicNode.sentAt (act s.tree v (.visit path rest)).1 q = _
            rw [e1]; exact hg
          · rw [Map.get_insert]
            by_cases hjk : j = k
            · subst hjk
              rw [if_pos rfl]
              refine ⟨p, topic, c, ?_, h3, ?_⟩
              · rw [begun_quiet es rfl]; exact h2
              · rw [← h4]
                show c + rem q ((act s.tree v (.visit path rest)).2 ++ as) = _
                rw [rem_append, e2]
                simp [rem]
            · rw [if_neg hjk]
              exact (hk k).quiet rfl
  | finish j =>
    simp only [step] at hs
    cases hc : s.calls.get j with
    | none => rw [hc] at hs; cases hs
    | some c =>
      obtain ⟨v, todo⟩ := c
      rw [hc] at hs
      cases todo with
      | cons a as => cases hs
      | nil =>
        cases hs
        refine ⟨g, hg, fun k => ?_⟩
        rw [Map.get_erase]
        by_cases hjk : j = k
        · subst hjk
          rw [if_pos rfl]
          have h1 := hk j
          rw [hc] at h1
          obtain ⟨p, topic, c, h2, h3, h4⟩ := h1
          show _ = due q (begun j (es ++ [.finish j]))
          rw [begun_quiet es rfl, h2, due_snoc, h3]
          simp only [rem, List.map_nil, List.sum_nil, Nat.add_zero] at h4
          rw [h4]
        · rw [if_neg hjk]
          exact (hk k).quiet rfl

theorem subs_step {s s' : State T} {e : Event T} (hs : step s e = some s') {q : Nat} {r : Receiver}
    (h : s.subs.get q = some r) : s'.subs.get q = some r := by
  cases e with
  | subscribe q' f =>
    simp only [step] at hs
    split at hs
    · rename_i hq
      cases hs
      simp only
      rw [Map.get_insert, if_neg]
      · exact h
      · rintro rfl; rw [h] at hq; simp at hq
    · cases hs
  | begin j topic v =>
    simp only [step] at hs
    cases hc : s.calls.get j with
    | some c => rw [hc] at hs; cases hs
    | none => rw [hc] at hs; cases hs; exact h
  | work j =>
    simp only [step] at hs
    split at hs
    · cases hs; exact h
    · cases hs
  | finish j =>
    simp only [step] at hs
    split at hs
    · cases hs; exact h
    · cases hs

/-- After a subscription. -/
theorem good_run {s0 s1 s : State T} {n : Nat} {f : Str} {es : List (Event T)}
    (h1 : step s0 (.subscribe n f) = some s1) (h : run s1 es = some s) :
    ∃ base : List T, s.subs.get n = some ⟨splitLevels f, base.length⟩ ∧ Good (splitLevels f) base es s := by
  simp only [step] at h1
  split at h1
  · rename_i hc
    cases h1
    obtain ⟨l, hl⟩ := TopicNode.sentAt_ensure_self s0.tree (splitLevels f)
    refine ⟨l, ?_⟩
    induction es using snoc_induction generalizing s with
    | h0 =>
      simp only [run, Option.some.injEq] at h
      subst h
      constructor
      · simp only
        rw [Map.get_insert, if_pos rfl]
        unfold TopicTree.subscribe
        unfold TopicNode.sentAt at hl
        cases hf : (TopicNode.ensure s0.tree (splitLevels f)).find (splitLevels f) with
        | none => simp [hf] at hl
        | some n => simp [hf] at hl; simp [hf, hl]
      · refine ⟨[], hl.trans (by simp), fun k => ?_⟩
        have : s0.calls = [] := by simpa using hc.1
        simp only [this]
        rfl
    | hs es e ih =>
      obtain ⟨s1, h1, h2⟩ := run_snoc h
      obtain ⟨i1, i2⟩ := ih h1
      exact ⟨subs_step h2 i1, good_step i2 h2⟩
  · cases h1

theorem due_matching {f : Str} {ps : List (Str × T)} (h : ∀ p ∈ ps, ValidTopic p.1) :
    due (splitLevels f) ps = Spec.matching f ps := by
  unfold Spec.matching due
  induction ps with
  | nil => rfl
  | cons p ps ih =>
    have ih := ih (fun q hq => h q (by simp [hq]))
    have hp := copies_iff f p.1 (h p (by simp))
    rw [List.flatMap_cons, ih]
    by_cases hm : Matches f p.1
    · simp [hm, hp.1 hm]
    · simp [hm, hp.2 hm]

theorem begun_mem {k : Nat} {es : List (Event T)} {p : Str × T} (h : p ∈ begun k es) :
    .begin k p.1 p.2 ∈ es := by
  induction es with
  | nil => cases h
  | cons e es ih =>
    cases e with
    | begin j t v =>
      simp only [begun] at h
      split at h
      · rename_i hj
        subst hj
        rcases List.mem_cons.mp h with rfl | h
        · exact List.mem_cons_self
        · exact List.mem_cons_of_mem _ (ih h)
      · exact List.mem_cons_of_mem _ (ih h)
    | _ => exact List.mem_cons_of_mem _ (ih h)

end Walk

open Walk in
/-- C82: any number of tasks publish at the same time, to valid topics, their steps interleaved in any
way.  A subscription with filter `f`, made at any time, has been given an interleaving of the
publications that the tasks began after it and that `f` matches: none is missing, none is there twice,
none that does not match, and those of one task are in the order in which the task published them.  Only
a publication that is still running may be missing. -/
theorem C82_once_in_order {T : Type} (before after : List (Walk.Event T)) (n : Nat) (f : Str)
    (s : Walk.State T) (hrun : run init (before ++ .subscribe n f :: after) = some s)
    (hv : ∀ k topic v, .begin k topic v ∈ after → ValidTopic topic) :
    ∃ r parts, s.subs.get n = some r ∧ Interleaves (pending s.tree r) parts ∧
      ∀ k, parts k = Spec.matching f (begun k after) ∨
        ((s.calls.get k).isSome ∧ parts k = Spec.matching f (begun k after).dropLast) := by
  rw [run_append] at hrun
  cases h0 : run (init : Walk.State T) before with
  | none => rw [h0] at hrun; cases hrun
  | some s0 =>
    rw [h0] at hrun
    simp only [Option.bind_some, run] at hrun
    cases h1 : Walk.step s0 (.subscribe n f) with
    | none => rw [h1] at hrun; cases hrun
    | some s1 =>
      rw [h1] at hrun
      simp only at hrun
      obtain ⟨base, hr, g, hg, hk⟩ := good_run h1 hrun
      refine ⟨_, ofOwner g, hr, ⟨g, ?_, fun k => rfl⟩, fun k => ?_⟩
      · rw [pending_eq _ _ _ hg]; simp
      · have hvk : ∀ p ∈ begun k after, ValidTopic p.1 := fun p hp => hv k p.1 p.2 (begun_mem hp)
        have h2 := hk k
        cases hc : s.calls.get k with
        | none =>
          rw [hc] at h2
          exact .inl (h2.trans (due_matching hvk))
        | some call =>
          rw [hc] at h2
          obtain ⟨p, topic, c, h3, h4, h5⟩ := h2
          rw [h3] at hvk ⊢
          have ht : ValidTopic topic := hvk (topic, call.value) (by simp)
          have hp : ∀ x ∈ p, ValidTopic x.1 := fun x hx => hvk x (by simp [hx])
          rw [← due_matching hvk, List.dropLast_concat, ← due_matching hp, h4, due_snoc]
          have hc1 : TopicNode.copies (splitLevels f) (splitLevels topic) ≤ 1 := by
            by_cases hm : Matches f topic
            · rw [(copies_iff f topic ht).1 hm]; omega
            · rw [(copies_iff f topic ht).2 hm]; omega
          by_cases hcc : c = TopicNode.copies (splitLevels f) (splitLevels topic)
          · left; rw [← hcc]
          · right
            have : c = 0 := by omega
            subst this
            exact ⟨rfl, by simp⟩

/-! ## One publication on its own -/

namespace Walk

variable {T : Type}

/-- The same nodes below, whatever has been sent. -/
def SameShape (a b : TopicNode T) : Prop := ∀ ls, TopicNode.visit a ls = TopicNode.visit b ls

/-- Both exist and have the same shape, or neither exists. -/
def SameShapeO : Option (TopicNode T) → Option (TopicNode T) → Prop
  | some a, some b => SameShape a b
  | none, none => True
  | _, _ => False

theorem SameShapeO.refl (o : Option (TopicNode T)) : SameShapeO o o := by
  cases o with
  | none => trivial
  | some a => exact fun _ => rfl

theorem sameShape_of_child {a b : TopicNode T} (h : ∀ k, SameShapeO (a.child k) (b.child k)) :
    SameShape a b := by
  intro ls
  have h1 := h [0x23]
  cases ls with
  | nil =>
    simp only [TopicNode.visit]
    cases ha : a.child [0x23] <;> cases hb : b.child [0x23] <;> rw [ha, hb] at h1 <;>
      first | rfl | exact h1.elim
  | cons l ls =>
    have h2 := h [0x2b]
    have h3 := h l
    simp only [TopicNode.visit]
    congr 1
    · congr 1
      · cases ha : a.child [0x23] <;> cases hb : b.child [0x23] <;> rw [ha, hb] at h1 <;>
          first | rfl | exact h1.elim
      · cases ha : a.child [0x2b] <;> cases hb : b.child [0x2b] <;> rw [ha, hb] at h2 <;>
          first | rfl | exact h2.elim | (simp only; rw [h2 ls])
    · cases ha : a.child l <;> cases hb : b.child l <;> rw [ha, hb] at h3 <;>
        first | rfl | exact h3.elim | (simp only; rw [h3 ls])

theorem sameShape_send (t : TopicNode T) (p q : List Str) (v : T) :
    SameShapeO ((t.send p v).find q) (t.find q) := by
  induction p generalizing t q with
  | nil =>
    cases q with
    | nil => exact sameShape_of_child fun k => SameShapeO.refl _
    | cons k q => exact SameShapeO.refl _
  | cons l p ih =>
    simp only [TopicNode.send]
    cases hc : t.child l with
    | none => exact SameShapeO.refl _
    | some c =>
      cases q with
      | nil =>
        refine sameShape_of_child fun k => ?_
        simp only
        rw [TopicNode.child_insert]
        by_cases h : l = k
        · subst h
          rw [if_pos rfl, hc]
          exact ih c []
        · rw [if_neg h]; exact SameShapeO.refl _
      | cons k q =>
        rw [TopicNode.find_cons, TopicNode.find_cons, TopicNode.child_insert]
        by_cases h : l = k
        · subst h
          rw [if_pos rfl, hc]
          exact ih c q
        · rw [if_neg h]; exact SameShapeO.refl _

/-- The nodes an action sends to, in order. -/
def expandOne (t : TopicNode T) : Act → List (List Str)
  | .send p => [p]
  | .visit p rest => match t.find p with
    | some n => (TopicNode.visit n rest).map (p ++ ·)
    | none => []

/-- The nodes these actions send to, in order. -/
def expand (t : TopicNode T) (as : List Act) : List (List Str) := as.flatMap (expandOne t)

theorem expand_send (t : TopicNode T) (p : List Str) (v : T) (as : List Act) :
    expand (t.send p v) as = expand t as := by
  unfold expand
  congr 1
  funext a
  cases a with
  | send => rfl
  | visit q rest =>
    simp only [expandOne]
    have h := sameShape_send t p q v
    cases ha : (t.send p v).find q <;> cases hb : t.find q <;> rw [ha, hb] at h <;>
      first | rfl | exact h.elim | (simp only; rw [h rest])

theorem find_child {t n : TopicNode T} {p : List Str} (h : t.find p = some n) (k : Str) :
    t.find (p ++ [k]) = n.child k := by
  rw [find_append, h]
  show n.find [k] = _
  rw [TopicNode.find_cons]
  cases n.child k <;> rfl

theorem expand_ifChild_send {t n : TopicNode T} (k : Str) (p : List Str) :
    expand t (ifChild n k (.send p)) = match n.child k with | some _ => [p] | none => [] := by
  unfold ifChild
  cases n.child k <;> rfl

theorem expand_ifChild_visit {t n : TopicNode T} {p : List Str} (h : t.find p = some n) (k : Str)
    (rest : List Str) : expand t (ifChild n k (.visit (p ++ [k]) rest)) =
      match n.child k with
      | some c => (TopicNode.visit c rest).map (p ++ [k] ++ ·)
      | none => [] := by
  unfold ifChild
  cases hc : n.child k with
  | none => rfl
  | some c =>
    simp only [expand, List.flatMap_cons, List.flatMap_nil, List.append_nil, expandOne]
    rw [find_child h, hc]

theorem expand_append (t : TopicNode T) (a b : List Act) : expand t (a ++ b) = expand t a ++ expand t b := by
  simp [expand]

theorem expand_turn {t n : TopicNode T} {p : List Str} (h : t.find p = some n) (rest : List Str) :
    expand t (turn n p rest) = (TopicNode.visit n rest).map (p ++ ·) := by
  cases rest with
  | nil =>
    rw [show turn n p [] = [.send p] ++ ifChild n [0x23] (.send (p ++ [[0x23]])) from rfl, expand_append,
      expand_ifChild_send]
    simp only [TopicNode.visit]
    cases n.child [0x23] <;> simp [expand, expandOne]
  | cons l ls =>
    rw [show turn n p (l :: ls) = ifChild n [0x23] (.send (p ++ [[0x23]])) ++
      ifChild n [0x2b] (.visit (p ++ [[0x2b]]) ls) ++ ifChild n l (.visit (p ++ [l]) ls) from rfl,
      expand_append, expand_append, expand_ifChild_send, expand_ifChild_visit h, expand_ifChild_visit h]
    simp only [TopicNode.visit]
    cases n.child [0x23] <;> cases n.child [0x2b] <;> cases n.child l <;> simp [Function.comp_def]

/-- Bound on the steps a stack entry with `n` levels left takes. -/
def cost : Nat → Nat
  | 0 => 3
  | n + 1 => 2 + 2 * cost n

/-- Bound on the steps of an action. -/
def costOne : Act → Nat
  | .send _ => 1
  | .visit _ rest => cost rest.length

/-- Bound on the steps of these actions. -/
def costs (as : List Act) : Nat := (as.map costOne).sum

theorem costs_append (a b : List Act) : costs (a ++ b) = costs a + costs b := by simp [costs]

theorem costs_ifChild (n : TopicNode T) (k : Str) (a : Act) : costs (ifChild n k a) ≤ costOne a := by
  unfold ifChild
  cases n.child k <;> simp [costs]

theorem costs_act (t : TopicTree T) (v : T) (a : Act) : costs (act t v a).2 < costOne a := by
  cases a with
  | send p => simp [act, costs, costOne]
  | visit p rest =>
    have hpos : 0 < cost rest.length := by cases rest.length <;> simp only [cost] <;> omega
    simp only [act]
    cases TopicNode.find t p with
    | none => simpa [costs, costOne] using hpos
    | some n =>
      simp only
      cases rest with
      | nil =>
        rw [show turn n p [] = [.send p] ++ ifChild n [0x23] (.send (p ++ [[0x23]])) from rfl, costs_append]
        have h1 := costs_ifChild n [0x23] (.send (p ++ [[0x23]]))
        simp only [costs, costOne, List.map_cons, List.map_nil, List.sum_cons, List.sum_nil,
          List.length_nil, cost] at h1 ⊢
        omega
      | cons l ls =>
        rw [show turn n p (l :: ls) = ifChild n [0x23] (.send (p ++ [[0x23]])) ++
          ifChild n [0x2b] (.visit (p ++ [[0x2b]]) ls) ++ ifChild n l (.visit (p ++ [l]) ls) from rfl,
          costs_append, costs_append]
        have h1 := costs_ifChild n [0x23] (.send (p ++ [[0x23]]))
        have h2 := costs_ifChild n [0x2b] (.visit (p ++ [[0x2b]]) ls)
        have h3 := costs_ifChild n l (.visit (p ++ [l]) ls)
        simp only [costOne, List.length_cons, cost] at h1 h2 h3 ⊢
        omega

theorem cost_eq (n : Nat) : cost n + 2 = 5 * 2 ^ n := by
  induction n with
  | zero => rfl
  | succ n ih => simp only [cost, Nat.pow_succ]; omega

theorem run_alone (k : Nat) (v : T) (subs : Map Nat Receiver) (c : Nat) :
    ∀ (t : TopicTree T) (todo : List Act), costs todo ≤ c → ∃ m,
      run ⟨t, subs, [(k, ⟨v, todo⟩)]⟩ (List.replicate m (.work k) ++ [.finish k]) =
        some ⟨(expand t todo).foldl (fun t p => TopicNode.send t p v) t, subs, []⟩ := by
  induction c with
  | zero =>
    intro t todo h
    cases todo with
    | nil => exact ⟨0, by simp [run, step, Map.get, Map.erase, expand]⟩
    | cons a as =>
      have := costs_act t v a
      simp only [costs, List.map_cons, List.sum_cons] at h
      omega
  | succ c ih =>
    intro t todo h
    cases todo with
    | nil => exact ⟨0, by simp [run, step, Map.get, Map.erase, expand]⟩
    | cons a as =>
      have h1 := costs_act t v a
      rw [show a :: as = [a] ++ as from rfl, costs_append] at h
      obtain ⟨m, hm⟩ := ih (act t v a).1 ((act t v a).2 ++ as) (by
        rw [costs_append]
        simp only [costs, List.map_cons, List.map_nil, List.sum_cons, List.sum_nil] at h h1 ⊢
        omega)
      refine ⟨m + 1, ?_⟩
      have hstep : step (⟨t, subs, [(k, ⟨v, a :: as⟩)]⟩ : State T) (.work k) =
          some ⟨(act t v a).1, subs, [(k, ⟨v, (act t v a).2 ++ as⟩)]⟩ := by
        simp [step, Map.get, Map.insert, Map.erase]
      rw [List.replicate_succ, List.cons_append]
      simp only [run]
      rw [hstep]
      simp only
      rw [hm]
      congr 2
      cases a with
      | send p =>
        show (expand (TopicNode.send t p v) ([] ++ as)).foldl _ (TopicNode.send t p v) = _
        rw [List.nil_append, expand_send]
        rfl
      | visit p rest =>
        simp only [act]
        cases hf : t.find p with
        | none => simp [expand, expandOne, hf]
        | some n =>
          simp only
          rw [expand_append, expand_turn hf]
          simp [expand, expandOne, hf]

end Walk

/-- How often `task` takes a step inside `publish`. -/
def Walk.works {T : Type} (task : Nat) (es : List (Walk.Event T)) : Nat :=
  es.countP fun | .work k => decide (k = task) | _ => false

open Walk in
/-- C82, that the step by step model is about the same function: a `publish` that runs alone has the
effect that `TopicTree.publish` describes. -/
theorem C82_alone {T : Type} (s : Walk.State T) (hs : s.calls = []) (task : Nat) (topic : Str) (v : T) :
    ∃ m, run s (.begin task topic v :: (List.replicate m (.work task) ++ [.finish task])) =
      some { s with tree := TopicTree.publish s.tree topic v } := by
  obtain ⟨t, subs, calls⟩ := s
  simp only at hs
  subst hs
  obtain ⟨m, hm⟩ := run_alone task v subs _ t [.visit [] (splitLevels topic)] (Nat.le_refl _)
  refine ⟨m, ?_⟩
  rw [run]
  show run ⟨t, subs, [(task, ⟨v, [.visit [] (splitLevels topic)]⟩)]⟩ _ = _
  rw [hm]
  congr 2
  unfold TopicTree.publish
  rw [TopicNode.targets_eq]
  simp [expand, expandOne, TopicNode.find]

open Walk in
/-- C82: a publication comes to its end, whatever the other tasks do: the task inside `publish` always has
a next step, and takes less than 5 · 2ⁿ of them if the topic has `n` levels. -/
theorem C82_finishes {T : Type} (s s' : Walk.State T) (task : Nat) (topic : Str) (v : T)
    (es : List (Walk.Event T)) (hrun : run s (.begin task topic v :: es) = some s')
    (hes : .finish task ∉ es) (ls : List Str) (hl : IsLevels topic ls) :
    works task es < 5 * 2 ^ ls.length ∧
      ((Walk.step s' (.work task)).isSome ∨ (Walk.step s' (.finish task)).isSome) := by
  rw [isLevels_iff] at hl
  subst hl
  have key : ∀ s', run s (.begin task topic v :: es) = some s' → ∃ todo,
      s'.calls.get task = some ⟨v, todo⟩ ∧ works task es + costs todo ≤ cost (splitLevels topic).length := by
    clear hrun s'
    induction es using snoc_induction with
    | h0 =>
      intro s' hrun
      simp only [run, Walk.step] at hrun
      cases hc : s.calls.get task with
      | some c => rw [hc] at hrun; cases hrun
      | none =>
        rw [hc] at hrun
        cases hrun
        refine ⟨_, by rw [Map.get_insert, if_pos rfl], ?_⟩
        simp [works, costs, costOne]
    | hs es e ih =>
      intro s' hrun
      obtain ⟨s1, h1, h2⟩ := run_snoc (es := .begin task topic v :: es) hrun
      have hes' : .finish task ∉ es := fun h => hes (by simp [h])
      have hne : e ≠ .finish task := fun h => hes (by simp [h])
      obtain ⟨todo, h3, h4⟩ := ih hes' s1 h1
      have hw : works task (es ++ [e]) = works task es + works task [e] := by simp [works]
      rw [hw]
      cases e with
      | subscribe q f =>
        simp only [Walk.step] at h2
        split at h2
        · cases h2; exact ⟨todo, h3, by simpa [works] using h4⟩
        · cases h2
      | begin j topic' v' =>
        simp only [Walk.step] at h2
        cases hc : s1.calls.get j with
        | some c => rw [hc] at h2; cases h2
        | none =>
          rw [hc] at h2
          cases h2
          refine ⟨todo, ?_, by simpa [works] using h4⟩
          simp only
          rw [Map.get_insert, if_neg]
          · exact h3
          · rintro rfl; rw [hc] at h3; cases h3
      | work j =>
        simp only [Walk.step] at h2
        by_cases hj : j = task
        · subst hj
          rw [h3] at h2
          cases todo with
          | nil => cases h2
          | cons a as =>
            cases h2
            refine ⟨(act s1.tree v a).2 ++ as, ?_, ?_⟩
            · simp only
              rw [Map.get_insert, if_pos rfl]
            · have := costs_act s1.tree v a
              rw [show a :: as = [a] ++ as from rfl, costs_append] at h4
              rw [costs_append]
              simp only [works, List.countP_cons, List.countP_nil, decide_true, if_true, Nat.zero_add,
                costs, List.map_cons, List.map_nil, List.sum_cons, List.sum_nil, Nat.add_zero] at *
              omega
        · split at h2
          · cases h2
            refine ⟨todo, ?_, by simpa [works, hj] using h4⟩
            simp only
            rw [Map.get_insert, if_neg hj]
            exact h3
          · cases h2
      | finish j =>
        have hj : j ≠ task := fun h => hne (by rw [h])
        simp only [Walk.step] at h2
        split at h2
        · cases h2
          refine ⟨todo, ?_, by simpa [works] using h4⟩
          simp only
          rw [Map.get_erase, if_neg hj]
          exact h3
        · cases h2
  obtain ⟨todo, h1, h2⟩ := key s' hrun
  have h3 := cost_eq (splitLevels topic).length
  refine ⟨by omega, ?_⟩
  cases todo with
  | nil => right; simp [Walk.step, h1]
  | cons a as => left; simp [Walk.step, h1]

/-- A history with two tasks publishing to "a" at the same time, and subscribers to "a" and "#". -/
def exWalk : List (Walk.Event Nat) :=
  [.subscribe 0 (str "a"), .subscribe 1 (str "#"), .begin 7 (str "a") 70, .begin 8 (str "a") 80,
    .work 7, .work 7, .work 8, .work 8, .work 8, .work 8, .work 7, .work 7, .finish 8, .finish 7]

/-- A case for C82; and different subscribers may see the publications of different tasks in different
orders. -/
theorem C82_orders_differ : ∃ s, Walk.run Walk.init exWalk = some s ∧
    (s.subs.get 0).map (pending s.tree) = some [80, 70] ∧
    (s.subs.get 1).map (pending s.tree) = some [70, 80] :=
  ⟨_, rfl, by decide +kernel, by decide +kernel⟩

/-- A case for C82 with a publication still running. -/
example : ∃ s, Walk.run Walk.init (exWalk.take 10) = some s ∧ (s.calls.get 7).isSome ∧
    (s.subs.get 0).map (pending s.tree) = some [80] ∧ (s.subs.get 1).map (pending s.tree) = some [70, 80] :=
  ⟨_, rfl, by decide +kernel, by decide +kernel, by decide +kernel⟩

/-- A case for `C82_finishes`. -/
example : ∃ s s', Walk.run Walk.init (exWalk.take 2) = some s ∧
    Walk.run s (.begin 7 (str "a") 70 :: [.work 7, .begin 8 (str "a") 80, .work 7]) = some s' :=
  ⟨_, _, rfl, rfl⟩

end Mercurio
