import Verif.Lemmas.Locks

/-!
# C66: being answered without waiting for other clients

The claim fails: a CONNECT for a session that another connection still uses waits, holding the lock of
all sessions, until something happens on that other connection; meanwhile no CONNECT is answered.
It holds as long as no two connections use the same session.
-/

namespace Mercurio

open Locks

/-- Whoever has work to do gets on with it, unless its session's lock is kept by another connection. -/
theorem Locks.progress {s : Locks} (hi : s.Inv) {c : Nat} {t : Task} (ht : s.tasks.get c = some t)
    (hb : t.Busy) (hx : ¬ s.Crossed) : ∃ a s', a.Progress ∧ s.step a = some s' := by
  have key : ∀ d r t, s.tasks.get d = some t → t.Busy → t.session = some r → s.held.get r = none := by
    intro d r t hd hb hr
    cases hh : s.held.get r with
    | none => rfl
    | some e =>
      have he := (hi.held r e).mp hh
      refine (hx ⟨e, d, r, t, ?_, he, hd, hr, hb⟩).elim
      rintro rfl
      rw [he] at hd; cases hd; exact hb
  have enters : ∀ d r k, s.tasks.get d = some (.enters r k) → ∃ a s', Act.Progress a ∧ s.step a = some s' := by
    intro d r k hd
    cases k with
    | zero => exact ⟨.leave d, _, trivial, by simp only [step, hd]; rfl⟩
    | succ k =>
      have := key d r _ hd trivial rfl
      exact ⟨.touch d, _, trivial, by simp only [step, hd, this, Option.isSome_none]; rfl⟩
  cases t with
  | asks id clean =>
    cases hm : s.manager with
    | none => exact ⟨.enter c, _, trivial, by simp only [step, ht, hm]; rfl⟩
    | some d =>
      obtain ⟨r, k, hd⟩ := (hi.manager d).mp hm
      exact enters d r k hd
  | enters r k => exact enters c r k ht
  | rests r => exact hb.elim
  | listens r => exact hb.elim
  | works r k sub =>
    cases k with
    | zero => exact ⟨.leave c, _, trivial, by simp only [step, ht]; rfl⟩
    | succ k =>
      have := key c r _ ht trivial rfl
      exact ⟨.touch c, _, trivial, by simp only [step, ht, this, Option.isSome_none]; rfl⟩
  | ends r k =>
    cases k with
    | zero => exact ⟨.leave c, _, trivial, by simp only [step, ht]; rfl⟩
    | succ k =>
      have := key c r _ ht trivial rfl
      exact ⟨.touch c, _, trivial, by simp only [step, ht, this, Option.isSome_none]; rfl⟩

theorem Locks.patience_run (as : List Act) : ∀ (s s' : Locks), (∀ a ∈ as, a.Internal) →
    s.run as = some s' → as.length + s'.patience ≤ s.patience := by
  induction as with
  | nil => intro s s' _ h; cases h; simp
  | cons a as ih =>
    intro s s' hi h
    simp only [run, Option.bind_eq_some_iff] at h
    obtain ⟨s1, h1, h2⟩ := h
    have := patience_step (hi a (by simp)) (step_cases h1)
    have := ih s1 s' (fun x hx => hi x (by simp [hx])) h2
    simp only [List.length_cons]; omega

theorem Locks.run_append (as bs : List Act) : ∀ s : Locks,
    s.run (as ++ bs) = (s.run as).bind fun s' => s'.run bs := by
  induction as with
  | nil => intro s; rfl
  | cons a as ih =>
    intro s
    simp only [List.cons_append, run]
    cases s.step a with
    | none => rfl
    | some s1 => simp only [Option.bind_some]; exact ih s1

theorem Locks.Reachable.run {s s' : Locks} (h : s.Reachable) {as : List Act} (hr : s.run as = some s') :
    s'.Reachable := by
  obtain ⟨bs, hb⟩ := h
  exact ⟨bs ++ as, by rw [run_append, hb]; exact hr⟩

/-! ## Connections with sessions of their own -/

/-- The invariant of runs in which no identifier is used twice, except for clean starts;
`h`: the CONNECTs so far. -/
structure Locks.Own (h : List (Str × Bool)) (s : Locks) : Prop where
  asks : ∀ c id cl, s.tasks.get c = some (.asks id cl) → (id, cl) ∈ h
  table : ∀ id r, s.table.get id = some r → r < s.fresh ∧ ∃ cl, (id, cl) ∈ h
  absent : ∀ c id, s.tasks.get c = some (.asks id false) → s.table.get id = none
  apart : ∀ c d id cl, s.tasks.get c = some (.asks id false) → s.tasks.get d = some (.asks id cl) → c = d
  below : ∀ c t r, s.tasks.get c = some t → t.session = some r → r < s.fresh
  single : ∀ c d t u r, s.tasks.get c = some t → s.tasks.get d = some u → t.session = some r →
    u.session = some r → c = d

/-- The actions that neither start a connection nor look at the table. -/
theorem Locks.Own.keep {h : List (Str × Bool)} {s s' : Locks} (ho : s.Own h) (c : Nat) (t : Task)
    (ht : s.tasks.get c = some t) (htable : s'.table = s.table) (hfresh : s'.fresh = s.fresh)
    (hother : ∀ d, d ≠ c → s'.tasks.get d = s.tasks.get d)
    (hc : ∀ t', s'.tasks.get c = some t' → t'.session = t.session ∧ t.session ≠ none) : s'.Own h := by
  obtain ⟨h1, h2, h3, h4, h5, h6⟩ := ho
  have back : ∀ d u, s'.tasks.get d = some u →
      (d ≠ c ∧ s.tasks.get d = some u) ∨ (d = c ∧ u.session = t.session ∧ t.session ≠ none) := by
    intro d u hu
    by_cases hd : d = c
    · subst hd; exact .inr ⟨rfl, hc u hu⟩
    · rw [hother d hd] at hu; exact .inl ⟨hd, hu⟩
  have asks : ∀ d id cl, s'.tasks.get d = some (.asks id cl) → s.tasks.get d = some (.asks id cl) := by
    intro d id cl hd
    rcases back d _ hd with h | ⟨_, h, h'⟩
    · exact h.2
    · exact (h' h.symm).elim
  have sess : ∀ d u r, s'.tasks.get d = some u → u.session = some r →
      ∃ u', s.tasks.get d = some u' ∧ u'.session = some r := by
    intro d u r hd hr
    rcases back d _ hd with h | ⟨rfl, h, _⟩
    · exact ⟨u, h.2, hr⟩
    · exact ⟨t, ht, by rw [← h, hr]⟩
  refine ⟨?_, ?_, ?_, ?_, ?_, ?_⟩
  · intro d id cl hd; exact h1 d id cl (asks d id cl hd)
  · rw [htable, hfresh]; exact h2
  · intro d id hd; rw [htable]; exact h3 d id (asks d id _ hd)
  · intro a b id cl ha hb; exact h4 a b id cl (asks _ _ _ ha) (asks _ _ _ hb)
  · intro d u r hd hr
    obtain ⟨u', hu', hr'⟩ := sess d u r hd hr
    rw [hfresh]; exact h5 d u' r hu' hr'
  · intro a b u v r ha hb hu hv
    obtain ⟨u', hu', hur⟩ := sess a u r ha hu
    obtain ⟨v', hv', hvr⟩ := sess b v r hb hv
    exact h6 a b u' v' r hu' hv' hur hvr

theorem Locks.Own.step {h : List (Str × Bool)} {s s' : Locks} {a : Act} (ho : s.Own h)
    (hn : ∀ c id cl, a = .connect c id cl → ∀ cl', (id, cl') ∈ h → cl' = true ∧ cl = true)
    (hs : Step s a s') : s'.Own (h ++ Act.connects [a]) := by
  have get := fun (s : Locks) c t d (hd : d ≠ c) =>
    show (s.setTask c t).tasks.get d = s.tasks.get d by rw [setTask_get, if_neg (Ne.symm hd)]
  cases hs
  case connect c id cl hc =>
    have hnew := hn c id cl rfl
    obtain ⟨h1, h2, h3, h4, h5, h6⟩ := ho
    have e : h ++ Act.connects [.connect c id cl] = h ++ [(id, cl)] := rfl
    rw [e]
    have back : ∀ d u, (s.setTask c (.asks id cl)).tasks.get d = some u →
        (d ≠ c ∧ s.tasks.get d = some u) ∨ (d = c ∧ u = .asks id cl) := by
      intro d u hu
      rw [setTask_get] at hu
      split at hu
      · cases hu; exact .inr ⟨by simp_all, rfl⟩
      · exact .inl ⟨by rintro rfl; simp_all, hu⟩
    refine ⟨?_, ?_, ?_, ?_, ?_, ?_⟩
    · intro d id' cl' hd
      rcases back _ _ hd with ⟨_, h⟩ | ⟨_, h⟩
      · exact List.mem_append_left _ (h1 _ _ _ h)
      · cases h; simp
    · intro id' r hr
      obtain ⟨h, cl', h'⟩ := h2 id' r hr
      exact ⟨h, cl', List.mem_append_left _ h'⟩
    · intro d id' hd
      rcases back _ _ hd with ⟨_, h⟩ | ⟨_, h⟩
      · exact h3 _ _ h
      · cases h
        show s.table.get id = none
        cases ht : s.table.get id with
        | none => rfl
        | some r =>
          obtain ⟨_, cl', h'⟩ := h2 id r ht
          have := (hnew cl' h').2; cases this
    · intro a b id' cl' ha hb
      rcases back _ _ ha with ⟨_, ha2⟩ | ⟨ha', ha2⟩ <;> rcases back _ _ hb with ⟨_, hb2⟩ | ⟨hb', hb2⟩
      · exact h4 _ _ _ _ ha2 hb2
      · cases hb2
        have := (hnew _ (h1 _ _ _ ha2)).1; cases this
      · cases ha2
        have := (hnew _ (h1 _ _ _ hb2)).2; cases this
      · rw [ha', hb']
    · intro d u r hd hr
      rcases back _ _ hd with ⟨_, h⟩ | ⟨_, h⟩
      · exact h5 _ _ _ h hr
      · subst h; cases hr
    · intro a b u v r ha hb hu hv
      rcases back _ _ ha with ⟨_, ha⟩ | ⟨ha', rfl⟩
      · rcases back _ _ hb with ⟨_, hb⟩ | ⟨hb', rfl⟩
        · exact h6 _ _ _ _ _ ha hb hu hv
        · cases hv
      · cases hu
  case again c id cl r hc hm hcl ht =>
    subst hcl
    have := ho.absent c id hc
    rw [ht] at this; cases this
  case new c id cl hc hm table htab hnone =>
    have e : h ++ Act.connects [.enter c] = h := by simp [Act.connects]
    rw [e]
    obtain ⟨h1, h2, h3, h4, h5, h6⟩ := ho
    have back : ∀ d u, (({ s with manager := some c, table := table.insert id s.fresh, fresh := s.fresh + 1 } :
        Locks).setTask c (.enters s.fresh 3)).tasks.get d = some u →
        (d ≠ c ∧ s.tasks.get d = some u) ∨ (d = c ∧ u = .enters s.fresh 3) := by
      intro d u hu
      rw [setTask_get] at hu
      split at hu
      · cases hu; exact .inr ⟨by simp_all, rfl⟩
      · exact .inl ⟨by rintro rfl; simp_all, hu⟩
    have tab : ∀ id' r, table.get id' = some r → s.table.get id' = some r := by
      intro id' r hr
      rw [htab] at hr
      split at hr
      · rw [Map.get_erase] at hr; split at hr
        · cases hr
        · exact hr
      · exact hr
    refine ⟨?_, ?_, ?_, ?_, ?_, ?_⟩
    · intro d id' cl' hd
      rcases back _ _ hd with ⟨_, h⟩ | ⟨_, h⟩
      · exact h1 _ _ _ h
      · cases h
    · intro id' r hr
      simp only [setTask, Map.get_insert] at hr ⊢
      split at hr
      · cases hr; subst_vars; exact ⟨by omega, cl, h1 _ _ _ hc⟩
      · obtain ⟨h, h'⟩ := h2 id' r (tab _ _ hr)
        exact ⟨by omega, h'⟩
    · intro d id' hd
      rcases back _ _ hd with ⟨hne, h⟩ | ⟨_, h⟩
      · simp only [setTask, Map.get_insert]
        rw [if_neg]
        · cases ht : table.get id' with
          | none => rfl
          | some r => have := tab _ _ ht; rw [h3 _ _ h] at this; cases this
        · rintro rfl
          exact hne (h4 _ _ _ _ h hc)
      · cases h
    · intro a b id' cl' ha hb
      rcases back _ _ ha with ⟨_, ha⟩ | ⟨ha', ha⟩
      · rcases back _ _ hb with ⟨_, hb⟩ | ⟨hb', hb⟩
        · exact h4 _ _ _ _ ha hb
        · cases hb
      · cases ha
    · intro d u r hd hr
      show r < s.fresh + 1
      rcases back _ _ hd with ⟨_, h⟩ | ⟨_, h⟩
      · have := h5 _ _ _ h hr; omega
      · subst h; cases hr; omega
    · intro a b u v r ha hb hu hv
      rcases back _ _ ha with ⟨_, ha⟩ | ⟨ha', rfl⟩ <;> rcases back _ _ hb with ⟨_, hb⟩ | ⟨hb', rfl⟩
      · exact h6 _ _ _ _ _ ha hb hu hv
      · cases hv; have := h5 _ _ _ ha hu; omega
      · cases hu; have := h5 _ _ _ hb hv; omega
      · rw [ha', hb']
  all_goals
    simp only [Act.connects, List.filterMap_cons_none, List.filterMap_nil, List.append_nil]
    refine ho.keep _ _ ‹_› (by simp only [setTask, dropLock, setSub_eq])
      (by simp only [setTask, dropLock, setSub_eq]) (fun d hd => ?_) (fun t' ht' => ?_)
    · first
      | exact get _ _ _ _ hd
      | rw [get _ _ _ _ hd]; simp only [setSub_eq]
      | simp only [Map.get_erase, if_neg (Ne.symm hd)]
    · first
      | rw [setTask_get, if_pos rfl] at ht'; cases ht'; exact ⟨rfl, by simp [Task.session]⟩
      | simp only [Map.get_erase, if_true] at ht'; cases ht'

theorem Locks.Own.run (as : List Act) : ∀ (h : List (Str × Bool)) (s s' : Locks), s.Own h →
    (h ++ Act.connects as).Pairwise (fun p q => p.1 = q.1 → p.2 = true ∧ q.2 = true) →
    s.run as = some s' → s'.Own (h ++ Act.connects as) := by
  induction as with
  | nil => intro h s s' ho _ hr; cases hr; simpa [Act.connects] using ho
  | cons a as ih =>
    intro h s s' ho hp hr
    simp only [Locks.run, Option.bind_eq_some_iff] at hr
    obtain ⟨s1, h1, h2⟩ := hr
    have e : Act.connects (a :: as) = Act.connects [a] ++ Act.connects as := by
      simp only [Act.connects, ← List.filterMap_append]; rfl
    rw [e, ← List.append_assoc] at hp ⊢
    refine ih _ s1 s' (ho.step ?_ (step_cases h1)) hp h2
    rintro c id cl rfl cl' hm
    have := (List.pairwise_append.mp (List.pairwise_append.mp hp).1).2.2 _ hm (id, cl) (by simp [Act.connects])
    exact this rfl

theorem Locks.Own.not_crossed {h : List (Str × Bool)} {s : Locks} (ho : s.Own h) : ¬ s.Crossed := by
  rintro ⟨a, b, r, t, hab, ha, hb, hr, _⟩
  exact hab (ho.single a b _ _ r ha hb rfl hr)

/-- Part of C66: from any reachable state, the runtime comes to rest after a bounded number of actions
of its own; when none that helps a client is left, every CONNECT has been answered and nobody has
anything to wait for, unless two connections use one session.
Missing: CONNECTs for a session in use, and those that wait behind them, see `C66_blocked_false`. -/
theorem C66_answered_partial (s : Locks) (hs : s.Reachable) :
    (∀ as s', (∀ a ∈ as, a.Internal) → s.run as = some s' → as.length ≤ s.patience) ∧
    ((∀ a, a.Progress → s.step a = none) → ¬ s.Crossed →
      ∀ c t, s.tasks.get c = some t → t.Answered ∧ ¬ t.Busy) := by
  refine ⟨fun as s' ha hr => ?_, fun hn hx c t ht => ?_⟩
  · have := patience_run as s s' ha hr; omega
  · have hb : ¬ t.Busy := by
      intro hb
      obtain ⟨a, s', hp, h⟩ := progress hs.inv ht hb hx
      rw [hn a hp] at h; cases h
    refine ⟨?_, hb⟩
    cases t <;> first | exact trivial | exact (hb trivial).elim

/-- Part of C66: in a run in which only clean starts repeat a client identifier, no two connections ever
use the same session, so whenever the runtime has come to rest every CONNECT is answered. -/
theorem C66_own_sessions_partial (as : List Act) (s : Locks) (hr : ({} : Locks).run as = some s)
    (hd : (Act.connects as).Pairwise fun p q => p.1 = q.1 → p.2 = true ∧ q.2 = true) :
    ¬ s.Crossed ∧ ((∀ a, a.Progress → s.step a = none) →
      ∀ c t, s.tasks.get c = some t → t.Answered ∧ ¬ t.Busy) := by
  have h0 : Locks.Own [] {} := ⟨by simp [Map.get], by simp [Map.get], by simp [Map.get], by simp [Map.get],
    by simp [Map.get], by simp [Map.get]⟩
  have hx := (h0.run as [] _ _ (by simpa using hd) hr).not_crossed
  exact ⟨hx, fun hn => (C66_answered_partial s ⟨as, hr⟩).2 hn hx⟩

/-! ## Sessions without subscriptions -/

/-- Session `r` has no subscription, no connection is about to give it one, and none waits for a message
in it. -/
structure Locks.Silent (s : Locks) (r : Nat) : Prop where
  none : s.subscribed.get r = none
  works : ∀ c k, s.tasks.get c ≠ some (.works r k (some true))
  listens : ∀ c, s.tasks.get c ≠ some (.listens r)

theorem Locks.Silent.step {s s' : Locks} {r : Nat} {a : Act} (h : s.Silent r)
    (ha : ∀ c k, a ≠ .wake c k (some true)) (hs : Step s a s') : s'.Silent r := by
  obtain ⟨h1, h2, h3⟩ := h
  cases hs
  case touchW c r' k sub hc hh =>
    refine ⟨?_, ?_, ?_⟩
    · show (s.setSub r' sub).subscribed.get r = .none
      cases sub with
      | none => exact h1
      | some b =>
        cases b with
        | true =>
          simp only [setSub, Map.get_insert]
          rw [if_neg]
          · exact h1
          · rintro rfl; exact h2 _ _ hc
        | false =>
          simp only [setSub, Map.get_erase]
          split
          · rfl
          · exact h1
    · intro d k' hd
      rw [setTask_get] at hd
      split at hd
      · cases hd; exact h2 _ _ hc
      · simp only [setSub_eq] at hd; exact h2 _ _ hd
    · intro d hd
      rw [setTask_get] at hd
      split at hd
      · cases hd
      · simp only [setSub_eq] at hd; exact h3 _ hd
  case listen c r' hc hh hsub =>
    have hne : r' ≠ r := by rintro rfl; rw [h1] at hsub; cases hsub
    refine ⟨h1, ?_, ?_⟩
    · intro d k' hd
      rw [setTask_get] at hd
      split at hd
      · cases hd
      · exact h2 _ _ hd
    · intro d hd
      rw [setTask_get] at hd
      split at hd
      · cases hd; exact hne rfl
      · exact h3 _ hd
  case leaveX c r' hc =>
    refine ⟨h1, ?_, ?_⟩ <;> intro d <;> intros <;> simp only [Map.get_erase] <;> split <;> first | simp | skip
    · exact h2 _ _
    · exact h3 _
  case fail c r' hc =>
    refine ⟨h1, ?_, ?_⟩ <;> intro d <;> intros <;> simp only [Map.get_erase] <;> split <;> first | simp | skip
    · exact h2 _ _
    · exact h3 _
  all_goals
    refine ⟨h1, ?_, ?_⟩
    · intro d k' hd
      rw [setTask_get] at hd
      split at hd
      · cases hd <;> exact ha _ _ rfl
      · exact h2 _ _ hd
    · intro d hd
      rw [setTask_get] at hd
      split at hd
      · cases hd
      · exact h3 _ hd

/-- Part of C66: once the last subscription of a session is gone (and as long as none is added again), a
CONNECT for that session does not have to wait either, though another connection uses it: whatever
happens, no connection holds the lock of the session while it waits. -/
theorem C66_unsubscribed_partial (s s1 s2 : Locks) (hs : s.Reachable) (c r k : Nat)
    (hc : s.tasks.get c = some (.works r (k + 1) (some false))) (h1 : s.step (.touch c) = some s1)
    (ho : ∀ d k, s.tasks.get d ≠ some (.works r k (some true)))
    (as : List Act) (ha : ∀ d k, Act.wake d k (some true) ∉ as) (h2 : s1.run as = some s2) :
    s2.held.get r = none ∧ ∀ d, s2.tasks.get d ≠ some (.listens r) := by
  have hfree : s.held.get r = none := by
    cases hh : s.held.get r with
    | none => rfl
    | some e => simp only [step, hc, hh, Option.isSome_some, if_true] at h1; cases h1
  have hq : ∀ d, s.tasks.get d ≠ some (.listens r) := by
    intro d hd
    rw [(hs.inv.held r d).mpr hd] at hfree; cases hfree
  simp only [step, hc, hfree, Option.isSome_none, Bool.false_eq_true, if_false, Option.some.injEq] at h1
  have e1 : s1.Silent r := by
    subst h1
    refine ⟨?_, ?_, ?_⟩
    · show (s.setSub r (some false)).subscribed.get r = none
      simp only [setSub, Map.get_erase, if_true]
    · intro d k' hd
      rw [setTask_get] at hd
      split at hd
      · cases hd
      · exact ho _ _ hd
    · intro d hd
      rw [setTask_get] at hd
      split at hd
      · cases hd
      · exact hq _ hd
  have e2 := run_induction (P := fun s => s.Silent r) (Q := fun x => ∀ d k, x ≠ .wake d k (some true))
    (fun _ _ _ h hq hs => h.step hq hs) as _ _ e1 (by rintro x hx d k rfl; exact ha d k hx) h2
  have hr1 : s1.Reachable := hs.run (as := [.touch c]) (by
    simp only [Locks.run, step, hc, hfree, Option.isSome_none, Bool.false_eq_true, if_false, Option.bind_some]
    rw [h1])
  refine ⟨?_, e2.listens⟩
  cases hh : s2.held.get r with
  | none => rfl
  | some d => exact absurd (((hr1.run h2).inv.held r d).mp hh) (e2.listens d)

/-! ## The counterexample -/

/-- Connection `b` holds the manager's lock and waits for the lock of a session that connection `a` keeps
while it waits for a message; the connections of `C` are not there or wait for the manager's lock. -/
structure Locks.Blocked (s : Locks) (a b r k : Nat) (C : Nat → Prop) : Prop where
  ne : a ≠ b
  manager : s.manager = some b
  held : s.held.get r = some a
  waits : s.tasks.get b = some (.enters r (k + 3))
  others : ∀ c t, C c → c ≠ b → s.tasks.get c = some t → ∃ id cl, t = .asks id cl

theorem Locks.Blocked.step {s s' : Locks} {a b r k : Nat} {C : Nat → Prop} {x : Act} (h : s.Blocked a b r k C)
    (hi : s.Inv) (hx : x.conn ≠ a) (hs : Step s x s') : s'.Blocked a b r k C := by
  obtain ⟨h0, h1, h2, h3, h4⟩ := h
  have hm : ∀ c r k, s.tasks.get c = some (.enters r k) → c = b := by
    intro c r k hc
    have := (hi.manager c).mpr ⟨r, k, hc⟩
    rw [h1] at this; cases this; rfl
  have hl : ∀ c, s.tasks.get c = some (.listens r) → c = a := by
    intro c hc
    have := (hi.held r c).mpr hc
    rw [h2] at this; cases this; rfl
  cases hs <;> simp only [Act.conn] at hx
  case again c id cl r hc hm hcl ht => rw [h1] at hm; cases hm
  case new c id cl hc hm table htab hnone => rw [h1] at hm; cases hm
  all_goals
    constructor <;> intros <;>
      (try simp only [setTask, dropLock, Map.get_insert, Map.get_erase, setSub_eq] at *) <;>
      first | grind | (split <;> grind) | (split <;> simp_all <;> grind)

/-- C66 fails, whatever the history: while connection `a` waits for a message in the session known under
`id`, a CONNECT for `id` without clean start arrives on connection `b` and takes the lock of all
sessions.  From then on, as long as nothing happens on connection `a`, whatever all other clients do, neither this CONNECT
is answered, nor any that was waiting, nor any that arrives on a new connection. -/
theorem C66_same_session_false (s s1 : Locks) (hs : s.Reachable) (a b r : Nat) (id : Str)
    (ha : s.tasks.get a = some (.listens r)) (hid : s.table.get id = some r)
    (hb : s.tasks.get b = some (.asks id false)) (h1 : s.step (.enter b) = some s1)
    (as : List Act) (s' : Locks) (hx : ∀ x ∈ as, x.conn ≠ a) (hr : s1.run as = some s')
    (c : Nat) (hc : s.tasks.get c = none ∨ ∃ id cl, s.tasks.get c = some (.asks id cl))
    (t : Task) (ht : s'.tasks.get c = some t) : ¬ t.Answered := by
  have hr1 : s1.Reachable := hs.run (as := [.enter b]) (by simp only [Locks.run, h1, Option.bind_some])
  have hm : s.manager = none := by
    cases hm : s.manager with
    | none => rfl
    | some d => simp only [step, hb, hm] at h1; cases h1
  simp only [step, hb, hm, Locks.enters, hid, Bool.false_eq_true, if_false, Option.some.injEq] at h1
  let C := fun c => s.tasks.get c = none ∨ ∃ id cl, s.tasks.get c = some (.asks id cl)
  have hab : a ≠ b := by rintro rfl; rw [ha] at hb; cases hb
  have e1 : s1.Blocked a b r 1 C := by
    subst h1
    refine ⟨hab, rfl, (hs.inv.held r a).mpr ha, ?_, ?_⟩
    · rw [setTask_get, if_pos rfl]
    · intro d u hd hdb hu
      rw [setTask_get, if_neg (Ne.symm hdb)] at hu
      have hu' : s.tasks.get d = some u := hu
      rcases hd with h | ⟨id, cl, h⟩
      · rw [hu'] at h; cases h
      · rw [hu'] at h; cases h; exact ⟨id, cl, rfl⟩
  have e2 := (run_induction (P := fun s => s.Inv ∧ s.Blocked a b r 1 C) (Q := fun x => x.conn ≠ a)
    (fun _ _ _ h hq hs => ⟨h.1.step hs, h.2.step h.1 hq hs⟩) as _ _ ⟨hr1.inv, e1⟩ hx hr).2
  by_cases hcb : c = b
  · subst hcb
    rw [e2.waits] at ht; cases ht
    simp only [Task.Answered]; omega
  · obtain ⟨id, cl, rfl⟩ := e2.others c t hc hcb ht
    exact fun h => h

/-- Connection 0 is there as client `x`, has subscribed to something and is idle; then a CONNECT of
client `x`, without clean start, arrives on connection 1. -/
def exTwice : List Act :=
  [.connect 0 (str "x") false, .enter 0, .touch 0, .touch 0, .touch 0, .leave 0, .wake 0 1 (some true),
    .touch 0, .leave 0, .listen 0, .connect 1 (str "x") false, .enter 1]

/-- `exTwice` up to the CONNECT on connection 1. -/
def exBefore : Locks := (({} : Locks).run (exTwice.take 11)).getD {}

/-- The state after `exTwice`. -/
def exStuck : Locks := (({} : Locks).run exTwice).getD {}

theorem exTwice_run : ({} : Locks).run exTwice = some exStuck := by decide +kernel

/-- C66 fails: there is a reachable state from which, as long as nothing happens on one idle connection, no CONNECT of anybody is
answered any more, whatever all clients do. -/
theorem C66_blocked_false :
    ∃ s : Locks, s.Reachable ∧ ∀ as s', (∀ x ∈ as, x.conn ≠ 0) → s.run as = some s' →
      ∀ c t, c ≠ 0 → s'.tasks.get c = some t → ¬ t.Answered := by
  refine ⟨exStuck, ⟨exTwice, exTwice_run⟩, fun as s' hx hr c t hc ht => ?_⟩
  refine C66_same_session_false exBefore exStuck ⟨exTwice.take 11, by decide +kernel⟩ 0 1 0 (str "x")
    (by decide +kernel) (by decide +kernel) (by decide +kernel) (by decide +kernel) as s' hx hr c ?_ t ht
  have e : exBefore.tasks = [(1, .asks (str "x") false), (0, .listens 0)] := by decide +kernel
  rw [e]
  by_cases h1 : c = 1
  · subst h1; exact Or.inr ⟨str "x", false, rfl⟩
  · left
    simp only [Map.get, if_neg (Ne.symm hc), if_neg (Ne.symm h1)]

/-- Client `x` subscribes, waits for messages and unsubscribes; then `C66_unsubscribed_partial` applies. -/
def exQuiet : List Act :=
  [.connect 0 (str "x") false, .enter 0, .touch 0, .touch 0, .touch 0, .leave 0, .wake 0 1 (some true),
    .touch 0, .leave 0, .listen 0, .wake 0 1 (some false)]

example : ∃ s s1 s2 : Locks, ({} : Locks).run exQuiet = some s ∧
    s.tasks.get 0 = some (.works 0 1 (some false)) ∧ s.step (.touch 0) = some s1 ∧
    (∀ d k, s.tasks.get d ≠ some (.works 0 k (some true))) ∧
    s1.run [.leave 0, .connect 1 (str "x") false, .enter 1, .touch 1, .touch 1] = some s2 ∧
    s2.tasks.get 0 = some (.rests 0) ∧ s2.tasks.get 1 = some (.enters 0 2) := by
  refine ⟨(({} : Locks).run exQuiet).getD {}, (({} : Locks).run (exQuiet ++ [.touch 0])).getD {},
    (({} : Locks).run (exQuiet ++ [.touch 0, .leave 0, .connect 1 (str "x") false, .enter 1, .touch 1,
      .touch 1])).getD {}, by decide +kernel, by decide +kernel, by decide +kernel, ?_, by decide +kernel,
    by decide +kernel, by decide +kernel⟩
  have e : ((({} : Locks).run exQuiet).getD {}).tasks = [(0, .works 0 1 (some false))] := by decide +kernel
  intro d k
  rw [e]
  simp only [Map.get]
  split <;> simp

/-- Two clients with their own identifiers, both answered and at rest. -/
def exApart : List Act :=
  [.connect 0 (str "x") false, .connect 1 (str "y") false, .enter 1, .touch 1, .touch 1, .touch 1, .leave 1,
    .enter 0, .wake 1 1 (some true), .touch 0, .touch 1, .touch 0, .leave 1, .listen 1, .touch 0, .leave 0]

/-- `C66_own_sessions_partial` applies to it. -/
example : ∃ s, ({} : Locks).run exApart = some s ∧
    ((Act.connects exApart).Pairwise fun p q => p.1 = q.1 → p.2 = true ∧ q.2 = true) ∧
    s.tasks.get 0 = some (.rests 1) ∧ s.tasks.get 1 = some (.listens 0) :=
  ⟨(({} : Locks).run exApart).getD {}, by decide +kernel, by decide +kernel, by decide +kernel,
    by decide +kernel⟩

/-- In `exStuck` another client asks to connect: by C66_blocked_false it waits. -/
example : ∃ s', exStuck.run [.connect 2 (str "z") true] = some s' ∧
    s'.tasks.get 2 = some (.asks (str "z") true) :=
  ⟨(exStuck.run [.connect 2 (str "z") true]).getD {}, by decide +kernel, by decide +kernel⟩

end Mercurio
