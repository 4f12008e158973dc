import Verif.Lemmas.Topic
import Verif.Spec.Locks

/-! # Lemmas about locks and waiting -/

namespace Mercurio

namespace Locks

/-- The possible actions, one by one. -/
inductive Step (s : Locks) : Act → Locks → Prop
  | connect (c id clean) (h : s.tasks.get c = none) :
    Step s (.connect c id clean) (s.setTask c (.asks id clean))
  | again (c id clean r) (h : s.tasks.get c = some (.asks id clean)) (hm : s.manager = none)
    (hc : clean = false) (ht : s.table.get id = some r) :
    Step s (.enter c) ({ s with manager := some c }.setTask c (.enters r 4))
  | new (c id clean) (h : s.tasks.get c = some (.asks id clean)) (hm : s.manager = none) (table)
    (hc : table = if clean then s.table.erase id else s.table) (ht : table.get id = none) :
    Step s (.enter c)
      ({ s with manager := some c, table := table.insert id s.fresh, fresh := s.fresh + 1 }.setTask c
        (.enters s.fresh 3))
  | touchE (c r k) (h : s.tasks.get c = some (.enters r (k + 1))) (hh : s.held.get r = none) :
    Step s (.touch c) (s.setTask c (.enters r k))
  | touchW (c r k sub) (h : s.tasks.get c = some (.works r (k + 1) sub)) (hh : s.held.get r = none) :
    Step s (.touch c) ((s.setSub r sub).setTask c (.works r k sub))
  | touchX (c r k) (h : s.tasks.get c = some (.ends r (k + 1))) (hh : s.held.get r = none) :
    Step s (.touch c) (s.setTask c (.ends r k))
  | leaveE (c r) (h : s.tasks.get c = some (.enters r 0)) :
    Step s (.leave c) ({ s with manager := none }.setTask c (.rests r))
  | leaveW (c r sub) (h : s.tasks.get c = some (.works r 0 sub)) :
    Step s (.leave c) (s.setTask c (.rests r))
  | leaveX (c r) (h : s.tasks.get c = some (.ends r 0)) :
    Step s (.leave c) { s with tasks := s.tasks.erase c }
  | listen (c r) (h : s.tasks.get c = some (.rests r)) (hh : s.held.get r = none)
    (hsub : (s.subscribed.get r).isSome) :
    Step s (.listen c) ({ s with held := s.held.insert r c }.setTask c (.listens r))
  | wakeR (c k sub r) (h : s.tasks.get c = some (.rests r)) :
    Step s (.wake c k sub) (s.setTask c (.works r k sub))
  | wakeL (c k sub r) (h : s.tasks.get c = some (.listens r)) :
    Step s (.wake c k sub) ((s.dropLock r).setTask c (.works r k sub))
  | closeR (c k r) (h : s.tasks.get c = some (.rests r)) :
    Step s (.close c k) (s.setTask c (.ends r k))
  | closeL (c k r) (h : s.tasks.get c = some (.listens r)) :
    Step s (.close c k) ((s.dropLock r).setTask c (.ends r k))
  | closeW (c k r sub) (h : s.tasks.get c = some (.works r 0 sub)) :
    Step s (.close c k) (s.setTask c (.ends r k))
  | fail (c r) (h : s.tasks.get c = some (.enters r 2)) :
    Step s (.fail c) { s with manager := none, tasks := s.tasks.erase c }

theorem isSome_false {α : Type} {o : Option α} (h : ¬ o.isSome = true) : o = none := by
  cases o <;> simp_all

theorem step_cases {s s' : Locks} {a : Act} (h : s.step a = some s') : Step s a s' := by
  cases a with
  | connect c id clean =>
    simp only [step] at h; split at h <;> cases h
    exact .connect _ _ _ ‹_›
  | enter c =>
    simp only [step] at h; split at h
    · rename_i id clean ht hm
      cases h
      simp only [enters]
      split
      · rename_i r hr
        cases clean with
        | true => rw [if_pos rfl, Map.get_erase, if_pos rfl] at hr; cases hr
        | false => exact .again _ _ _ _ ht hm rfl hr
      · exact .new _ _ _ ht hm _ rfl ‹_›
    · cases h
  | touch c =>
    simp only [step] at h; split at h
    · split at h <;> cases h
      exact .touchE _ _ _ ‹_› (isSome_false ‹_›)
    · split at h <;> cases h
      exact .touchW _ _ _ _ ‹_› (isSome_false ‹_›)
    · split at h <;> cases h
      exact .touchX _ _ _ ‹_› (isSome_false ‹_›)
    · cases h
  | leave c =>
    simp only [step] at h; split at h <;> cases h
    · exact .leaveE _ _ ‹_›
    · exact .leaveW _ _ _ ‹_›
    · exact .leaveX _ _ ‹_›
  | listen c =>
    simp only [step] at h; split at h
    · split at h <;> cases h
      rename_i h2
      refine .listen _ _ ‹_› (isSome_false ?_) ?_
      · intro h3; exact h2 (by simp [h3])
      · cases hs : s.subscribed.get _ with
        | none => exact absurd (by simp [hs]) h2
        | some _ => rfl
    · cases h
  | wake c k sub =>
    simp only [step] at h; split at h <;> cases h
    · exact .wakeR _ _ _ _ ‹_›
    · exact .wakeL _ _ _ _ ‹_›
  | close c k =>
    simp only [step] at h; split at h <;> cases h
    · exact .closeR _ _ _ ‹_›
    · exact .closeL _ _ _ ‹_›
    · exact .closeW _ _ _ _ ‹_›
  | fail c =>
    simp only [step] at h; split at h <;> cases h
    exact .fail _ _ ‹_›

/-- Induction along a run. -/
theorem run_induction {P : Locks → Prop} {Q : Act → Prop} (hs : ∀ s a s', P s → Q a → Step s a s' → P s')
    (as : List Act) : ∀ (s s' : Locks), P s → (∀ a ∈ as, Q a) → s.run as = some s' → P s' := by
  induction as with
  | nil => intro s s' h _ hr; cases hr; exact h
  | cons a as ih =>
    intro s s' h hq hr
    simp only [run, Option.bind_eq_some_iff] at hr
    obtain ⟨s1, h1, h2⟩ := hr
    exact ih s1 s' (hs _ _ _ h (hq a (by simp)) (step_cases h1)) (fun x hx => hq x (by simp [hx])) h2

/-- The locks are held by the tasks that say so, and by no others. -/
structure Inv (s : Locks) : Prop where
  manager : ∀ c, s.manager = some c ↔ ∃ r k, s.tasks.get c = some (.enters r k)
  held : ∀ r c, s.held.get r = some c ↔ s.tasks.get c = some (.listens r)

theorem setTask_get (s : Locks) (c d : Nat) (t : Task) :
    (s.setTask c t).tasks.get d = if c = d then some t else s.tasks.get d := by
  simp only [setTask]; rw [Map.get_insert]

theorem setSub_eq (s : Locks) (r : Nat) (b : Option Bool) :
    (s.setSub r b).manager = s.manager ∧ (s.setSub r b).held = s.held ∧ (s.setSub r b).table = s.table ∧
      (s.setSub r b).fresh = s.fresh ∧ (s.setSub r b).tasks = s.tasks := by
  cases b with
  | none => simp [setSub]
  | some b => cases b <;> simp [setSub]

theorem Inv.step {s s' : Locks} {a : Act} (hi : s.Inv) (h : Step s a s') : s'.Inv := by
  obtain ⟨h1, h2⟩ := hi
  have h3 : ∀ c r k, s.tasks.get c = some (.enters r k) → s.manager = some c :=
    fun c r k h => (h1 c).mpr ⟨r, k, h⟩
  have h4 : ∀ r c, s.tasks.get c = some (.listens r) → s.held.get r = some c := fun r c => (h2 r c).mpr
  cases h <;> constructor <;> intros <;>
    simp only [setTask, dropLock, Map.get_insert, Map.get_erase, setSub_eq] <;>
    first | grind | (split <;> grind) | (split <;> simp_all <;> grind)

theorem Inv.init : ({} : Locks).Inv := ⟨by simp [Map.get], by simp [Map.get]⟩

theorem Reachable.inv {s : Locks} (h : s.Reachable) : s.Inv := by
  obtain ⟨as, h⟩ := h
  exact run_induction (Q := fun _ => True) (fun _ _ _ h _ hs => h.step hs) as _ _ Inv.init (by simp) h

theorem sum_erase (m : Map Nat Task) (c : Nat) (t : Task) (h : m.get c = some t) :
    ((m.erase c).map fun ct => ct.2.patience).sum + t.patience ≤ (m.map fun ct => ct.2.patience).sum := by
  induction m with
  | nil => cases h
  | cons e m ih =>
    obtain ⟨k, v⟩ := e
    simp only [Map.get] at h
    by_cases hk : k = c
    · subst hk
      rw [if_pos rfl] at h; cases h
      have : ∀ m : Map Nat Task, ((Map.erase m k).map fun ct => ct.2.patience).sum ≤
          (m.map fun ct => ct.2.patience).sum := by
        intro m
        induction m with
        | nil => simp [Map.erase]
        | cons e m ih2 =>
          simp only [Map.erase, List.filter_cons] at ih2 ⊢
          split <;> simp only [List.map_cons, List.sum_cons] <;> omega
      have h3 := this m
      simp only [Map.erase, List.filter_cons, ne_eq] at h3 ⊢
      simp only [not_true_eq_false, decide_false, Bool.false_eq_true, if_false, List.map_cons,
        List.sum_cons]
      omega
    · rw [if_neg hk] at h
      have := ih h
      simp only [Map.erase, List.filter_cons, ne_eq] at this ⊢
      simp only [hk, not_false_eq_true, decide_true, if_true, List.map_cons, List.sum_cons]
      omega

theorem sum_insert (m : Map Nat Task) (c : Nat) (t t' : Task) (h : m.get c = some t)
    (hl : t'.patience + 1 ≤ t.patience) :
    ((m.insert c t').map fun ct => ct.2.patience).sum + 1 ≤ (m.map fun ct => ct.2.patience).sum := by
  have := sum_erase m c t h
  simp only [Map.insert, List.map_cons, List.sum_cons]
  omega

/-- Each action of the runtime takes from the patience. -/
theorem patience_step {s s' : Locks} {a : Act} (ha : a.Internal) (h : Step s a s') :
    s'.patience + 1 ≤ s.patience := by
  cases h <;> first | exact ha.elim | skip
  case leaveX c r h =>
    have := sum_erase s.tasks c _ h
    have e : (Task.ends r 0).patience = 2 := rfl
    simp only [patience]; omega
  all_goals
    simp only [patience, setTask, setSub_eq]
    refine sum_insert s.tasks _ _ _ ‹_› ?_
    simp only [Task.patience]; omega

end Locks

end Mercurio
