import Verif.Model.Topic
import Verif.Spec.Topic

/-! # Lemmas about maps, splitting, matching and the topic tree -/

namespace Mercurio

namespace Map

variable {K V : Type} [DecidableEq K]

theorem get_erase (m : Map K V) (k k' : K) :
    (m.erase k).get k' = if k = k' then none else m.get k' := by
  induction m with
  | nil => simp [erase, get]
  | cons e m ih =>
    obtain ⟨a, v⟩ := e
    by_cases h : a = k
    · have : erase ((a, v) :: m) k = erase m k := by simp [erase, h]
      rw [this, ih]
      by_cases hk : k = k'
      · simp [hk]
      · simp [hk, get, h]
    · have : erase ((a, v) :: m) k = (a, v) :: erase m k := by simp [erase, h]
      rw [this]
      by_cases hk : a = k'
      · have : k ≠ k' := fun e => h (hk.trans e.symm)
        simp [get, hk, this]
      · simp [get, hk, ih]

theorem get_insert (m : Map K V) (k k' : K) (v : V) :
    (m.insert k v).get k' = if k = k' then some v else m.get k' := by
  by_cases h : k = k'
  · simp [insert, get, h]
  · simp [insert, get, h, get_erase]

theorem keys_erase (m : Map K V) (k : K) : (m.erase k).keys = m.keys.filter (· ≠ k) := by
  induction m with
  | nil => rfl
  | cons e m ih =>
    by_cases h : e.1 = k <;> simp_all [erase, keys]

theorem get_eq_none (m : Map K V) (k : K) : m.get k = none ↔ k ∉ m.keys := by
  induction m with
  | nil => simp [get, keys]
  | cons e m ih =>
    obtain ⟨a, v⟩ := e
    by_cases h : a = k
    · simp [get, keys, h]
    · have h' : k ≠ a := fun e => h e.symm
      simpa [get, keys, h, h'] using ih

theorem get_isSome (m : Map K V) (k : K) : (m.get k).isSome ↔ k ∈ m.keys := by
  have := get_eq_none m k
  cases h : m.get k <;> simp_all

theorem nodup_insert (m : Map K V) (k : K) (v : V) (h : m.keys.Nodup) :
    (m.insert k v).keys.Nodup := by
  have : (m.insert k v).keys = k :: (m.erase k).keys := rfl
  rw [this, keys_erase, List.nodup_cons]
  exact ⟨by simp, h.filter _⟩

theorem nodup_erase (m : Map K V) (k : K) (h : m.keys.Nodup) : (m.erase k).keys.Nodup := by
  rw [keys_erase]; exact h.filter _

theorem mem_keys_insert (m : Map K V) (k k' : K) (v : V) :
    k' ∈ (m.insert k v).keys ↔ k' = k ∨ k' ∈ m.keys := by
  rw [← get_isSome, ← get_isSome, get_insert]
  by_cases h : k = k'
  · simp [h]
  · have : ¬ k' = k := fun e => h e.symm
    simp [h, this]

theorem mem_iff_get (m : Map K V) (h : m.keys.Nodup) (k : K) (v : V) :
    (k, v) ∈ m ↔ m.get k = some v := by
  induction m with
  | nil => simp [get]
  | cons e m ih =>
    obtain ⟨a, w⟩ := e
    have hd : a ∉ keys m ∧ (keys m).Nodup := List.nodup_cons.mp h
    have ih := ih hd.2
    by_cases hk : a = k
    · subst hk
      have hn : (a, v) ∉ m := fun hm => hd.1 (List.mem_map.mpr ⟨(a, v), hm, rfl⟩)
      simp [get, hn, eq_comm]
    · have hk' : ¬ k = a := fun e => hk e.symm
      simp [get, hk, hk', ih]

end Map

/-! ## Splitting -/

theorem splitOn_ne_nil (c : UInt8) (s : Str) : splitOn c s ≠ [] := by
  cases s with
  | nil => simp [splitOn]
  | cons b bs =>
    simp only [splitOn]
    split
    · simp
    · split <;> simp

theorem splitOn_not_mem (c : UInt8) (s : Str) : ∀ l ∈ splitOn c s, c ∉ l := by
  induction s with
  | nil => simp [splitOn]
  | cons b bs ih =>
    simp only [splitOn]
    split
    · intro l hl
      rcases List.mem_cons.mp hl with rfl | hl
      · simp
      · exact ih l hl
    · rename_i hb
      have hb' : ¬ c = b := fun e => hb e.symm
      split
      · simp [hb']
      · rename_i l0 ls heq
        intro l hl
        rcases List.mem_cons.mp hl with rfl | hl
        · have := ih l0 (by rw [heq]; simp)
          simp [hb', this]
        · exact ih l (by rw [heq]; simp [hl])

theorem join_cons (sep l : Str) (ls : List Str) (h : ls ≠ []) :
    sep.intercalate (l :: ls) = l ++ sep ++ sep.intercalate ls := by
  cases ls with
  | nil => exact absurd rfl h
  | cons a as => simp [List.intercalate, List.intersperse]

theorem join_one (sep l : Str) : sep.intercalate [l] = l := by
  simp [List.intercalate]

theorem join_splitOn (c : UInt8) (s : Str) : [c].intercalate (splitOn c s) = s := by
  induction s with
  | nil => simp [splitOn, join_one]
  | cons b bs ih =>
    simp only [splitOn]
    split
    · rename_i hb
      rw [join_cons _ _ _ (splitOn_ne_nil c bs), ih, hb]; rfl
    · split
      · rename_i h; exact absurd h (splitOn_ne_nil c bs)
      · rename_i l ls heq
        rw [heq] at ih
        by_cases hl : ls = []
        · subst hl; rw [join_one] at ih ⊢; rw [ih]
        · rw [join_cons _ _ _ hl] at ih ⊢
          rw [← ih]; simp

/-- Pieces without the separator are recovered from their join. -/
theorem splitOn_join (c : UInt8) (ls : List Str) (h0 : ls ≠ []) (h : ∀ l ∈ ls, c ∉ l) :
    splitOn c ([c].intercalate ls) = ls := by
  have piece : ∀ (l : Str), c ∉ l → splitOn c l = [l] := by
    intro l hl
    induction l with
    | nil => rfl
    | cons b bs ih =>
      have hb : ¬ b = c := fun e => hl (by simp [e])
      simp [splitOn, hb, ih (fun e => hl (by simp [e]))]
  have app : ∀ (l rest : Str), c ∉ l → splitOn c (l ++ [c] ++ rest) = l :: splitOn c rest := by
    intro l rest hl
    induction l with
    | nil => simp [splitOn]
    | cons b bs ih =>
      have hb : ¬ b = c := fun e => hl (by simp [e])
      have := ih (fun e => hl (by simp [e]))
      simp only [List.cons_append, splitOn, hb, if_false]
      rw [this]
  induction ls with
  | nil => exact absurd rfl h0
  | cons l ls ih =>
    by_cases hl : ls = []
    · subst hl; rw [join_one]; exact piece l (h l (by simp))
    · rw [join_cons _ _ _ hl, app _ _ (h l (by simp)), ih hl (fun x hx => h x (by simp [hx]))]

namespace Spec

theorem isLevels_split (s : Str) : IsLevels s (splitLevels s) :=
  ⟨splitOn_ne_nil _ _, splitOn_not_mem _ _, (join_splitOn _ _).symm⟩

theorem isLevels_iff (s : Str) (ls : List Str) : IsLevels s ls ↔ ls = splitLevels s := by
  constructor
  · rintro ⟨h0, h1, h2⟩
    rw [h2]; exact (splitOn_join _ _ h0 h1).symm
  · rintro rfl; exact isLevels_split s

/-- Every string has levels. -/
theorem isLevels_exists (s : Str) : ∃ ls, IsLevels s ls := ⟨_, isLevels_split s⟩

/-- A string has only one list of levels. -/
theorem IsLevels.unique {s : Str} {a b : List Str} (ha : IsLevels s a) (hb : IsLevels s b) :
    a = b := by
  rw [isLevels_iff] at ha hb; rw [ha, hb]

theorem matches_iff (f t : Str) : Matches f t ↔ MatchesLevels (splitLevels f) (splitLevels t) := by
  constructor
  · rintro ⟨fl, tl, h1, h2, h3⟩
    rw [isLevels_iff] at h1 h2
    subst h1 h2; exact h3
  · intro h; exact ⟨_, _, isLevels_split f, isLevels_split t, h⟩

end Spec

/-- A byte of a level is a byte of the string. -/
theorem mem_of_mem_level {c b : UInt8} {s l : Str} (hl : l ∈ splitOn c s) (hb : b ∈ l) : b ∈ s := by
  have hj := join_splitOn c s
  have h0 : ∀ ls : List Str, l ∈ ls → b ∈ [c].intercalate ls := by
    intro ls
    induction ls with
    | nil => simp
    | cons x xs ih =>
      intro hm
      by_cases hx : xs = []
      · subst hx
        rcases List.mem_cons.mp hm with rfl | h
        · rwa [join_one]
        · simp at h
      · rw [join_cons _ _ _ hx]
        rcases List.mem_cons.mp hm with rfl | h
        · simp [hb]
        · simp [ih h]
  have := h0 _ hl
  rwa [hj] at this

/-! ## The topic tree -/

namespace TopicNode

variable {T : Type}

/-- The messages sent so far on the channel of the node at a path, if that node exists. -/
def sentAt (n : TopicNode T) (p : List Str) : Option (List T) := (n.find p).map TopicNode.sent

theorem find_cons (n : TopicNode T) (l : Str) (ls : List Str) :
    n.find (l :: ls) = (n.child l).bind (fun c => c.find ls) := by
  simp only [find]; cases n.child l <;> rfl

theorem sentAt_cons (n : TopicNode T) (l : Str) (ls : List Str) :
    n.sentAt (l :: ls) = (n.child l).bind (fun c => c.sentAt ls) := by
  simp only [sentAt, find_cons]; cases n.child l <;> rfl

theorem child_insert (n : TopicNode T) (s : List T) (l k : Str) (c : TopicNode T) :
    (TopicNode.mk s (n.children.insert l c)).child k = if l = k then some c else n.child k :=
  Map.get_insert _ _ _ _

theorem sentAt_ensure (n : TopicNode T) (ls q : List Str) (s : List T)
    (h : n.sentAt q = some s) : (n.ensure ls).sentAt q = some s := by
  induction ls generalizing n q with
  | nil => exact h
  | cons l ls ih =>
    cases q with
    | nil => simpa [sentAt, find, ensure, sent] using h
    | cons k q =>
      simp only [ensure]
      rw [sentAt_cons, child_insert]
      rw [sentAt_cons] at h
      by_cases hk : l = k
      · subst hk
        cases hc : n.child l with
        | none => simp [hc] at h
        | some c => simp only [hc, Option.bind_some] at h; simpa using ih c q h
      · simpa [hk] using h

theorem sentAt_ensure_self (n : TopicNode T) (ls : List Str) :
    ∃ s, (n.ensure ls).sentAt ls = some s := by
  induction ls generalizing n with
  | nil => exact ⟨n.sent, rfl⟩
  | cons l ls ih =>
    obtain ⟨s, hs⟩ := ih ((n.child l).getD new)
    refine ⟨s, ?_⟩
    simp only [ensure]
    rw [sentAt_cons, child_insert]
    simpa using hs

theorem sentAt_send (n : TopicNode T) (p q : List Str) (v : T) :
    (n.send p v).sentAt q =
      if p = q then (n.sentAt q).map (· ++ [v]) else n.sentAt q := by
  induction p generalizing n q with
  | nil =>
    cases q with
    | nil => simp [send, sentAt, find, sent]
    | cons k q => simp [send, sentAt, find, child, children]
  | cons l ls ih =>
    simp only [send]
    cases hc : n.child l with
    | none =>
      by_cases hq : l :: ls = q
      · subst hq; simp [sentAt_cons, hc]
      · simp [hq]
    | some c =>
      cases q with
      | nil => simp [sentAt, find, sent]
      | cons k q =>
        simp only
        rw [sentAt_cons, child_insert, sentAt_cons]
        by_cases hk : l = k
        · subst hk
          simp only [if_true, Option.bind_some, hc]
          rw [ih c q]
          by_cases hq : ls = q <;> simp [hq]
        · simp [hk]

theorem sentAt_sends (n : TopicNode T) (ps : List (List Str)) (q : List Str) (v : T) :
    (ps.foldl (fun t p => t.send p v) n).sentAt q =
      (n.sentAt q).map (· ++ List.replicate (ps.count q) v) := by
  induction ps generalizing n with
  | nil => simp
  | cons p ps ih =>
    rw [List.foldl_cons, ih, sentAt_send]
    by_cases h : p = q
    · subst h
      cases n.sentAt p <;> simp [List.replicate_succ]
    · have : (p :: ps).count q = ps.count q := by
        rw [List.count_cons]; simp [h]
      simp [h, this]

/-- How many copies of a publication to a topic with levels `ls` the node with path `q` gets. -/
def copies : List Str → List Str → Nat
  | q, [] => if q = [] ∨ q = [Spec.hashLevel] then 1 else 0
  | [], _ :: _ => 0
  | k :: q, l :: ls =>
    (if k = Spec.hashLevel ∧ q = [] then 1 else 0)
      + (if k = Spec.plusLevel then copies q ls else 0)
      + (if k = l then copies q ls else 0)

/-- The nodes reached below a node, as a recursion over the levels. -/
def visit (n : TopicNode T) : List Str → List (List Str)
  | [] => [] :: (match n.child [0x23] with | some _ => [[[0x23]]] | none => [])
  | l :: ls =>
    (match n.child [0x23] with | some _ => [[[0x23]]] | none => [])
    ++ (match n.child [0x2b] with | some c => (visit c ls).map ([0x2b] :: ·) | none => [])
    ++ (match n.child l with | some c => (visit c ls).map (l :: ·) | none => [])

/-- Upper bound on the loop iterations a stack entry causes. -/
def weight (st : List (Frame T)) : Nat := (st.map fun f => 3 ^ f.rest.length).sum

theorem publishLoop_eq (fuel : Nat) (st : List (Frame T)) (h : weight st < fuel) :
    publishLoop fuel st = st.flatMap fun f => (visit f.node f.rest).map (f.path ++ ·) := by
  induction fuel generalizing st with
  | zero => omega
  | succ fuel ih =>
    cases st with
    | nil => rfl
    | cons f st =>
      obtain ⟨n, p, rest⟩ := f
      cases rest with
      | nil =>
        have hw : weight st < fuel := by
          simp [weight] at h ⊢; omega
        simp only [publishLoop, List.flatMap_cons, visit]
        rw [ih st hw]
        cases n.child [0x23] <;> simp
      | cons l ls =>
        have hp : 0 < 3 ^ ls.length := Nat.pow_pos (by omega)
        have hw : 3 ^ ls.length * 3 + weight st < fuel + 1 := by
          simpa [weight, Nat.pow_succ] using h
        simp only [publishLoop, List.flatMap_cons, visit]
        have hrec : ∀ st' : List (Frame T), weight st' ≤ 2 * 3 ^ ls.length + weight st →
            publishLoop fuel st' =
              st'.flatMap fun f => (visit f.node f.rest).map (f.path ++ ·) :=
          fun st' hst => ih st' (by omega)
        cases h1 : n.child l <;> cases h2 : n.child [0x2b] <;> simp only [] <;>
          rw [hrec _ (by simp [weight]; try omega)] <;>
          cases n.child [0x23] <;> simp [List.flatMap_cons, Function.comp_def]

theorem targets_eq (root : TopicNode T) (topic : Str) :
    root.targets topic = visit root (splitLevels topic) := by
  rw [targets, publishLoop_eq]
  · simp
  · simp [weight]

theorem find_isSome_cons (n : TopicNode T) (l : Str) (ls : List Str) :
    (n.find (l :: ls)).isSome = match n.child l with
      | some c => (c.find ls).isSome
      | none => false := by
  rw [find_cons]; cases n.child l <;> rfl

theorem count_map_cons (k l : Str) (q : List Str) (xs : List (List Str)) :
    (xs.map (k :: ·)).count (l :: q) = if k = l then xs.count q else 0 := by
  induction xs with
  | nil => simp
  | cons x xs ih =>
    rw [List.map_cons, List.count_cons, ih, List.count_cons]
    by_cases h : k = l <;> simp [h]

theorem count_map_cons_nil (k : Str) (xs : List (List Str)) :
    (xs.map (k :: ·)).count [] = 0 := by
  induction xs with
  | nil => simp
  | cons x xs ih => rw [List.map_cons, List.count_cons, ih]; simp

theorem count_visit (n : TopicNode T) (ls q : List Str) :
    (visit n ls).count q = if (n.find q).isSome then copies q ls else 0 := by
  induction ls generalizing n q with
  | nil =>
    simp only [visit, copies]
    cases q with
    | nil =>
      cases n.child [0x23] <;> simp [find]
    | cons k q =>
      rw [find_isSome_cons]
      by_cases hk : k = [0x23]
      · subst hk
        cases hc : n.child [0x23] with
        | none => simp
        | some c =>
          cases q with
          | nil => simp [find, Spec.hashLevel]
          | cons a as => simp [Spec.hashLevel]
      · have hk' : ¬ [0x23] = k := fun e => hk e.symm
        cases n.child [0x23] <;> simp [Spec.hashLevel, hk, hk', List.count_cons]
  | cons l ls ih =>
    simp only [visit, List.count_append]
    cases q with
    | nil =>
      have hz : copies [] (l :: ls) = 0 := rfl
      rw [hz]
      cases n.child [0x23] <;> cases n.child [0x2b] <;> cases n.child l <;>
        simp [count_map_cons_nil, List.count_cons]
    | cons k q =>
      rw [find_isSome_cons]
      simp only [copies]
      have e1 : (match n.child [0x23] with
          | some _ => [[[0x23]]] | none => ([] : List (List Str))).count (k :: q) =
          if (n.child k).isSome then (if k = Spec.hashLevel ∧ q = [] then 1 else 0) else 0 := by
        by_cases hk : k = [0x23]
        · subst hk
          cases n.child [0x23] with
          | none => simp
          | some c => cases q <;> simp [Spec.hashLevel]
        · have hk' : ¬ [0x23] = k := fun e => hk e.symm
          cases n.child [0x23] <;> simp [Spec.hashLevel, hk, hk', List.count_cons]
      have e2 : ∀ x : Str, (match n.child x with
          | some c => (visit c ls).map (x :: ·) | none => ([] : List (List Str))).count (k :: q) =
          if k = x then (match n.child k with
            | some c => if (c.find q).isSome then copies q ls else 0 | none => 0) else 0 := by
        intro x
        by_cases hk : k = x
        · subst hk
          cases n.child k with
          | none => simp
          | some c => simp only [count_map_cons, if_true]; exact ih c q
        · have hk' : ¬ x = k := fun e => hk e.symm
          cases n.child x with
          | none => simp [hk]
          | some c => simp [count_map_cons, hk, hk']
      rw [e1, e2, e2]
      cases hc : n.child k with
      | none => simp
      | some c =>
        by_cases hq : q = []
        · subst hq; simp [find, Spec.plusLevel]; rfl
        · simp only [hq, and_false, if_false]
          by_cases hf : (c.find q).isSome
          · simp [hf, Spec.plusLevel]; rfl
          · simp [hf]

theorem copies_eq (q ls : List Str) (h : ∀ l ∈ ls, l ≠ Spec.plusLevel ∧ l ≠ Spec.hashLevel) :
    (Spec.MatchesLevels q ls → copies q ls = 1) ∧
      (¬ Spec.MatchesLevels q ls → copies q ls = 0) := by
  induction ls generalizing q with
  | nil =>
    constructor
    · intro hm
      cases hm <;> simp [copies]
    · intro hm
      rw [copies, if_neg]
      rintro (rfl | rfl)
      · exact hm .nil
      · exact hm (.hash [])
  | cons l ls ih =>
    have hl := h l (by simp)
    have ih := fun q => ih q (fun x hx => h x (by simp [hx]))
    cases q with
    | nil =>
      constructor
      · intro hm; cases hm
      · intro _; rfl
    | cons k q =>
      have ph : Spec.plusLevel ≠ Spec.hashLevel := by decide
      simp only [copies]
      by_cases h1 : k = Spec.hashLevel
      · subst h1
        have e1 : ¬ Spec.hashLevel = Spec.plusLevel := fun e => ph e.symm
        have e2 : ¬ Spec.hashLevel = l := fun e => hl.2 e.symm
        simp only [e1, e2, if_false, true_and]
        by_cases hq : q = []
        · subst hq
          exact ⟨fun _ => by simp, fun hn => absurd (.hash _) hn⟩
        · refine ⟨fun hm => ?_, fun _ => by simp [hq]⟩
          cases hm with
          | same => exact absurd rfl hl.2
          | hash => exact absurd rfl hq
      · by_cases h2 : k = Spec.plusLevel
        · subst h2
          have e2 : ¬ Spec.plusLevel = l := fun e => hl.1 e.symm
          simp only [h1, e2, if_false, false_and, if_true]
          refine ⟨fun hm => ?_, fun hn => ?_⟩
          · cases hm with
            | same => exact absurd rfl hl.1
            | plus _ hm => simp [(ih q).1 hm]
          · have := (ih q).2 (fun hm => hn (.plus _ hm))
            simp [this]
        · simp only [h1, h2, if_false, false_and]
          by_cases h3 : k = l
          · subst h3
            refine ⟨fun hm => ?_, fun hn => ?_⟩
            · cases hm with
              | same _ hm => simp [(ih q).1 hm]
              | plus => exact absurd rfl h2
              | hash => exact absurd rfl h1
            · have := (ih q).2 (fun hm => hn (.same _ hm))
              simp [this]
          · simp only [h3, if_false]
            refine ⟨fun hm => ?_, fun _ => by simp⟩
            cases hm with
            | same => exact absurd rfl h3
            | plus => exact absurd rfl h2
            | hash => exact absurd rfl h1

end TopicNode

/-- The levels of a valid topic name are no wildcards. -/
theorem levels_of_valid {t : Str} (h : Spec.ValidTopic t) :
    ∀ l ∈ splitLevels t, l ≠ Spec.plusLevel ∧ l ≠ Spec.hashLevel := by
  intro l hl
  constructor
  · rintro rfl; exact h.no_plus (mem_of_mem_level hl (by simp [Spec.plusLevel]))
  · rintro rfl; exact h.no_hash (mem_of_mem_level hl (by simp [Spec.hashLevel]))

/-- The retained lookup loop decides matching for filters with '#' only at the end. -/
theorem matchLoop_iff (f t : List Str)
    (h : ∀ i (h : i < f.length), f[i] = Spec.hashLevel → i + 1 = f.length) :
    matchLoop t f = true ↔ Spec.MatchesLevels f t := by
  induction f generalizing t with
  | nil =>
    cases t with
    | nil => simp [matchLoop, Spec.MatchesLevels.nil]
    | cons a as =>
      simp only [matchLoop, List.isEmpty_cons]
      exact ⟨fun h => by simp at h, fun h => by cases h⟩
  | cons p f ih =>
    have ih := fun t => ih t (fun i hi he => by
      have := h (i + 1) (by simpa using hi) (by simpa using he)
      simpa using this)
    have e : matchLoop t (p :: f) = if p = [0x23] then true
        else match t with
          | [] => false
          | a :: t => if p ≠ [0x2b] ∧ p ≠ a then false else matchLoop t f := by
      cases t <;> rfl
    rw [e]
    by_cases hp : p = [0x23]
    · have hf : f = [] := by
        have := h 0 (by simp) (show p = _ from hp)
        simpa using this
      subst hp hf
      simp only [if_true, true_iff]
      exact .hash t
    · rw [if_neg hp]
      cases t with
      | nil =>
        simp only []
        exact ⟨fun h => by simp at h, fun h => by cases h; exact absurd rfl hp⟩
      | cons a t =>
        simp only []
        by_cases h1 : p = [0x2b]
        · subst h1
          rw [if_neg (by simp), ih]
          refine ⟨fun hm => .plus _ hm, fun hm => ?_⟩
          cases hm with
          | same _ hm => exact hm
          | plus _ hm => exact hm
        · by_cases h2 : p = a
          · subst h2
            rw [if_neg (by simp), ih]
            refine ⟨fun hm => .same _ hm, fun hm => ?_⟩
            cases hm with
            | same _ hm => exact hm
            | plus _ hm => exact hm
            | hash => exact absurd rfl hp
          · rw [if_pos ⟨h1, h2⟩]
            refine ⟨fun h => by simp at h, fun hm => ?_⟩
            cases hm with
            | same => exact absurd rfl h2
            | plus => exact absurd rfl h1
            | hash => exact absurd rfl hp

end Mercurio
