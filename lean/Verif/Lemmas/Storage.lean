import Verif.Lemmas.Topic
import Verif.Spec.Storage

/-! # Lemmas about the storage back ends -/

namespace Mercurio

open Spec

theorem snoc_induction {α : Type} {P : List α → Prop} (h0 : P [])
    (hs : ∀ l a, P l → P (l ++ [a])) (l : List α) : P l := by
  rw [← l.reverse_reverse]
  induction l.reverse with
  | nil => exact h0
  | cons a l ih => rw [List.reverse_cons]; exact hs _ _ ih

theorem lastWith_snoc {α : Type} (p : α → Bool) (l : List α) (a : α) :
    lastWith p (l ++ [a]) = if p a then some a else lastWith p l := by
  simp only [lastWith, List.reverse_append, List.reverse_cons, List.reverse_nil, List.nil_append,
    List.singleton_append, List.find?_cons]
  cases p a <;> rfl

theorem lastWith_nil {α : Type} (p : α → Bool) : lastWith p [] = none := rfl

theorem memRun_snoc (s : MemoryStore) (ops : List StorageOp) (op : StorageOp) :
    s.run (ops ++ [op]) = ((s.run ops).step op).1 := by
  simp [MemoryStore.run]

theorem sqlRun_snoc (s : SqliteStore) (ops : List StorageOp) (op : StorageOp) :
    s.run (ops ++ [op]) = ((s.run ops).step op).1 := by
  simp [SqliteStore.run]

/-- Two maps with the same lookups have the same entries. -/
theorem Map.perm_of_get {K V : Type} [DecidableEq K] (a b : Map K V)
    (ha : a.keys.Nodup) (hb : b.keys.Nodup) (h : ∀ k, a.get k = b.get k) : List.Perm a b := by
  have nd : ∀ m : Map K V, m.keys.Nodup → List.Nodup m := by
    intro m hm
    have := List.pairwise_map.mp hm
    exact this.imp (fun h e => h (by rw [e]))
  rw [List.perm_ext_iff_of_nodup (nd a ha) (nd b hb)]
  rintro ⟨k, v⟩
  rw [Map.mem_iff_get a ha, Map.mem_iff_get b hb, h]

/-- The keys of all maps of a memory store are distinct. -/
structure MemoryStore.Ok (s : MemoryStore) : Prop where
  sessions : s.sessions.keys.Nodup
  retained : s.retained.keys.Nodup
  wills : s.wills.keys.Nodup
  inflight : ∀ c msgs, s.inflight.get c = some msgs → (Map.keys msgs).Nodup

theorem MemoryStore.Ok.step {s : MemoryStore} (h : s.Ok) (op : StorageOp) : (s.step op).1.Ok := by
  obtain ⟨h1, h2, h3, h4⟩ := h
  cases op with
  | saveSession c v => exact ⟨Map.nodup_insert _ _ _ h1, h2, h3, h4⟩
  | deleteSession c => exact ⟨Map.nodup_erase _ _ h1, h2, h3, h4⟩
  | storeRetained t m =>
    cases m with
    | none => exact ⟨h1, Map.nodup_erase _ _ h2, h3, h4⟩
    | some m => exact ⟨h1, Map.nodup_insert _ _ _ h2, h3, h4⟩
  | clearAllRetained => exact ⟨h1, by simp [MemoryStore.step, MemoryStore.clearAllRetained, Map.keys], h3, h4⟩
  | storeWill c w => exact ⟨h1, h2, Map.nodup_insert _ _ _ h3, h4⟩
  | deleteWill c => exact ⟨h1, h2, Map.nodup_erase _ _ h3, h4⟩
  | storeInflight c id m =>
    refine ⟨h1, h2, h3, fun c' msgs hm => ?_⟩
    simp only [MemoryStore.step, MemoryStore.storeInflight] at hm
    rw [Map.get_insert] at hm
    by_cases hc : c = c'
    · simp only [hc, if_true, Option.some.injEq] at hm
      rw [← hm]
      apply Map.nodup_insert
      cases hg : s.inflight.get c' with
      | none => simp [Map.keys]
      | some x => exact h4 c' x hg
    · rw [if_neg hc] at hm; exact h4 c' msgs hm
  | removeInflight c id =>
    simp only [MemoryStore.step, MemoryStore.removeInflight]
    cases hg : s.inflight.get c with
    | none => exact ⟨h1, h2, h3, h4⟩
    | some x =>
      refine ⟨h1, h2, h3, fun c' msgs hm => ?_⟩
      simp only at hm
      rw [Map.get_insert] at hm
      by_cases hc : c = c'
      · simp only [hc, if_true, Option.some.injEq] at hm
        rw [← hm]
        exact Map.nodup_erase _ _ (h4 c x hg)
      · rw [if_neg hc] at hm; exact h4 c' msgs hm
  | loadSession c => exact ⟨h1, h2, h3, h4⟩
  | listSessions => exact ⟨h1, h2, h3, h4⟩
  | getRetained f => exact ⟨h1, h2, h3, h4⟩
  | getWill c => exact ⟨h1, h2, h3, h4⟩
  | getInflight c id => exact ⟨h1, h2, h3, h4⟩
  | getAllInflight c => exact ⟨h1, h2, h3, h4⟩

theorem MemoryStore.new_ok : MemoryStore.new.Ok :=
  ⟨by simp [new, Map.keys], by simp [new, Map.keys], by simp [new, Map.keys],
    by simp [new, Map.get]⟩

theorem MemoryStore.run_ok (ops : List StorageOp) : (MemoryStore.new.run ops).Ok := by
  induction ops using snoc_induction with
  | h0 => exact MemoryStore.new_ok
  | hs l a ih => rw [memRun_snoc]; exact ih.step a

/-- Lookup of a session in a memory store after any operations. -/
theorem mem_session (ops : List StorageOp) (c : Str) :
    (MemoryStore.new.run ops).sessions.get c = sessionOf c ops := by
  induction ops using snoc_induction with
  | h0 => rfl
  | hs l a ih =>
    rw [memRun_snoc]
    have keep : ∀ op, onSession c op = false → sessionOf c (l ++ [op]) = sessionOf c l := by
      intro op h; simp [sessionOf, lastWith_snoc, h]
    cases a with
    | saveSession c' v =>
      simp only [MemoryStore.step, MemoryStore.saveSession, Map.get_insert]
      by_cases h : c' = c
      · simp [sessionOf, lastWith_snoc, onSession, h]
      · rw [keep _ (by simp [onSession, h]), if_neg h, ih]
    | deleteSession c' =>
      simp only [MemoryStore.step, MemoryStore.deleteSession, Map.get_erase]
      by_cases h : c' = c
      · simp [sessionOf, lastWith_snoc, onSession, h]
      · rw [keep _ (by simp [onSession, h]), if_neg h, ih]
    | storeRetained t m => cases m <;> (rw [keep _ rfl]; exact ih)
    | removeInflight c' id =>
      rw [keep _ rfl, ← ih]
      simp only [MemoryStore.step, MemoryStore.removeInflight]
      split <;> rfl
    | _ => (rw [keep _ rfl]; exact ih)

/-- Lookup of a will in a memory store after any operations. -/
theorem mem_will (ops : List StorageOp) (c : Str) :
    (MemoryStore.new.run ops).wills.get c = willOf c ops := by
  induction ops using snoc_induction with
  | h0 => rfl
  | hs l a ih =>
    rw [memRun_snoc]
    have keep : ∀ op, onWill c op = false → willOf c (l ++ [op]) = willOf c l := by
      intro op h; simp [willOf, lastWith_snoc, h]
    cases a with
    | storeWill c' v =>
      simp only [MemoryStore.step, MemoryStore.storeWill, Map.get_insert]
      by_cases h : c' = c
      · simp [willOf, lastWith_snoc, onWill, h]
      · rw [keep _ (by simp [onWill, h]), if_neg h, ih]
    | deleteWill c' =>
      simp only [MemoryStore.step, MemoryStore.deleteWill, Map.get_erase]
      by_cases h : c' = c
      · simp [willOf, lastWith_snoc, onWill, h]
      · rw [keep _ (by simp [onWill, h]), if_neg h, ih]
    | storeRetained t m => cases m <;> (rw [keep _ rfl]; exact ih)
    | removeInflight c' id =>
      rw [keep _ rfl, ← ih]
      simp only [MemoryStore.step, MemoryStore.removeInflight]
      split <;> rfl
    | _ => (rw [keep _ rfl]; exact ih)

/-- Lookup of a retained message in a memory store after any operations. -/
theorem mem_retained (ops : List StorageOp) (t : Str) :
    (MemoryStore.new.run ops).retained.get t = storedRetained t ops := by
  induction ops using snoc_induction with
  | h0 => rfl
  | hs l a ih =>
    rw [memRun_snoc]
    have keep : ∀ op, onRetained t op = false → storedRetained t (l ++ [op]) = storedRetained t l := by
      intro op h; simp [storedRetained, lastWith_snoc, h]
    cases a with
    | storeRetained t' m =>
      cases m with
      | none =>
        simp only [MemoryStore.step, MemoryStore.storeRetained, Map.get_erase]
        by_cases h : t' = t
        · simp [storedRetained, lastWith_snoc, onRetained, h]
        · rw [keep _ (by simp [onRetained, h]), if_neg h, ih]
      | some m =>
        simp only [MemoryStore.step, MemoryStore.storeRetained, Map.get_insert]
        by_cases h : t' = t
        · simp [storedRetained, lastWith_snoc, onRetained, h]
        · rw [keep _ (by simp [onRetained, h]), if_neg h, ih]
    | clearAllRetained => simp [MemoryStore.step, MemoryStore.clearAllRetained, onRetained, Map.get,
        storedRetained, lastWith_snoc]
    | removeInflight c' id =>
      rw [keep _ rfl, ← ih]
      simp only [MemoryStore.step, MemoryStore.removeInflight]
      split <;> rfl
    | _ => (rw [keep _ rfl]; exact ih)

/-- Lookup of an in-flight message in a memory store after any operations. -/
theorem mem_inflight (ops : List StorageOp) (c : Str) (id : UInt16) :
    (MemoryStore.new.run ops).getInflight c id = inflightOf c id ops := by
  induction ops using snoc_induction with
  | h0 => rfl
  | hs l a ih =>
    rw [memRun_snoc]
    have keep : ∀ op, onInflight c id op = false → inflightOf c id (l ++ [op]) = inflightOf c id l := by
      intro op h; simp [inflightOf, lastWith_snoc, h]
    generalize MemoryStore.new.run l = s at *
    cases a with
    | storeInflight c' id' m =>
      have e : ((s.step (.storeInflight c' id' m)).1).getInflight c id =
          if c' = c ∧ id' = id then some m else s.getInflight c id := by
        simp only [MemoryStore.step, MemoryStore.storeInflight, MemoryStore.getInflight,
          Map.get_insert]
        by_cases hc : c' = c
        · subst hc
          simp only [if_true, Map.get_insert, true_and]
          by_cases hi : id' = id
          · simp [hi]
          · simp only [hi, if_false]
            cases s.inflight.get c' <;> simp [Map.get]
        · simp [hc]
      rw [e]
      by_cases h : c' = c ∧ id' = id
      · simp [inflightOf, lastWith_snoc, onInflight, h]
      · rw [keep _ (by simp [onInflight]; exact fun hc hi => h ⟨hc, hi⟩), if_neg h, ih]
    | removeInflight c' id' =>
      have e : ((s.step (.removeInflight c' id')).1).getInflight c id =
          if c' = c ∧ id' = id then none else s.getInflight c id := by
        simp only [MemoryStore.step, MemoryStore.removeInflight]
        by_cases hc : c' = c
        · subst hc
          cases hg : s.inflight.get c' with
          | none => simp [MemoryStore.getInflight, hg]
          | some msgs =>
            simp only [MemoryStore.getInflight, Map.get_insert, if_true, Map.get_erase, true_and, hg]
        · cases hg : s.inflight.get c' with
          | none => simp [hc]
          | some msgs => simp [MemoryStore.getInflight, Map.get_insert, hc]
      rw [e]
      by_cases h : c' = c ∧ id' = id
      · simp [inflightOf, lastWith_snoc, onInflight, h]
      · rw [keep _ (by simp [onInflight]; exact fun hc hi => h ⟨hc, hi⟩), if_neg h, ih]
    | storeRetained t m => cases m <;> (rw [keep _ rfl]; exact ih)
    | _ => (rw [keep _ rfl]; exact ih)

end Mercurio
