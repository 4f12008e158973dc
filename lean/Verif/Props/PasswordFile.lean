import Verif.Spec.PasswordFile
import Verif.Lemmas.Storage
import Verif.Lemmas.Utf8

/-!
# The daemon's password file
-/

namespace Mercurio

open Spec

theorem isWhite_iff (c : Char) : isWhite c = true ↔ White c := by
  unfold isWhite White
  simp only [Bool.or_eq_true, Bool.and_eq_true, decide_eq_true_eq, beq_iff_eq, List.mem_cons,
    List.not_mem_nil, or_false]
  omega

/-! ## Reading lines -/

theorem linesFrom_line (cur l rest : Text) (h : '\n' ∉ l) :
    linesFrom cur (l ++ '\n' :: rest) = stripCR (cur ++ l) :: linesFrom [] rest := by
  induction l generalizing cur with
  | nil => simp [linesFrom]
  | cons c l ih =>
    have hc : c ≠ '\n' := by rintro rfl; simp at h
    have hl : '\n' ∉ l := fun h' => h (by simp [h'])
    simp [linesFrom, hc, ih _ hl]

theorem lines_line (l rest : Text) (h : '\n' ∉ l) :
    lines (l ++ '\n' :: rest) = stripCR l :: lines rest := by
  simpa [lines] using linesFrom_line [] l rest h

theorem splitColon_iff (t u h : Text) : splitColon t = some (u, h) ↔ t = u ++ ':' :: h ∧ ':' ∉ u := by
  induction t generalizing u with
  | nil => simp [splitColon]
  | cons b bs ih =>
    by_cases hb : b = ':'
    · subst hb
      simp only [splitColon, if_true, Option.some.injEq, Prod.mk.injEq]
      constructor
      · rintro ⟨rfl, rfl⟩; simp
      · rintro ⟨e, h0⟩
        cases u with
        | nil => simpa using e
        | cons x u => simp at e; simp [← e.1] at h0
    · simp only [splitColon, if_neg hb, Option.map_eq_some_iff, Prod.mk.injEq]
      constructor
      · rintro ⟨⟨u', p'⟩, h, rfl, rfl⟩
        obtain ⟨rfl, h0⟩ := (ih u').1 h
        exact ⟨rfl, by simpa [Ne.symm hb] using h0⟩
      · rintro ⟨e, h0⟩
        cases u with
        | nil => simp at e; exact absurd e.1 hb
        | cons x u =>
          simp only [List.cons_append, List.cons.injEq] at e
          obtain ⟨rfl, rfl⟩ := e
          simp at h0
          exact ⟨(u, h), (ih u).2 ⟨rfl, h0.2⟩, rfl, rfl⟩

theorem dropWhile_id {p : Char → Bool} {t : Text} (h : ∀ c, t.head? = some c → p c = false) :
    t.dropWhile p = t := by
  cases t with
  | nil => rfl
  | cons c t => simp [List.dropWhile, h c rfl]

theorem trim_id {t : Text} (h1 : ∀ c, t.head? = some c → ¬ White c)
    (h2 : ∀ c, t.getLast? = some c → ¬ White c) : trim t = t := by
  have f : ∀ c, ¬ White c → isWhite c = false := by
    intro c hc
    rw [← isWhite_iff] at hc
    simpa using hc
  unfold trim
  rw [dropWhile_id fun c hc => f c (h1 c hc), dropWhile_id, List.reverse_reverse]
  intro c hc
  rw [List.head?_reverse] at hc
  exact f c (h2 c hc)

theorem dropWhile_head {p : Char → Bool} {t : Text} {c : Char}
    (h : (t.dropWhile p).head? = some c) : p c = false := by
  have := List.head?_dropWhile_not p t
  rw [h] at this
  simpa using this

theorem trim_head {t : Text} {c : Char} (h : (trim t).head? = some c) : ¬ White c := by
  rw [← isWhite_iff]
  have : ∃ s, t.dropWhile isWhite = trim t ++ s := by
    unfold trim
    refine ⟨((t.dropWhile isWhite).reverse.takeWhile isWhite).reverse, ?_⟩
    rw [← List.reverse_append, List.takeWhile_append_dropWhile, List.reverse_reverse]
  obtain ⟨s, e⟩ := this
  have h' : (t.dropWhile isWhite).head? = some c := by
    rw [e, List.head?_append, h]; rfl
  simp [dropWhile_head h']

theorem trim_getLast {t : Text} {c : Char} (h : (trim t).getLast? = some c) : ¬ White c := by
  rw [← isWhite_iff]
  unfold trim at h
  rw [List.getLast?_reverse] at h
  simp [dropWhile_head h]

theorem mem_trim {t : Text} {c : Char} (h : c ∈ trim t) : c ∈ t := by
  unfold trim at h
  have h1 := (List.dropWhile_sublist isWhite).mem (List.mem_reverse.1 h)
  exact (List.dropWhile_sublist isWhite).mem (List.mem_reverse.1 h1)

theorem stripCR_subset {t : Text} {c : Char} (h : c ∈ stripCR t) : c ∈ t := by
  unfold stripCR at h
  split at h
  · exact (List.dropLast_sublist t).mem h
  · exact h

theorem linesFrom_oneLine (cur t : Text) (hc : '\n' ∉ cur) : ∀ l ∈ linesFrom cur t, '\n' ∉ l := by
  induction t generalizing cur with
  | nil =>
    intro l hl
    unfold linesFrom at hl
    split at hl
    · simp at hl
    · simp at hl; rw [hl]; exact hc
  | cons c t ih =>
    intro l hl
    unfold linesFrom at hl
    split at hl
    · rcases List.mem_cons.1 hl with rfl | hl
      · exact fun h => hc (stripCR_subset h)
      · exact ih [] (by simp) l hl
    · rename_i hne
      refine ih (cur ++ [c]) ?_ l hl
      simp only [List.mem_append, List.mem_singleton, not_or]
      exact ⟨hc, fun e => hne e.symm⟩

/-! ## The line of an entry -/

theorem entry_head {u h : Text} (hs : Storable u h) :
    ∀ c, (u ++ ':' :: h).head? = some c → ¬ White c ∧ c ≠ '#' := by
  intro c hc
  cases u with
  | nil =>
    simp at hc; subst hc
    refine ⟨?_, by decide⟩
    rw [← isWhite_iff]; decide
  | cons x u =>
    simp at hc; subst hc
    exact hs.start _ rfl

theorem entry_getLast {u h : Text} (hs : Storable u h) :
    ∀ c, (u ++ ':' :: h).getLast? = some c → ¬ White c := by
  intro c hc
  rw [List.getLast?_append, List.getLast?_cons] at hc
  simp only [Option.some_or, Option.some.injEq] at hc
  cases hl : h.getLast? with
  | none =>
    rw [hl] at hc
    simp at hc; subst hc
    rw [← isWhite_iff]; decide
  | some d =>
    rw [hl] at hc
    simp at hc; subst hc
    exact hs.stop _ hl

theorem stripCR_entry {u h : Text} (hs : Storable u h) : stripCR (u ++ ':' :: h) = u ++ ':' :: h := by
  unfold stripCR
  rw [if_neg]
  intro e
  apply entry_getLast hs _ e
  rw [← isWhite_iff]; decide

theorem loadLine_entry {u h : Text} (hs : Storable u h) (m : Map Text Text) :
    loadLine m (u ++ ':' :: h) = some (m.insert u h) := by
  unfold loadLine
  have ht : trim (u ++ ':' :: h) = u ++ ':' :: h :=
    trim_id (fun c hc => (entry_head hs c hc).1) (entry_getLast hs)
  simp only [ht]
  rw [if_neg, (splitColon_iff _ u h).2 ⟨rfl, hs.noColon⟩]
  rintro (h1 | h1)
  · simp at h1
  · exact (entry_head hs _ h1).2 rfl

theorem loadLines_entries (l : List (Text × Text)) (hl : ∀ e ∈ l, Storable e.1 e.2)
    (m : Map Text Text) :
    loadLines m (lines (l.flatMap fun e => e.1 ++ ':' :: e.2 ++ ['\n'])) =
      some (l.foldl (fun m e => m.insert e.1 e.2) m) := by
  induction l generalizing m with
  | nil => rfl
  | cons e l ih =>
    have hs := hl e (by simp)
    have hnl : '\n' ∉ e.1 ++ ':' :: e.2 := by
      simp only [List.mem_append, List.mem_cons, not_or]
      exact ⟨hs.oneLine.1, by decide, hs.oneLine.2⟩
    have ee : (e :: l).flatMap (fun e => e.1 ++ ':' :: e.2 ++ ['\n']) =
        (e.1 ++ ':' :: e.2) ++ '\n' :: l.flatMap (fun e => e.1 ++ ':' :: e.2 ++ ['\n']) := by
      simp
    rw [ee, lines_line _ _ hnl, stripCR_entry hs]
    simp only [loadLines, loadLine_entry hs, List.foldl_cons]
    exact ih (fun e' he' => hl e' (by simp [he'])) _

theorem passwordHeader_eq : ∃ h1 h2 : Text, passwordHeader = h1 ++ '\n' :: (h2 ++ ['\n']) ∧
    '\n' ∉ h1 ∧ '\n' ∉ h2 ∧ ∀ m, loadLine m (stripCR h1) = some m ∧ loadLine m (stripCR h2) = some m := by
  refine ⟨"# Mercurio password file".toList,
    "# Managed by `mercuriod passwd`. Do not edit manually.".toList, by decide +kernel,
    by decide +kernel, by decide +kernel, fun m => ?_⟩
  unfold loadLine
  refine ⟨if_pos (by decide +kernel), if_pos (by decide +kernel)⟩

theorem load_write (l : List (Text × Text)) :
    loadPasswords (some (writePasswords l)) =
      loadLines [] (lines (l.flatMap fun e => e.1 ++ ':' :: e.2 ++ ['\n'])) := by
  obtain ⟨h1, h2, e, n1, n2, hh⟩ := passwordHeader_eq
  unfold loadPasswords writePasswords
  rw [e]
  simp only [List.append_assoc, List.cons_append, List.nil_append]
  rw [lines_line _ _ n1, lines_line _ _ n2]
  simp only [loadLines, (hh _).1, (hh _).2]

theorem get_foldl_insert (l : List (Text × Text)) (hn : (l.map Prod.fst).Nodup) (m : Map Text Text)
    (v : Text) : (l.foldl (fun m e => m.insert e.1 e.2) m).get v =
      match Map.get l v with
      | some h => some h
      | none => m.get v := by
  induction l generalizing m with
  | nil => rfl
  | cons e l ih =>
    rw [List.map_cons, List.nodup_cons] at hn
    rw [List.foldl_cons, ih hn.2, Map.get_insert]
    obtain ⟨u, h⟩ := e
    by_cases huv : u = v
    · subst huv
      have : Map.get l u = none := (Map.get_eq_none l u).2 hn.1
      simp [this, Map.get]
    · simp [Map.get, huv]

theorem get_perm {l m : Map Text Text} (hn : m.keys.Nodup) (hl : List.Perm l m) (v : Text) :
    Map.get l v = m.get v := by
  have hn' : (Map.keys l).Nodup := (hl.map Prod.fst).nodup_iff.2 hn
  apply Option.ext
  intro h
  rw [← Map.mem_iff_get l hn', ← Map.mem_iff_get m hn]
  exact hl.mem_iff

/-- C54: a table of users whose names and hashes fit a line is read back from the file it is
written to, in whatever order the entries are written. -/
theorem C54_read_back (m : Map Text Text) (hn : m.keys.Nodup)
    (hm : ∀ u h, m.get u = some h → Storable u h) (l : List (Text × Text)) (hl : IterationOf m l) :
    ∃ m', loadPasswords (some (writePasswords l)) = some m' ∧ m'.keys.Nodup ∧
      ∀ u, m'.get u = m.get u := by
  have hs : ∀ e ∈ l, Storable e.1 e.2 := by
    intro e he
    apply hm
    rw [← Map.mem_iff_get m hn]
    exact hl.mem_iff.1 he
  have hnl : (l.map Prod.fst).Nodup := (hl.map Prod.fst).nodup_iff.2 hn
  refine ⟨_, by rw [load_write, loadLines_entries l hs], ?_, ?_⟩
  · have : ∀ (l : List (Text × Text)) (m : Map Text Text), m.keys.Nodup →
        (l.foldl (fun m e => m.insert e.1 e.2) m : Map Text Text).keys.Nodup := by
      intro l
      induction l with
      | nil => intro m h; exact h
      | cons e l ih => intro m h; exact ih _ (Map.nodup_insert m e.1 e.2 h)
    exact this l [] List.nodup_nil
  · intro u
    rw [get_foldl_insert l hnl, ← get_perm hn hl u]
    cases Map.get l u <;> rfl

/-- the `Storable` of a name and hash, as a test -/
def storableB (u h : Text) : Bool :=
  !u.contains ':' && !u.contains '\n' && !h.contains '\n' &&
    (u.head?.all fun c => !isWhite c && c ≠ '#') && (h.getLast?.all fun c => !isWhite c)

theorem storable_of (u h : Text) (e : storableB u h = true) : Storable u h := by
  simp only [storableB, Bool.and_eq_true, Bool.not_eq_true'] at e
  obtain ⟨⟨⟨⟨e1, e2⟩, e3⟩, e4⟩, e5⟩ := e
  refine ⟨?_, ⟨?_, ?_⟩, ?_, ?_⟩
  · intro hh; simp [hh] at e1
  · intro hh; simp [hh] at e2
  · intro hh; simp [hh] at e3
  · intro c hc
    rw [hc] at e4
    simp only [Option.all_some, Bool.and_eq_true, Bool.not_eq_true', decide_eq_true_eq] at e4
    rw [← isWhite_iff]
    simpa using e4
  · intro c hc
    rw [hc] at e5
    simp only [Option.all_some, Bool.not_eq_true'] at e5
    rw [← isWhite_iff]
    simp [e5]

example : Storable "bob".toList "$argon2id$v=19$m=19456,t=2,p=1$c2FsdA$aGFzaA".toList :=
  storable_of _ _ (by decide +kernel)

/-- every entry that loading produces fits a line -/
theorem loadLines_storable (ls : List Text) (hls : ∀ l ∈ ls, '\n' ∉ l) (m m' : Map Text Text)
    (hn : m.keys.Nodup) (hm : ∀ u h, m.get u = some h → Storable u h)
    (e : loadLines m ls = some m') :
    m'.keys.Nodup ∧ ∀ u h, m'.get u = some h → Storable u h := by
  induction ls generalizing m with
  | nil => simp [loadLines] at e; subst e; exact ⟨hn, hm⟩
  | cons l ls ih =>
    have hls' : ∀ l ∈ ls, '\n' ∉ l := fun x hx => hls x (by simp [hx])
    unfold loadLines at e
    cases hl : loadLine m l with
    | none => rw [hl] at e; simp at e
    | some m1 =>
      rw [hl] at e
      simp only at e
      unfold loadLine at hl
      simp only at hl
      by_cases hb : trim l = [] ∨ (trim l).head? = some '#'
      · rw [if_pos hb] at hl
        cases hl
        exact ih hls' m hn hm e
      · rw [if_neg hb] at hl
        cases hc : splitColon (trim l) with
        | none => rw [hc] at hl; simp at hl
        | some r =>
          obtain ⟨u, h⟩ := r
          rw [hc] at hl
          simp only [Option.some.injEq] at hl
          subst hl
          obtain ⟨et, hcol⟩ := (splitColon_iff _ u h).1 hc
          have hnl : '\n' ∉ trim l := fun h' => hls l (by simp) (mem_trim h')
          rw [et] at hnl
          simp only [List.mem_append, List.mem_cons, not_or] at hnl
          have hst : Storable u h := by
            refine ⟨hcol, ⟨hnl.1, hnl.2.2⟩, ?_, ?_⟩
            · intro c hc'
              have hh : (trim l).head? = some c := by
                rw [et, List.head?_append, hc']; rfl
              refine ⟨trim_head hh, ?_⟩
              rintro rfl
              exact hb (.inr hh)
            · intro c hc'
              have hh : (trim l).getLast? = some c := by
                rw [et, List.getLast?_append, List.getLast?_cons, hc']; rfl
              exact trim_getLast hh
          refine ih hls' _ (Map.nodup_insert m u h hn) ?_ e
          intro u' h' hg
          rw [Map.get_insert] at hg
          split at hg
          · rename_i huu
            cases hg; subst huu; exact hst
          · exact hm u' h' hg

/-- C54: the conditions are exactly what a file can hold: whatever the file, every user and hash
read from it fits a line. -/
theorem C54_loaded (file : Option Text) (m : Map Text Text) (h : loadPasswords file = some m) :
    m.keys.Nodup ∧ ∀ u h, m.get u = some h → Storable u h := by
  cases file with
  | none => simp [loadPasswords] at h
  | some t =>
    exact loadLines_storable _ (linesFrom_oneLine [] t (by simp)) [] m List.nodup_nil
      (by intro u h hh; simp [Map.get] at hh) h

/-- C54: so rewriting a file that was read successfully never changes a user. -/
theorem C54_rewrite (file : Option Text) (m : Map Text Text) (h : loadPasswords file = some m)
    (l : List (Text × Text)) (hl : IterationOf m l) :
    ∃ m', loadPasswords (some (writePasswords l)) = some m' ∧ ∀ u, m'.get u = m.get u := by
  obtain ⟨hn, hs⟩ := C54_loaded file m h
  obtain ⟨m', e, -, g⟩ := C54_read_back m hn hs l hl
  exact ⟨m', e, g⟩

example : loadPasswords (some "# x\n\n  bob : $h \r\nal:p:q".toList) =
    some [("al".toList, "p:q".toList), ("bob ".toList, " $h".toList)] := by decide +kernel

/-- C54, why the conditions are there: a name with a colon is read back as another name. -/
theorem C54_colon_needed : loadPasswords (some (writePasswords [("a:b".toList, "h".toList)])) =
    some [("a".toList, "b:h".toList)] := by decide +kernel

/-! ## C55: adding and deleting -/

/-- C55: adding or updating a user whose name fits a line, in a file that can be read, gives a file
that reads the same except for that user. -/
theorem C55_add (hash : Text → Option Text) (file : Option Text) (m : Map Text Text)
    (hf : loadPasswords file = some m) (user password h : Text) (hp : password ≠ [])
    (hh : hash password = some h) (hs : Storable user h)
    (order : Map Text Text → List (Text × Text)) (ho : ∀ m, IterationOf m (order m)) :
    ∃ m', loadPasswords (fileAfter file (addUser hash file user password password) order) = some m' ∧
      m'.get user = some h ∧ ∀ v, v ≠ user → m'.get v = m.get v := by
  obtain ⟨hn, hst⟩ := C54_loaded file m hf
  have e : addUser hash file user password password = some (m.insert user h) := by
    simp [addUser, hp, hh, loadEntries, hf]
  rw [e]
  obtain ⟨m', e', -, g⟩ := C54_read_back (m.insert user h) (Map.nodup_insert m user h hn) (by
    intro u h' hg
    rw [Map.get_insert] at hg
    split at hg
    · rename_i huu
      cases hg; subst huu; exact hs
    · exact hst u h' hg) (order (m.insert user h)) (ho _)
  refine ⟨m', e', ?_, ?_⟩
  · rw [g, Map.get_insert, if_pos rfl]
  · intro v hv
    rw [g, Map.get_insert, if_neg (Ne.symm hv)]

/-- C55: the first user of a new file. -/
theorem C55_add_first (hash : Text → Option Text) (user password h : Text) (hp : password ≠ [])
    (hh : hash password = some h) (hs : Storable user h)
    (order : Map Text Text → List (Text × Text)) (ho : ∀ m, IterationOf m (order m)) :
    ∃ m', loadPasswords (fileAfter none (addUser hash none user password password) order) = some m' ∧
      m'.get user = some h ∧ ∀ v, v ≠ user → m'.get v = none := by
  have e : addUser hash none user password password = some (Map.insert [] user h) := by
    simp [addUser, hp, hh, loadEntries, loadPasswords]
  rw [e]
  obtain ⟨m', e', -, g⟩ := C54_read_back (Map.insert [] user h)
    (Map.nodup_insert [] user h List.nodup_nil) (by
    intro u h' hg
    rw [Map.get_insert] at hg
    split at hg
    · rename_i huu
      cases hg; subst huu; exact hs
    · simp [Map.get] at hg) (order (Map.insert [] user h)) (ho _)
  refine ⟨m', e', ?_, ?_⟩
  · rw [g, Map.get_insert, if_pos rfl]
  · intro v hv
    rw [g, Map.get_insert, if_neg (Ne.symm hv)]
    rfl

/-- C55: deleting a user of the file gives a file that reads the same without that user; a user that
is not in the file leaves the file as it is. -/
theorem C55_delete (file : Option Text) (m : Map Text Text) (hf : loadPasswords file = some m)
    (user : Text) (order : Map Text Text → List (Text × Text)) (ho : ∀ m, IterationOf m (order m)) :
    ((m.get user).isSome → ∃ m', loadPasswords (fileAfter file (deleteUser file user) order) = some m' ∧
      m'.get user = none ∧ ∀ v, v ≠ user → m'.get v = m.get v) ∧
    (m.get user = none → fileAfter file (deleteUser file user) order = file) := by
  obtain ⟨hn, hst⟩ := C54_loaded file m hf
  constructor
  · intro hg
    have e : deleteUser file user = some (m.erase user) := by
      simp [deleteUser, loadEntries, hf, hg]
    rw [e]
    obtain ⟨m', e', -, g⟩ := C54_read_back (m.erase user) (Map.nodup_erase m user hn) (by
      intro u h' hg
      rw [Map.get_erase] at hg
      split at hg
      · simp at hg
      · exact hst u h' hg) (order (m.erase user)) (ho _)
    refine ⟨m', e', ?_, ?_⟩
    · rw [g, Map.get_erase, if_pos rfl]
    · intro v hv
      rw [g, Map.get_erase, if_neg (Ne.symm hv)]
  · intro hg
    simp [deleteUser, loadEntries, hf, hg, fileAfter]

/-- C55: an empty password, a mistyped confirmation or a failing hash leave the file as it is. -/
theorem C55_refused (hash : Text → Option Text) (file : Option Text) (user password confirm : Text)
    (h : password = [] ∨ password ≠ confirm ∨ hash password = none)
    (order : Map Text Text → List (Text × Text)) :
    fileAfter file (addUser hash file user password confirm) order = file := by
  have : addUser hash file user password confirm = none := by
    unfold addUser
    split
    · rfl
    · split
      · rfl
      · rcases h with h | h | h
        · contradiction
        · contradiction
        · rw [h]
  rw [this]; rfl

/-- C55 is false if the file cannot be read (one malformed line, or not UTF-8): adding a user then
loses all others. -/
theorem C55_malformed_false (hash : Text → Option Text) (file : Option Text)
    (hf : loadPasswords file = none) (user password h : Text) (hp : password ≠ [])
    (hh : hash password = some h) (hs : Storable user h)
    (order : Map Text Text → List (Text × Text)) (ho : ∀ m, IterationOf m (order m)) :
    ∃ m', loadPasswords (fileAfter file (addUser hash file user password password) order) = some m' ∧
      m'.get user = some h ∧ ∀ v, v ≠ user → m'.get v = none := by
  have e : addUser hash file user password password =
      addUser hash none user password password := by
    have h1 : loadEntries file = [] := by simp [loadEntries, hf]
    have h2 : loadEntries none = [] := rfl
    unfold addUser
    rw [h1, h2]
  obtain ⟨m', h1, h2⟩ := C55_add_first hash user password h hp hh hs order ho
  refine ⟨m', ?_, h2⟩
  rw [e, ← h1]
  have : addUser hash none user password password = some (Map.insert [] user h) := by
    simp [addUser, hp, hh, loadEntries, loadPasswords]
  rw [this]; rfl

/-- C55 is false for names with a line feed: the file can then no longer be read at all (here the
part before the line feed is not blank, not a comment and has no colon). -/
theorem C55_line_feed_false (hash : Text → Option Text) (file : Option Text) (first rest password h : Text)
    (hp : password ≠ []) (hh : hash password = some h)
    (h1 : '\n' ∉ first ∧ ':' ∉ first ∧ first ≠ []) (h2 : ∀ c ∈ first, ¬ White c ∧ c ≠ '#')
    (order : Map Text Text → List (Text × Text)) (ho : ∀ m, IterationOf m (order m)) :
    loadPasswords (fileAfter file (addUser hash file (first ++ '\n' :: rest) password password) order) =
      none := by
  have bad : ∀ m, loadLine m first = none := by
    intro m
    unfold loadLine
    have ht : trim first = first := by
      apply trim_id
      · intro c hc
        exact (h2 c (List.mem_of_head? hc)).1
      · intro c hc
        exact (h2 c (List.mem_of_getLast? hc)).1
    simp only [ht]
    rw [if_neg]
    · cases hs : splitColon first with
      | none => rfl
      | some r =>
        obtain ⟨u, x⟩ := r
        have := (splitColon_iff first u x).1 hs
        exact absurd (by rw [this.1]; simp) h1.2.1
    · rintro (hx | hx)
      · exact h1.2.2 hx
      · exact (h2 '#' (List.mem_of_head? hx)).2 rfl
  have hcr : stripCR first = first := by
    unfold stripCR
    rw [if_neg]
    intro hx
    apply (h2 _ (List.mem_of_getLast? hx)).1
    rw [← isWhite_iff]; decide
  have key : ∀ (l : List (Text × Text)) (m : Map Text Text), (first ++ '\n' :: rest, h) ∈ l →
      (∀ e ∈ l, e.1 = first ++ '\n' :: rest ∨ Storable e.1 e.2) →
      loadLines m (lines (l.flatMap fun e => e.1 ++ ':' :: e.2 ++ ['\n'])) = none := by
    intro l
    induction l with
    | nil => intro m hm; simp at hm
    | cons e l ih =>
      intro m hm hall
      by_cases he : e.1 = first ++ '\n' :: rest
      · have ee : (e :: l).flatMap (fun e => e.1 ++ ':' :: e.2 ++ ['\n']) =
            first ++ '\n' :: (rest ++ ':' :: e.2 ++ ['\n'] ++
              l.flatMap (fun e => e.1 ++ ':' :: e.2 ++ ['\n'])) := by
          simp [he]
        rw [ee, lines_line _ _ h1.1, hcr]
        simp [loadLines, bad]
      · have hs : Storable e.1 e.2 := (hall e (by simp)).resolve_left he
        have hnl : '\n' ∉ e.1 ++ ':' :: e.2 := by
          simp only [List.mem_append, List.mem_cons, not_or]
          exact ⟨hs.oneLine.1, by decide, hs.oneLine.2⟩
        have ee : (e :: l).flatMap (fun e => e.1 ++ ':' :: e.2 ++ ['\n']) =
            (e.1 ++ ':' :: e.2) ++ '\n' :: l.flatMap (fun e => e.1 ++ ':' :: e.2 ++ ['\n']) := by
          simp
        rw [ee, lines_line _ _ hnl, stripCR_entry hs]
        simp only [loadLines, loadLine_entry hs]
        refine ih _ ?_ (fun e' he' => hall e' (by simp [he']))
        rcases List.mem_cons.1 hm with hm | hm
        · exact absurd (by rw [← hm]) he
        · exact hm
  have e : addUser hash file (first ++ '\n' :: rest) password password =
      some ((loadEntries file).insert (first ++ '\n' :: rest) h) := by
    simp [addUser, hp, hh]
  rw [e]
  show loadPasswords (some (writePasswords _)) = none
  rw [load_write]
  refine key _ _ ((ho _).mem_iff.2 (by simp [Map.insert])) ?_
  intro e' he'
  have he'' := (ho _).mem_iff.1 he'
  simp only [Map.insert, List.mem_cons] at he''
  rcases he'' with rfl | he''
  · exact .inl rfl
  · right
    have hmem : e' ∈ loadEntries file := by
      simp only [Map.erase, List.mem_filter] at he''
      exact he''.1
    cases hf : loadPasswords file with
    | none => simp [loadEntries, hf] at hmem
    | some m =>
      simp only [loadEntries, hf] at hmem
      obtain ⟨hn, hst⟩ := C54_loaded file m hf
      exact hst _ _ ((Map.mem_iff_get m hn e'.1 e'.2).1 hmem)

example : loadPasswords (some "bob:$h\nal\n".toList) = none := by decide +kernel
example : loadPasswords (some "bob:$h\n".toList) = some [("bob".toList, "$h".toList)] ∧
    addUser (fun _ => some "$k".toList) (some "bob:$h\n".toList) "al".toList "pw".toList "pw".toList =
      some [("al".toList, "$k".toList), ("bob".toList, "$h".toList)] ∧
    IterationOf [("al".toList, "$k".toList), ("bob".toList, "$h".toList)]
      [("bob".toList, "$h".toList), ("al".toList, "$k".toList)] := by
  refine ⟨by decide +kernel, by decide +kernel, ?_⟩
  exact List.Perm.swap _ _ _

/-! ## C61: from the command line to the front door -/

theorem Text.bytes_injective : Function.Injective Text.bytes := by
  intro a b h
  apply String.ofList_injective
  rw [← String.toByteArray_inj, String.toByteArray_ofList, String.toByteArray_ofList]
  unfold List.utf8Encode
  exact List.toByteArray_inj.2 h

theorem get_map_bytes (m : Map Text Text) (u : Text) :
    Map.get (m.map fun e => (Text.bytes e.1, Text.bytes e.2)) u.bytes = (m.get u).map Text.bytes := by
  induction m with
  | nil => rfl
  | cons e m ih =>
    obtain ⟨a, b⟩ := e
    by_cases h : a = u
    · simp [Map.get, h]
    · have : a.bytes ≠ u.bytes := fun e => h (Text.bytes_injective e)
      simp [Map.get, h, this, ih]

theorem daemonAuth_ok (verify : Str → Buf → Bool) (file : Option Text) (m : Map Text Text)
    (h : loadPasswords file = some m) :
    daemonAuth verify true (some file) = some
      { requireAuth := true
        validator := some (hashedValidate verify (m.map fun e => (Text.bytes e.1, Text.bytes e.2)))
        manager := none } := by
  simp [daemonAuth, h]

theorem bytes_head (h rest : Text) (e : h = '$' :: rest) : h.bytes.head? = some 0x24 := by
  subst e
  simp only [Text.bytes, List.flatMap_cons]
  have : String.utf8EncodeChar '$' = [0x24] := by decide +kernel
  rw [this]; rfl

/-- C61: after `mercuriod passwd` has added or updated a user, the daemon started with that file
requires authentication, accepts for this user exactly the passwords that verify against the new
hash, and decides as before about everybody else. -/
theorem C61_login (verify : Str → Buf → Bool) (hash : Text → Option Text) (file : Option Text)
    (before : AuthConfig) (hb : daemonAuth verify true (some file) = some before)
    (user password rest : Text) (hp : password ≠ [])
    (hh : hash password = some ('$' :: rest)) (hs : Storable user ('$' :: rest))
    (order : Map Text Text → List (Text × Text)) (ho : ∀ m, IterationOf m (order m)) :
    ∃ after, daemonAuth verify true
        (some (fileAfter file (addUser hash file user password password) order)) = some after ∧
      after.requireAuth = true ∧ ∃ check check', before.validator = some check ∧
        after.validator = some check' ∧
        (∀ pw, check' user.bytes pw = verify (Text.bytes ('$' :: rest)) pw) ∧
        (∀ other pw, other ≠ user → check' other.bytes pw = check other.bytes pw) := by
  cases hf : loadPasswords file with
  | none => simp [daemonAuth, hf] at hb
  | some m =>
    rw [daemonAuth_ok verify file m hf] at hb
    cases hb
    obtain ⟨m', h1, h2, h3⟩ := C55_add hash file m hf user password ('$' :: rest) hp hh hs order ho
    refine ⟨_, daemonAuth_ok verify _ m' h1, rfl, _, _, rfl, rfl, ?_, ?_⟩
    · intro pw
      unfold hashedValidate
      rw [get_map_bytes, h2]
      simp [bytes_head _ rest rfl]
    · intro other pw hne
      unfold hashedValidate
      rw [get_map_bytes, get_map_bytes, h3 other hne]

/-- C61: after `mercuriod passwd -d` the daemon refuses the user, whatever the password, and decides
as before about everybody else. -/
theorem C61_deleted (verify : Str → Buf → Bool) (file : Option Text)
    (before : AuthConfig) (hb : daemonAuth verify true (some file) = some before) (user : Text)
    (order : Map Text Text → List (Text × Text)) (ho : ∀ m, IterationOf m (order m)) :
    ∃ after, daemonAuth verify true (some (fileAfter file (deleteUser file user) order)) = some after ∧
      after.requireAuth = true ∧ ∃ check check', before.validator = some check ∧
        after.validator = some check' ∧ (∀ pw, check' user.bytes pw = false) ∧
        (∀ other pw, other ≠ user → check' other.bytes pw = check other.bytes pw) := by
  cases hf : loadPasswords file with
  | none => simp [daemonAuth, hf] at hb
  | some m =>
    rw [daemonAuth_ok verify file m hf] at hb
    cases hb
    have hd := C55_delete file m hf user order ho
    cases hg : m.get user with
    | none =>
      rw [hd.2 hg]
      refine ⟨_, daemonAuth_ok verify file m hf, rfl, _, _, rfl, rfl, ?_, fun _ _ _ => rfl⟩
      intro pw
      unfold hashedValidate
      rw [get_map_bytes, hg]
      rfl
    | some x =>
      obtain ⟨m', h1, h2, h3⟩ := hd.1 (by simp [hg])
      refine ⟨_, daemonAuth_ok verify _ m' h1, rfl, _, _, rfl, rfl, ?_, ?_⟩
      · intro pw
        unfold hashedValidate
        rw [get_map_bytes, h2]
        rfl
      · intro other pw hne
        unfold hashedValidate
        rw [get_map_bytes, get_map_bytes, h3 other hne]

/-- C61: the daemon with authentication enabled does not start on a file it cannot read in full. -/
theorem C61_no_start (verify : Str → Buf → Bool) (file : Option Text)
    (h : loadPasswords file = none) : daemonAuth verify true (some file) = none := by
  simp [daemonAuth, h]

example : ∃ cfg, daemonAuth (fun _ _ => false) true (some (some "bob:secret\n".toList)) = some cfg ∧
    ∃ check, cfg.validator = some check ∧ check (str "bob") (str "secret") = true ∧
      check (str "bob") (str "secreT") = false := by
  refine ⟨_, daemonAuth_ok _ _ [("bob".toList, "secret".toList)] (by decide +kernel), _, rfl, ?_⟩
  decide +kernel

end Mercurio
