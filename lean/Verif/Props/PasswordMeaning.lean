import Verif.Spec.Daemon
import Verif.Props.PasswordFile

/-!
# C54: what a password file means, line by line
-/

namespace Mercurio

open Spec

theorem not_white {c : Char} (h : ¬ White c) : isWhite c = false := by
  rw [← isWhite_iff] at h; simpa using h

theorem dropWhile_white (pre t : Text) (h : ∀ c ∈ pre, White c) :
    (pre ++ t).dropWhile isWhite = t.dropWhile isWhite := by
  induction pre with
  | nil => rfl
  | cons c pre ih =>
    have : isWhite c = true := (isWhite_iff c).mpr (h c (by simp))
    simp only [List.cons_append, List.dropWhile_cons, this, if_true]
    exact ih fun d hd => h d (by simp [hd])

theorem trim_white (t : Text) (h : ∀ c ∈ t, White c) : trim t = [] := by
  unfold trim
  have : t.dropWhile isWhite = [] := by simpa using dropWhile_white t [] h
  rw [this]; rfl

theorem trim_unique (pre t post : Text) (h1 : ∀ c ∈ pre, White c) (h2 : ∀ c ∈ post, White c)
    (h3 : ∀ c, t.head? = some c → ¬ White c) (h4 : ∀ c, t.getLast? = some c → ¬ White c) (h5 : t ≠ []) :
    trim (pre ++ t ++ post) = t := by
  unfold trim
  rw [List.append_assoc, dropWhile_white _ _ h1, dropWhile_id (t := t ++ post), List.reverse_append,
    dropWhile_white, dropWhile_id, List.reverse_reverse]
  · intro c hc; rw [List.head?_reverse] at hc; exact not_white (h4 c hc)
  · intro c hc; exact h2 c (List.mem_reverse.mp hc)
  · intro c hc
    cases t with
    | nil => exact absurd rfl h5
    | cons d t => exact not_white (h3 c hc)

theorem takeWhile_white (t : Text) : ∀ c ∈ t.takeWhile isWhite, White c := by
  induction t with
  | nil => simp
  | cons d t ih =>
    intro c hc
    rw [List.takeWhile_cons] at hc
    split at hc
    · rcases List.mem_cons.mp hc with rfl | hc
      · exact (isWhite_iff c).mp ‹_›
      · exact ih c hc
    · simp at hc

theorem trim_spec (t : Text) : ∃ pre post, (∀ c ∈ pre, White c) ∧ (∀ c ∈ post, White c) ∧
    t = pre ++ trim t ++ post := by
  refine ⟨t.takeWhile isWhite, ((t.dropWhile isWhite).reverse.takeWhile isWhite).reverse, ?_, ?_, ?_⟩
  · exact takeWhile_white t
  · intro c hc; exact takeWhile_white _ c (List.mem_reverse.mp hc)
  · unfold trim
    rw [List.append_assoc, ← List.reverse_append, List.takeWhile_append_dropWhile, List.reverse_reverse,
      List.takeWhile_append_dropWhile]

theorem head_append_colon {u h : Text} : (u ++ ':' :: h).head? = (u ++ [':']).head? := by
  cases u <;> rfl

theorem getLast_append_colon {u h : Text} : (u ++ ':' :: h).getLast? = (':' :: h).getLast? := by
  rw [List.getLast?_append]
  cases hl : (':' :: h).getLast? with
  | none => simp at hl
  | some c => rfl

theorem entry_iff (line u h : Text) : Entry line u h ↔ ':' ∉ u ∧ trim line = u ++ ':' :: h ∧
    (trim line).head? ≠ some '#' := by
  constructor
  · rintro ⟨pre, post, h1, h2, e, h3, h4, h5⟩
    have : trim line = u ++ ':' :: h := by
      rw [e, show pre ++ u ++ ':' :: h ++ post = pre ++ (u ++ ':' :: h) ++ post by simp]
      refine trim_unique _ _ _ h1 h2 ?_ ?_ (by simp)
      · intro c hc; rw [head_append_colon] at hc; exact (h4 c hc).1
      · intro c hc; rw [getLast_append_colon] at hc; exact h5 c hc
    refine ⟨h3, this, ?_⟩
    rw [this, head_append_colon]
    intro hc; exact (h4 _ hc).2 rfl
  · rintro ⟨h1, h2, h3⟩
    obtain ⟨pre, post, hp, hq, e⟩ := trim_spec line
    refine ⟨pre, post, hp, hq, ?_, h1, ?_, ?_⟩
    · rw [e, h2]; simp
    · intro c hc
      rw [← head_append_colon (h := h), ← h2] at hc
      refine ⟨trim_head hc, ?_⟩
      rintro rfl; exact h3 hc
    · intro c hc
      rw [← getLast_append_colon (u := u), ← h2] at hc
      exact trim_getLast hc

theorem ignored_iff (line : Text) : Ignored line ↔ trim line = [] ∨ (trim line).head? = some '#' := by
  constructor
  · rintro (h | ⟨pre, rest, h, e⟩)
    · exact .inl (trim_white _ h)
    · right
      have hh : ¬ isWhite '#' = true := by decide
      unfold trim
      rw [e, dropWhile_white _ _ h, List.dropWhile_cons, if_neg hh, List.reverse_cons, List.head?_reverse]
      have : ∀ l : Text, (List.dropWhile isWhite (l ++ ['#'])).getLast? = some '#' := by
        intro l
        induction l with
        | nil => rw [List.nil_append, List.dropWhile_cons, if_neg hh]; rfl
        | cons c l ih =>
          rw [List.cons_append, List.dropWhile_cons]
          split
          · exact ih
          · rw [← List.cons_append, List.getLast?_append]; rfl
      exact this _
  · rintro (h | h)
    · obtain ⟨pre, post, hp, hq, e⟩ := trim_spec line
      left
      rw [e, h]
      intro c hc
      simp only [List.append_nil, List.mem_append] at hc
      rcases hc with hc | hc
      · exact hp c hc
      · exact hq c hc
    · obtain ⟨pre, post, hp, hq, e⟩ := trim_spec line
      right
      cases ht : trim line with
      | nil => rw [ht] at h; cases h
      | cons c t =>
        rw [ht] at h e
        simp only [List.head?_cons, Option.some.injEq] at h
        subst h
        exact ⟨pre, t ++ post, hp, by rw [e]; simp⟩

/-- What one line does. -/
theorem loadLine_cases (m : Map Text Text) (line : Text) :
    (Ignored line ∧ loadLine m line = some m) ∨
    (¬ Ignored line ∧ ∃ u h, Entry line u h ∧ loadLine m line = some (m.insert u h)) ∨
    (¬ Ignored line ∧ (∀ u h, ¬ Entry line u h) ∧ loadLine m line = none) := by
  by_cases hi : Ignored line
  · left
    refine ⟨hi, ?_⟩
    unfold loadLine
    exact if_pos ((ignored_iff line).mp hi)
  · right
    have hi' := fun h => hi ((ignored_iff line).mpr h)
    have e : loadLine m line = match splitColon (trim line) with
        | none => none
        | some (u, h) => some (m.insert u h) := by
      unfold loadLine; exact if_neg hi'
    rw [e]
    cases hs : splitColon (trim line) with
    | none =>
      refine .inr ⟨hi, ?_, rfl⟩
      intro u h hE
      obtain ⟨h1, h2, _⟩ := (entry_iff line u h).mp hE
      rw [(splitColon_iff _ u h).mpr ⟨h2, h1⟩] at hs; cases hs
    | some uh =>
      obtain ⟨u, h⟩ := uh
      obtain ⟨h1, h2⟩ := (splitColon_iff _ u h).mp hs
      exact .inl ⟨hi, u, h, (entry_iff line u h).mpr ⟨h2, h1, fun hc => hi' (.inr hc)⟩, rfl⟩

theorem entry_fun {line u h u' h' : Text} (e : Entry line u h) (e' : Entry line u' h') : u = u' ∧ h = h' := by
  obtain ⟨h1, h2, _⟩ := (entry_iff _ _ _).mp e
  obtain ⟨h3, h4, _⟩ := (entry_iff _ _ _).mp e'
  have := (splitColon_iff _ u h).mpr ⟨h2, h1⟩
  rw [(splitColon_iff _ u' h').mpr ⟨h4, h3⟩] at this
  cases this; exact ⟨rfl, rfl⟩

theorem entry_not_ignored {line u h : Text} (e : Entry line u h) : ¬ Ignored line := by
  obtain ⟨h1, h2, h3⟩ := (entry_iff _ _ _).mp e
  rw [ignored_iff]
  rintro (h | h)
  · rw [h2] at h; simp at h
  · exact h3 h

theorem trim_snoc (t : Text) (c : Char) (h : White c) : trim (t ++ [c]) = trim t := by
  obtain ⟨pre, post, hp, hq, e⟩ := trim_spec t
  cases ht : trim t with
  | nil =>
    rw [ht] at e
    apply trim_white
    rw [e]
    intro d hd
    simp only [List.append_nil, List.mem_append, List.mem_singleton] at hd
    rcases hd with (hd | hd) | rfl
    · exact hp d hd
    · exact hq d hd
    · exact h
  | cons d s =>
    rw [ht] at e
    rw [e, show pre ++ d :: s ++ post ++ [c] = pre ++ d :: s ++ (post ++ [c]) by simp]
    refine trim_unique _ _ _ hp ?_ ?_ ?_ (by simp)
    · intro x hx
      rcases List.mem_append.mp hx with hx | hx
      · exact hq x hx
      · rw [List.mem_singleton.mp hx]; exact h
    · intro x hx; rw [← ht] at hx; exact trim_head hx
    · intro x hx; rw [← ht] at hx; exact trim_getLast hx

theorem trim_stripCR (t : Text) : trim (stripCR t) = trim t := by
  unfold stripCR
  split
  · rename_i h
    obtain ⟨s, rfl⟩ : ∃ s, t = s ++ ['\r'] := ⟨_, (List.getLast?_eq_some_iff.mp h).choose_spec⟩
    rw [List.dropLast_concat, trim_snoc]
    rw [← isWhite_iff]; decide
  · rfl

theorem loadLine_stripCR (m : Map Text Text) (t : Text) : loadLine m (stripCR t) = loadLine m t := by
  unfold loadLine; rw [trim_stripCR]

theorem loadLines_lines (ls : List Text) : ∀ (t : Text) (m : Map Text Text), LinesOf t ls →
    loadLines m (lines t) = loadLines m ls := by
  induction ls with
  | nil => intro t m h; exact absurd rfl h.1
  | cons l ls ih =>
    intro t m ⟨_, hn, e⟩
    have hl := hn l (by simp)
    cases ls with
    | nil =>
      simp only [List.intersperse, List.flatten_cons, List.flatten_nil, List.append_nil] at e
      subst e
      have : ∀ (cur t : Text), '\n' ∉ t → linesFrom cur t = if cur ++ t = [] then [] else [cur ++ t] := by
        intro cur t
        induction t generalizing cur with
        | nil => intro _; simp [linesFrom]
        | cons c t ih2 =>
          intro h
          have hc : c ≠ '\n' := by rintro rfl; simp at h
          rw [linesFrom, if_neg hc, ih2 _ (fun h' => h (by simp [h']))]
          simp
      unfold lines
      rw [this [] t hl]
      split
      · rename_i ht
        simp only [List.nil_append] at ht
        subst ht
        rfl
      · simp
    | cons l2 rest =>
      have ht : t = l ++ '\n' :: ((l2 :: rest).intersperse ['\n']).flatten := by
        rw [e]; simp [List.intersperse]
      rw [ht, lines_line _ _ hl]
      simp only [loadLines, loadLine_stripCR]
      cases loadLine m l with
      | none => rfl
      | some m' =>
        exact ih _ m' ⟨by simp, fun x hx => hn x (by simp [List.mem_cons.mp hx]), rfl⟩

theorem listed_cons (l : Text) (ls : List Text) (u h : Text) : Listed (l :: ls) u h ↔
    Listed ls u h ∨ (Entry l u h ∧ ∀ x ∈ ls, ∀ h', ¬ Entry x u h') := by
  constructor
  · rintro ⟨b, x, a, e, hE, hA⟩
    cases b with
    | nil =>
      simp only [List.nil_append, List.cons.injEq] at e
      obtain ⟨rfl, rfl⟩ := e
      exact .inr ⟨hE, hA⟩
    | cons y b =>
      simp only [List.cons_append, List.cons.injEq] at e
      obtain ⟨rfl, rfl⟩ := e
      exact .inl ⟨b, x, a, rfl, hE, hA⟩
  · rintro (⟨b, x, a, rfl, hE, hA⟩ | ⟨hE, hA⟩)
    · exact ⟨l :: b, x, a, rfl, hE, hA⟩
    · exact ⟨[], l, ls, rfl, hE, hA⟩

theorem loadLines_get (ls : List Text) : ∀ (m m' : Map Text Text), loadLines m ls = some m' → ∀ u h,
    m'.get u = some h ↔ Listed ls u h ∨ (m.get u = some h ∧ ∀ l ∈ ls, ∀ h', ¬ Entry l u h') := by
  induction ls with
  | nil =>
    intro m m' e u h
    cases e
    constructor
    · intro hg; exact .inr ⟨hg, by simp⟩
    · rintro (⟨b, x, a, e, _⟩ | h)
      · simp at e
      · exact h.1
  | cons l ls ih =>
    intro m m' e u h
    rw [listed_cons]
    simp only [loadLines] at e
    rcases loadLine_cases m l with ⟨hi, hl⟩ | ⟨_, v, k, hE, hl⟩ | ⟨_, _, hl⟩
    · rw [hl] at e
      rw [ih m m' e u h]
      have : ∀ u h, ¬ Entry l u h := fun u h hE => entry_not_ignored hE hi
      constructor
      · rintro (h1 | ⟨h1, h2⟩)
        · exact .inl (.inl h1)
        · refine .inr ⟨h1, fun x hx => ?_⟩
          rcases List.mem_cons.mp hx with rfl | hx
          · exact this u
          · exact h2 x hx
      · rintro ((h1 | h1) | ⟨h1, h2⟩)
        · exact .inl h1
        · exact absurd h1.1 (this u h)
        · exact .inr ⟨h1, fun x hx => h2 x (by simp [hx])⟩
    · rw [hl] at e
      rw [ih _ m' e u h, Map.get_insert]
      by_cases hv : v = u
      · subst hv
        rw [if_pos rfl, Option.some.injEq]
        constructor
        · rintro (h1 | ⟨rfl, h2⟩)
          · exact .inl (.inl h1)
          · exact .inl (.inr ⟨hE, h2⟩)
        · rintro ((h1 | h1) | ⟨h1, h2⟩)
          · exact .inl h1
          · exact .inr ⟨(entry_fun hE h1.1).2, h1.2⟩
          · exact absurd hE (h2 l (by simp) k)
      · rw [if_neg hv]
        have : ∀ h, ¬ Entry l u h := fun h hE' => hv (entry_fun hE hE').1
        constructor
        · rintro (h1 | ⟨h1, h2⟩)
          · exact .inl (.inl h1)
          · refine .inr ⟨h1, fun x hx => ?_⟩
            rcases List.mem_cons.mp hx with rfl | hx
            · exact this
            · exact h2 x hx
        · rintro ((h1 | h1) | ⟨h1, h2⟩)
          · exact .inl h1
          · exact absurd h1.1 (this h)
          · exact .inr ⟨h1, fun x hx => h2 x (by simp [hx])⟩
    · rw [hl] at e; cases e

/-- C54, for files written by hand: in a file that is read, user `u` has password or hash `h` iff the
last line for `u` reads `u:h`. -/
theorem C54_meaning (t : Text) (ls : List Text) (hl : LinesOf t ls) (m : Map Text Text)
    (h : loadPasswords (some t) = some m) (u k : Text) : m.get u = some k ↔ Listed ls u k := by
  unfold loadPasswords at h
  simp only [loadLines_lines ls t [] hl] at h
  rw [loadLines_get ls [] m h u k]
  simp [Map.get]

/-- C54: a file is refused iff some line is neither empty nor a comment nor of the form `user:hash`. -/
theorem C54_refused (t : Text) (ls : List Text) (hl : LinesOf t ls) :
    loadPasswords (some t) = none ↔ ∃ l ∈ ls, ¬ Ignored l ∧ ∀ u k, ¬ Entry l u k := by
  unfold loadPasswords
  simp only [loadLines_lines ls t [] hl]
  have : ∀ (ls : List Text) (m : Map Text Text), loadLines m ls = none ↔
      ∃ l ∈ ls, ¬ Ignored l ∧ ∀ u k, ¬ Entry l u k := by
    intro ls
    induction ls with
    | nil => intro m; simp [loadLines]
    | cons l ls ih =>
      intro m
      simp only [loadLines, List.mem_cons, exists_eq_or_imp]
      rcases loadLine_cases m l with ⟨hi, hl⟩ | ⟨_, v, k, hE, hl⟩ | ⟨h1, h2, hl⟩
      · rw [hl]
        simp only [ih, hi, not_true_eq_false, false_and, false_or]
      · rw [hl]
        simp only [ih]
        constructor
        · exact .inr
        · rintro (⟨_, h⟩ | h)
          · exact absurd hE (h v k)
          · exact h
      · rw [hl]
        simp only [true_iff]
        exact .inl ⟨h1, h2⟩
  exact this ls []

/-- Every text has lines. -/
theorem linesOf_exists (t : Text) : ∃ ls, LinesOf t ls := by
  induction t with
  | nil => exact ⟨[[]], by simp, by simp, rfl⟩
  | cons c t ih =>
    obtain ⟨ls, h1, h2, h3⟩ := ih
    by_cases hc : c = '\n'
    · subst hc
      refine ⟨[] :: ls, by simp, ?_, ?_⟩
      · intro l hl
        rcases List.mem_cons.mp hl with rfl | hl
        · simp
        · exact h2 l hl
      · cases ls with
        | nil => exact absurd rfl h1
        | cons a as => rw [h3]; simp [List.intersperse]
    · cases ls with
      | nil => exact absurd rfl h1
      | cons a as =>
        refine ⟨(c :: a) :: as, by simp, ?_, ?_⟩
        · intro l hl
          rcases List.mem_cons.mp hl with rfl | hl
          · simp only [List.mem_cons, not_or]
            exact ⟨fun e => hc e.symm, h2 a (by simp)⟩
          · exact h2 l (by simp [hl])
        · rw [h3]
          cases as <;> simp [List.intersperse]

/-- A file with a comment, two lines for one user, and a hash. -/
example : ∃ ls, LinesOf "# users\nbob:one\r\n  bob:two \nal:$h".toList ls ∧
    Listed ls "bob".toList "two".toList ∧ Listed ls "al".toList "$h".toList ∧
    ¬ Listed ls "bob".toList "one".toList := by
  obtain ⟨ls, hl⟩ := linesOf_exists "# users\nbob:one\r\n  bob:two \nal:$h".toList
  have h : loadPasswords (some "# users\nbob:one\r\n  bob:two \nal:$h".toList) =
    some [("al".toList, "$h".toList), ("bob".toList, "two".toList)] := by decide +kernel
  have g := C54_meaning _ ls hl _ h
  refine ⟨ls, hl, (g _ _).mp (by decide +kernel), (g _ _).mp (by decide +kernel), ?_⟩
  rw [← g]; decide +kernel

end Mercurio
