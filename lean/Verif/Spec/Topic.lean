import Verif.Model.Basic

/-!
# Specification of topics: levels, validity, matching

Written from the MQTT standard (section 4.7) without using any function of the model.
-/

namespace Mercurio.Spec

open Mercurio

/-- The separator '/'. -/
def slash : UInt8 := 0x2f

/-- The topic level "+". -/
def plusLevel : Str := [0x2b]

/-- The topic level "#". -/
def hashLevel : Str := [0x23]

/-- `ls` are the levels of the topic or filter `s`: pieces without '/' which, joined by '/', give
`s`.  There is exactly one such list (`isLevels_exists`, `IsLevels.unique`). -/
structure IsLevels (s : Str) (ls : List Str) : Prop where
  nonempty : ls ≠ []
  no_slash : ∀ l ∈ ls, slash ∉ l
  joined : s = [slash].intercalate ls

/-- A legal topic name (for publishing). -/
structure ValidTopic (s : Str) : Prop where
  nonempty : s ≠ []
  short : s.length ≤ 65535
  no_nul : (0 : UInt8) ∉ s
  no_plus : (0x2b : UInt8) ∉ s
  no_hash : (0x23 : UInt8) ∉ s

/-- A legal topic filter. -/
structure ValidFilter (s : Str) : Prop where
  nonempty : s ≠ []
  short : s.length ≤ 65535
  no_nul : (0 : UInt8) ∉ s
  /-- a level with a '+' in it is just "+" -/
  plus : ∀ ls, IsLevels s ls → ∀ l ∈ ls, (0x2b : UInt8) ∈ l → l = plusLevel
  /-- a level with a '#' in it is just "#" and is the last level -/
  hash : ∀ ls, IsLevels s ls → ∀ i (h : i < ls.length), (0x23 : UInt8) ∈ ls[i] →
    ls[i] = hashLevel ∧ i + 1 = ls.length

/-- The matching rules of the standard, on levels: filter first, topic second. -/
inductive MatchesLevels : List Str → List Str → Prop where
  /-- nothing left on either side -/
  | nil : MatchesLevels [] []
  /-- the same level on both sides -/
  | same (l : Str) {f t : List Str} : MatchesLevels f t → MatchesLevels (l :: f) (l :: t)
  /-- "+" stands for any one level -/
  | plus (l : Str) {f t : List Str} : MatchesLevels f t → MatchesLevels (plusLevel :: f) (l :: t)
  /-- "#" at the end stands for any number of levels, also none -/
  | hash (t : List Str) : MatchesLevels [hashLevel] t

/-- The filter `f` matches the topic `t`. -/
def Matches (f t : Str) : Prop :=
  ∃ fl tl, IsLevels f fl ∧ IsLevels t tl ∧ MatchesLevels fl tl

open Classical in
/-- The messages, of a list of publications, whose topic the filter matches. -/
noncomputable def matching {T : Type} (f : Str) (ps : List (Str × T)) : List T :=
  (ps.filter fun p => decide (Matches f p.1)).map Prod.snd

end Mercurio.Spec
