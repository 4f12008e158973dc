import Verif.Model.KeepAlive

/-!
# What the timer properties talk about
-/

namespace Mercurio.Spec

open Mercurio

/-- When the server last heard from the client: the end of the last packet's processing, or the
start of the connection. -/
def lastHeard (start : Nat) (l : List Arrival) : Nat :=
  match l.getLast? with
  | some a => a.finished
  | none => start

/-- Every packet of the schedule arrives less than `limit` after the one before it. -/
def NeverIdle (limit start : Nat) (l : List Arrival) : Prop :=
  ∀ before a after, l = before ++ a :: after → a.found < lastHeard start before + limit

/-- The packets come one after the other: none is found before the one before it is finished. -/
def InOrder (start : Nat) (l : List Arrival) : Prop :=
  ∀ before a after, l = before ++ a :: after →
    lastHeard start before ≤ a.found ∧ a.found ≤ a.finished

/-- The number of failures a sequence of outcomes ends with. -/
def trailingFailures (l : List Bool) : Nat :=
  (l.reverse.takeWhile (· = false)).length

end Mercurio.Spec
