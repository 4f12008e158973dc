import Verif.Model.Walk

/-! # Specification of concurrent publications -/

namespace Mercurio.Spec

open Mercurio

variable {T : Type}

/-- `l` is an interleaving of the lists `parts 0`, `parts 1`, ...: its elements can be given owners such
that those of owner `k`, in order, are `parts k`. -/
def Interleaves (l : List T) (parts : Nat → List T) : Prop :=
  ∃ g : List (Nat × T), g.map Prod.snd = l ∧
    ∀ k, (g.filter fun x => decide (x.1 = k)).map Prod.snd = parts k

/-- What `task` began to publish in a history, in order: topics and values. -/
def begun (task : Nat) : List (Walk.Event T) → List (Str × T)
  | [] => []
  | .begin k topic v :: es => if k = task then (topic, v) :: begun task es else begun task es
  | _ :: es => begun task es

end Mercurio.Spec
