import Verif.Model.Calls
import Verif.Spec.Walk

/-! # Specification of concurrent calls of the broker -/

namespace Mercurio.Spec

open Mercurio

/-- The messages whose walk `task` began in a history, in order, with their topics. -/
def walked (task : Nat) : List Calls.Event → List (Str × Message)
  | [] => []
  | .begin k t m :: es => if k = task then (t, m) :: walked task es else walked task es
  | _ :: es => walked task es

/-- The storage steps in a history, in order. -/
def storeSteps : List Calls.Event → List (Str × Message)
  | [] => []
  | .store _ t m :: es => (t, m) :: storeSteps es
  | _ :: es => storeSteps es

end Mercurio.Spec
