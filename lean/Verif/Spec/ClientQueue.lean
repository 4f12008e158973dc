import Verif.Model.ClientQueue
import Verif.Props.ClientApi

/-! # Specification: what callers of the client can expect -/

namespace Mercurio.Spec

open Mercurio

/-- The calls made in a history, with their callers, oldest first. -/
def callsMade : List ApiEvent → List (Nat × ClientIn)
  | [] => []
  | .call k i :: es => if i.isCommand then (k, i) :: callsMade es else callsMade es
  | _ :: es => callsMade es

/-- Nobody gives up and the client is kept. -/
def Patient (es : List ApiEvent) : Prop := ∀ e ∈ es, (∀ k, e ≠ .cancel k) ∧ e ≠ .drop

/-- A packet that is written on behalf of a call, not to acknowledge a message or to keep the connection alive. -/
def OfCall : Packet → Bool
  | .publish _ | .subscribe _ | .unsubscribe _ | .disconnect _ => true
  | _ => false

/-- What was written for calls that were carried out one after the other: for a call that succeeded exactly one packet, which
says what the call asked for; for a call that failed nothing. -/
inductive WrittenFor : List (ClientIn × CallResult) → List Packet → Prop
  | nil : WrittenFor [] []
  | success {i r q l ps} : r.isFailure = false → Carries i q → Succeeds i q r → WrittenFor l ps → WrittenFor ((i, r) :: l) (q :: ps)
  | failure {i r l ps} : r.isFailure = true → WrittenFor l ps → WrittenFor ((i, r) :: l) ps

end Mercurio.Spec
