import Verif.Spec.Delivery

/-!
# Specification of the order of one client's messages
-/

namespace Mercurio.Spec

open Mercurio

/-- The PUBLISH packets that arrive on connection `d` during a history, in order. -/
def said (d : Nat) : List Event → List PublishPacket
  | [] => []
  | .recv d' (.publish q) :: es => if d' = d then q :: said d es else said d es
  | _ :: es => said d es

/-- The publications the broker accepted, in order, each with who made it: a client on a connection, or the server
for the will of a client. -/
def sourced : List Call → List (Source × Str × Message)
  | [] => []
  | .publish src t m :: cs => (src, t, m) :: sourced cs
  | _ :: cs => sourced cs

/-- The calls of the broker during the history `es` from state `srv` on. -/
def callsOf (cfg : AuthConfig) (srv : Server) (es : List Event) : List Call :=
  (srv.run cfg es).world.log.drop srv.world.log.length

/-- The messages of one sender among publications. -/
def ofClient (d : Nat) (l : List (Source × Str × Message)) : List Message :=
  (l.filter fun x => decide (x.1 = .client d)).map fun x => x.2.2

end Mercurio.Spec
