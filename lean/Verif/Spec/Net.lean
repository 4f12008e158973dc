import Verif.Model.Net
import Verif.Spec.Stream
import Verif.Spec.Server

/-! # Specification: packets and bytes of one connection -/

namespace Mercurio

/-- The connection an event happens on. -/
def Event.conn : Event → Option Nat
  | .first c _ _ _ | .recv c _ | .deliver c _ | .close c | .abort c => some c
  | .restart => none

/-- The connection an event on byte streams happens on. -/
def NetEvent.conn : NetEvent → Nat
  | .accept c | .data c _ | .turn c _ _ | .deliver c _ | .close c => c

/-- The packets read on connection `c` in a history, in order. -/
def Spec.packetsOf (c : Nat) (es : List Event) : List Packet :=
  es.filterMap fun
    | .first c' p _ _ => if c' = c then some p else none
    | .recv c' p => if c' = c then some p else none
    | _ => none

/-- The packets sent on connection `c` in a history, in order. -/
def Server.sentTo (cfg : AuthConfig) (c : Nat) (srv : Server) : List Event → List Packet
  | [] => []
  | e :: es => (if e.conn = some c then (srv.step cfg e).2.sent else []) ++
      Server.sentTo cfg c (srv.step cfg e).1 es

/-- Packets and the bytes they are encoded to, one after the other. -/
inductive Spec.Written : List Packet → Buf → Prop
  | nil : Written [] []
  | cons {p : Packet} {bytes : Buf} {ps : List Packet} {bs : Buf} : p.encode = .ok bytes →
      Written ps bs → Written (p :: ps) (bytes ++ bs)

end Mercurio
