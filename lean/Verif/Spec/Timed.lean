import Verif.Model.Timed
import Verif.Spec.Net

/-! # Specification: what a server with a clock has heard from a client -/

namespace Mercurio

/-- The packet that the server cuts out of the bytes of connection `c` in an event on byte streams, if any. -/
def Net.took (m : Mode) (n : Net) (c : Nat) : NetEvent → Option Packet
  | .turn c' _ _ =>
    if c' = c then
      match n.wires.get c with
      | none => none
      | some w =>
        if w.running then
          match parsePacket m w.buf with
          | .packet p _ => some p
          | _ => none
        else none
    else none
  | _ => none

/-- The same with time. -/
def TimedNet.took (m : Mode) (σ : TimedNet) (c : Nat) : TimedEvent → Option Packet
  | .net e | .stick e => if σ.free e then σ.net.took m c e else none
  | _ => none

/-- The complete packets of connection `c` that the server acts on in a history, in order. -/
def TimedNet.heardFrom (m : Mode) (cfg : AuthConfig) (late : Nat) (c : Nat) (σ : TimedNet) : List TimedEvent → List Packet
  | [] => []
  | e :: es => (σ.took m c e).toList ++ TimedNet.heardFrom m cfg late c (σ.step m cfg late e) es

/-- The bytes an event brings, if any, are what one `read` can return. -/
def TimedEvent.Short : TimedEvent → Prop
  | .net (.data _ b) | .stick (.data _ b) => b.length ≤ 2 ^ 31
  | _ => True

/-- The event does not leave connection `c` stuck in a write. -/
def TimedEvent.Calm (c : Nat) : TimedEvent → Prop
  | .stick e => e.conn ≠ c
  | _ => True

/-- The event is not one of connection `c` (but it may be that its timer strikes). -/
def TimedEvent.Elsewhere (c : Nat) : TimedEvent → Prop
  | .net e | .stick e => e.conn ≠ c
  | _ => True

/-- The task of connection `c` is stuck in a write, because the peer does not take the bytes. -/
def TimedNet.Stuck (σ : TimedNet) (c : Nat) : Prop := ∃ k, σ.clocks.get c = some k ∧ k.stuck ≠ none

/-- The task of connection `c` panics in an event on byte streams that does not take a packet: the parser panics on
the bytes, or a message cannot be made or written. -/
def Net.panics (m : Mode) (cfg : AuthConfig) (n : Net) (c : Nat) : NetEvent → Prop
  | .turn c' _ _ => c' = c ∧ ∃ w, n.wires.get c = some w ∧ parsePacket m w.buf = .panicked
  | .deliver c' f => c' = c ∧ ((n.server.step cfg (.deliver c f)).2.panicked = true ∨
      (writePackets (n.server.step cfg (.deliver c f)).2.sent).2 = false)
  | _ => False

/-- The same with time. -/
def TimedNet.panics (m : Mode) (cfg : AuthConfig) (σ : TimedNet) (c : Nat) : TimedEvent → Prop
  | .net e | .stick e => σ.net.panics m cfg c e
  | _ => False

end Mercurio
