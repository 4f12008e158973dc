import Verif.Model.TimedSystem
import Verif.Spec.Timed
import Verif.Spec.System

/-! # Specification: the whole system with clocks -/

namespace Mercurio

/-- What applications are assumed to do, see `SysEvent.Ordinary`. -/
def TimedSysEvent.Ordinary : TimedSysEvent → Prop
  | .sys e | .stick e => e.Ordinary
  | _ => True

/-- The event does not leave the server stuck in a write to client `c`. -/
def TimedSysEvent.Calm (c : Nat) : TimedSysEvent → Prop
  | .stick e => ∀ d, (∃ o, e = .connect d o) ∨ (∃ n, e = .serverRead d n) ∨ (∃ u w, e = .serverTurn d u w) ∨
      (∃ f, e = .deliver d f) ∨ e = .serverClose d → d ≠ c
  | _ => True

/-- The server is stuck in a write to client `c`. -/
def TimedSystem.Stuck (σ : TimedSystem) (c : Nat) : Prop := σ.timed.Stuck c

/-- The time. -/
def TimedSystem.now (σ : TimedSystem) : Nat := σ.timed.now

/-- The server is connected to client `c`: the CONNECT was accepted and the connection has not ended. -/
def TimedSystem.Open (σ : TimedSystem) (c : Nat) : Prop := σ.timed.net.server.isOpen c

/-- The event loop of client `c` is not kept waiting by its application (which takes its events in time). -/
def TimedSystem.Attentive (σ : TimedSystem) (c : Nat) : Prop :=
  ∀ p l, σ.peers.get c = some p → p.phase = .connected l → ¬ l.blocked

/-- The server has read everything that client `c` has written, and there is no packet in what it has read that it has
not acted on. -/
def TimedSystem.AllHeard (m : Mode) (σ : TimedSystem) (c : Nat) : Prop :=
  ∃ p w, σ.peers.get c = some p ∧ σ.timed.net.wires.get c = some w ∧ w.rcvd = p.wrote ∧
    ∀ q rest, parsePacket m w.buf ≠ .packet q rest

/-- How many pings the client has written. -/
def Peer.pingsSent (p : Peer) : Nat := (p.history.filter fun x => decide (x.2.sent = some .pingReq)).length

end Mercurio
