import Verif.Spec.Settle

/-!
# Specification: a system that is left alone

Nothing happens any more except on connections that are there, and applications call nothing but `recv`.
-/

namespace Mercurio

open Spec

/-- The states of the system as the events `ev 0`, `ev 1`, … happen one after the other. -/
def System.along (m : Mode) (cfg : AuthConfig) (σ : System) (ev : Nat → SysEvent) : Nat → System
  | 0 => σ
  | n + 1 => (System.along m cfg σ ev n).step m cfg (ev n)

/-- What has passed on the connection of client `c`: the bytes the server has read, those among them it has not acted
on yet, the bytes it has written, the bytes the client has read, those among them it has not acted on yet, and
the events its application has taken. -/
def System.passed (σ : System) (c : Nat) : Option (Buf × Buf × Buf × Buf × Buf × List ClientEvent) :=
  match σ.peers.get c, σ.net.wires.get c with
  | some p, some w => some (w.rcvd, w.buf, w.sent, p.got, p.buf, p.history.filterMap (·.2.event))
  | _, _ => none

/-- What there is to do on a connection. -/
inductive WireTask
  /-- The server reads bytes. -/
  | serverReads
  /-- The server acts on a packet it has read. -/
  | serverActs
  /-- The server sends a message for the subscription with this filter. -/
  | sends (f : Str)
  /-- The client reads bytes. -/
  | clientReads
  /-- The client acts on a packet it has read. -/
  | clientActs
  /-- The application takes an event. -/
  | takes

/-- The event tries to do the task on the connection of client `c`. -/
def SysEvent.Tries (c : Nat) : WireTask → SysEvent → Prop
  | .serverReads, e => ∃ n, 0 < n ∧ e = .serverRead c n
  | .serverActs, e => ∃ u b, TextField u ∧ e = .serverTurn c u b
  | .sends f, e => e = .deliver c f
  | .clientReads, e => ∃ n, 0 < n ∧ e = .clientRead c n
  | .clientActs, e => e = .clientTurn c true
  | .takes, e => e = .app c .recv

/-- No task is put off for ever: again and again, it is tried, or there is nothing to do for it. -/
def Fair (m : Mode) (cfg : AuthConfig) (σ : System) (ev : Nat → SysEvent) (c : Nat) : Prop :=
  ∀ (t : WireTask) (n : Nat), ∃ k, n ≤ k ∧
    ((ev k).Tries c t ∨ ∀ e : SysEvent, e.Tries c t →
      ((σ.along m cfg ev k).step m cfg e).passed c = (σ.along m cfg ev k).passed c)

end Mercurio
