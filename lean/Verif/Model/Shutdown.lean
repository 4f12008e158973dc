import Verif.Model.Net

/-!
# Shutdown

Models `run_with_tls` (mercurio-server/src/server.rs:72-125), the `Shutdown` of a handler
(mercurio-server/src/shutdown.rs) and the `select!` branch that waits for it (server.rs:436-441).
When the future `shutdown` completes (or accepting fails), the `Listener` is dropped, and with it the
socket and the sender of the channel `notify_shutdown`; nothing is ever sent on that channel, a
`recv` on it returns because it is closed.
Simplifications: those of `Verif.Model.Net`; the runtime goes on running the tasks of the connections
(`mercuriod` itself ends right after `run_with_tls`, mercuriod/src/main.rs, and then the tasks end
wherever they are).
-/

namespace Mercurio

/-- The process that runs the server (mercurio-server/src/server.rs:72-125). -/
structure Process where
  net : Net
  /-- `run_with_tls` has not returned: the `Listener` exists -/
  up : Bool := true

/-- What can happen. -/
inductive ProcEvent where
  /-- what can happen on the connections -/
  | net (e : NetEvent)
  /-- the future `shutdown` completes, mercurio-server/src/server.rs:121-123 -/
  | shutdown
  /-- the handler of `c` finds the channel closed, mercurio-server/src/server.rs:437-440 -/
  | notice (c : Nat)
  deriving DecidableEq

namespace Process

/-- The process before the first connection, mercurio-server/src/server.rs:76-113. -/
def init : Process := { net := Net.init }

/-- One event.  `accept`: only the `Listener` accepts (mercurio-server/src/server.rs:128-165).
`notice`: `Shutdown::recv` (mercurio-server/src/shutdown.rs:36-49) returns once the sender is gone; it
is only waited for in the packet loop (server.rs:329-441), not while a connection waits for its first
packet (server.rs:174-190); the loop is left as after an end of the stream. -/
def step (m : Mode) (cfg : AuthConfig) (p : Process) : ProcEvent → Process
  | .net (.accept c) => if p.up then { p with net := p.net.step m cfg (.accept c) } else p
  | .net e => { p with net := p.net.step m cfg e }
  | .shutdown => { p with up := false }
  | .notice c =>
    if p.up then p
    else match p.net.wires.get c with
      | some w => if w.begun then { p with net := p.net.step m cfg (.close c) } else p
      | none => p

/-- The process after a history (mercurio-server/src/server.rs:72-125). -/
def run (m : Mode) (cfg : AuthConfig) (p : Process) (es : List ProcEvent) : Process :=
  es.foldl (fun p e => p.step m cfg e) p

end Process

end Mercurio
