import Verif.Model.Net
import Verif.Model.KeepAlive

/-!
# The server on byte streams, with time

`Verif.Model.Net` lets a connection be closed at any time.  Here the keep-alive deadlines of
mercurio-server/src/server.rs:312-441 decide when the timer does so.  Times are milliseconds of the monotonic clock.
Simplifications: those of `Verif.Model.Net`; acting on a packet takes no time, except that a write may get stuck
because the peer does not take the bytes; a timer that has struck is attended to within `late` milliseconds (a
parameter), unless the task is stuck in a write.
-/

namespace Mercurio

/-- The local variables of `handle_connection` that have to do with time (mercurio-server/src/server.rs:326-327), and
whether the task is inside a `write_packet` that does not return: of an answer (server.rs:388), after which the
deadline is set again, or of a message (server.rs:419). -/
structure Clock where
  deadline : Nat
  stuck : Option Bool := none
  deriving DecidableEq

/-- The server process and the clock. -/
structure TimedNet where
  net : Net := Net.init
  now : Nat := 0
  clocks : Map Nat Clock := []

/-- What can happen. -/
inductive TimedEvent where
  /-- something happens on a connection -/
  | net (e : NetEvent)
  /-- the same, but the peer does not take what is written (mercurio-server/src/connection.rs:71-81) -/
  | stick (e : NetEvent)
  /-- the peer takes it at last -/
  | resume (c : Nat)
  /-- the keep-alive timer strikes (mercurio-server/src/server.rs:422-432) -/
  | expire (c : Nat)
  /-- time passes -/
  | wait (ms : Nat)
  deriving DecidableEq

namespace TimedNet

/-- The connections on which an event is possible while the task is stuck: only an I/O error, or the listener.
(mercurio-server/src/server.rs:331-441: the other branches of the `select!` are not polled then.) -/
def free (σ : TimedNet) : NetEvent → Bool
  | .data c _ | .turn c _ _ | .deliver c _ => ((σ.clocks.get c).bind (·.stuck)).isNone
  | .accept _ | .close _ => true

/-- Whether an event is the processing of a packet, and with which keep-alive the deadline is set then: when the loop
begins (mercurio-server/src/server.rs:326) and after each packet (server.rs:392). -/
def heard (m : Mode) (n : Net) : NetEvent → Option (Nat × UInt16)
  | .turn c _ _ =>
    match n.wires.get c with
    | none => none
    | some w =>
      if w.running then
        match parsePacket m w.buf with
        | .packet p _ => some (c, if w.begun then w.keepalive else Net.keepaliveOf p)
        | _ => none
      else none
  | _ => none

/-- Something happens on a connection; if a packet was processed, the deadline is set again
(mercurio-server/src/server.rs:326, 392; where the addition of line 392 overflows the task has panicked, see
`Net.resets`). -/
def onNet (m : Mode) (cfg : AuthConfig) (σ : TimedNet) (e : NetEvent) : TimedNet :=
  { σ with
    net := σ.net.step m cfg e
    clocks :=
      match heard m σ.net e with
      | some (c, k) => σ.clocks.insert c { deadline := sleepUntil σ.now (keepAliveTimeout k) }
      | none => σ.clocks }

/-- The bytes written to connection `c` so far (bookkeeping of `Verif.Model.Net`, see `Wire.sent`;
mercurio-server/src/connection.rs:71-81). -/
def output (n : Net) (c : Nat) : Buf := ((n.wires.get c).map (·.sent)).getD []

/-- The connection of an event that makes the server write (mercurio-server/src/server.rs:331-419). -/
def writer : NetEvent → Option (Nat × Bool)
  | .turn c _ _ => some (c, true)
  | .deliver c _ => some (c, false)
  | _ => none

/-- Whether the timers allow time to pass until `t`: each one that is waited for is attended to within `late`
milliseconds (mercurio-server/src/server.rs:329-432; the runtime is external to /repo). -/
def patient (late : Nat) (σ : TimedNet) (t : Nat) : Bool :=
  σ.net.wires.all fun (c, w) =>
    match σ.clocks.get c with
    | some k => !(w.running && w.begun && k.stuck.isNone) || decide (t ≤ k.deadline + late)
    | none => true

/-- One event (mercurio-server/src/server.rs:118-190, 312-441). -/
def step (m : Mode) (cfg : AuthConfig) (late : Nat) (σ : TimedNet) : TimedEvent → TimedNet
  | .net e => if σ.free e then σ.onNet m cfg e else σ
  | .stick e =>
    if σ.free e then
      let σ' := σ.onNet m cfg e
      match writer e with
      | some (c, answer) =>
        if output σ'.net c = output σ.net c then σ'
        else
          match σ'.clocks.get c with
          | some k => { σ' with clocks := σ'.clocks.insert c { k with stuck := some answer } }
          | none => σ'
      | none => σ'
    else σ
  | .resume c =>
    match σ.clocks.get c, σ.net.wires.get c with
    | some k, some w =>
      match k.stuck with
      | none => σ
      | some answer =>
        let d := if answer then sleepUntil σ.now (keepAliveTimeout w.keepalive) else k.deadline
        { σ with clocks := σ.clocks.insert c { deadline := d } }
    | _, _ => σ
  | .expire c =>
    match σ.clocks.get c with
    | some k => if k.stuck.isNone && decide (k.deadline ≤ σ.now) then σ.onNet m cfg (.close c) else σ
    | none => σ
  | .wait ms => if σ.patient late (σ.now + ms) then { σ with now := σ.now + ms } else σ

/-- The server after a history (mercurio-server/src/server.rs:74-125). -/
def run (m : Mode) (cfg : AuthConfig) (late : Nat) (σ : TimedNet) (es : List TimedEvent) : TimedNet :=
  es.foldl (fun σ e => σ.step m cfg late e) σ

end TimedNet

end Mercurio
