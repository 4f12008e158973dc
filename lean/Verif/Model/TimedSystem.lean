import Verif.Model.Timed
import Verif.Model.System

/-!
# The whole system, with time

`Verif.Model.System` lets the ping timer of a client tick, and the server give a connection up, at any time.  Here both
happen when the timers say so: the keep-alive deadlines of the server as in `Verif.Model.Timed`, and the ping timer of
each client (mercurio-client/src/client.rs:221-228, 302-315).
Simplifications: those of `Verif.Model.System` and `Verif.Model.Timed`; a write of a client returns at once; a timer of
a client that has struck is attended to within `late` milliseconds, unless its event loop is waiting for room in the
event channel.
-/

namespace Mercurio

/-- The server with its clock, the clients, and for each client whose `connect` has returned the time of the next tick
of `ping_timer` (mercurio-client/src/client.rs:227). -/
structure TimedSystem where
  timed : TimedNet := {}
  peers : Map Nat Peer := []
  pings : Map Nat Nat := []

/-- What can happen. -/
inductive TimedSysEvent where
  /-- an event of `Verif.Model.System`, other than a tick -/
  | sys (e : SysEvent)
  /-- the same, but the client does not take what the server writes, see `TimedEvent.stick` -/
  | stick (e : SysEvent)
  /-- the client takes it at last -/
  | resume (c : Nat)
  /-- the keep-alive timer of the server strikes (mercurio-server/src/server.rs:422-432) -/
  | expire (c : Nat)
  /-- the ping timer of client `c` ticks (mercurio-client/src/client.rs:302-315); `ok`: see `ClientIn` -/
  | tick (c : Nat) (ok : Bool)
  /-- time passes -/
  | wait (ms : Nat)
  deriving DecidableEq

/-- What an event of the system is for the server on byte streams, if it is one (see `System.step`;
mercurio-server/src/server.rs:118-190, 331-441). -/
def System.netEvent (σ : System) : SysEvent → Option NetEvent
  | .connect c o =>
    match σ.peers.get c, (Packet.connect (buildConnect o)).encode with
    | none, .ok _ => some (.accept c)
    | _, _ => none
  | .serverRead c n =>
    match σ.peers.get c with
    | none => none
    | some p =>
      match (σ.upstream c p).take (min n (2 ^ 31)) with
      | [] => if (σ.upstream c p).isEmpty && !p.socketOpen then some (.data c []) else none
      | b :: bs => some (.data c (b :: bs))
  | .serverTurn c uuid written => some (.turn c uuid written)
  | .deliver c f => some (.deliver c f)
  | .serverClose c => some (.close c)
  | _ => none

/-- The ping timer ticks; only `TimedSysEvent.tick` does that (mercurio-client/src/client.rs:302). -/
def SysEvent.isTick : SysEvent → Bool
  | .app _ (.tick _) => true
  | _ => false

/-- The event loop is running and not waiting for room in the event channel: it attends to its timer
(mercurio-client/src/client.rs:230-316). -/
def Peer.attends (p : Peer) : Bool :=
  match p.phase with
  | .connected l => l.running && !decide l.blocked
  | _ => false

/-- `connect` has returned a client (mercurio-client/src/client.rs:104-119). -/
def Peer.isConnected (p : Peer) : Bool :=
  match p.phase with
  | .connected _ => true
  | _ => false

namespace TimedSystem

/-- The system without the clock (mercurio-server/src/server.rs:74-125, mercurio-client/src/client.rs:60-122). -/
def sys (σ : TimedSystem) : System := ⟨σ.timed.net, σ.peers⟩

/-- The ping timers after an event: `connect` has returned, and the event loop makes its timer and skips the first tick
(mercurio-client/src/client.rs:104-119, 221-228). -/
def startPing (σ : TimedSystem) (peers : Map Nat Peer) : SysEvent → Map Nat Nat
  | .clientTurn c _ =>
    match σ.peers.get c, peers.get c with
    | some p, some p' =>
      if !p.isConnected && p'.isConnected then σ.pings.insert c (σ.timed.now + pingInterval p'.opts.keepAlive)
      else σ.pings
    | _, _ => σ.pings
  | _ => σ.pings

/-- An event of the system; `f` makes the event of the server with its clock (`Verif.Model.Timed`) of one on byte
streams (mercurio-server/src/server.rs:118-190, 312-441; mercurio-client/src/client.rs:60-122, 210-320). -/
def onSys (m : Mode) (cfg : AuthConfig) (late : Nat) (σ : TimedSystem) (f : NetEvent → TimedEvent) (e : SysEvent) :
    TimedSystem :=
  let peers := (σ.sys.step m cfg e).peers
  { timed := match σ.sys.netEvent e with
      | some ne => σ.timed.step m cfg late (f ne)
      | none => σ.timed
    peers := peers
    pings := σ.startPing peers e }

/-- Whether the timers allow time to pass until `t`: those of the server, see `TimedNet.patient`, and each ping timer
is attended to within `late` milliseconds (mercurio-client/src/client.rs:302; the runtime is external to /repo). -/
def patient (late : Nat) (σ : TimedSystem) (t : Nat) : Bool :=
  σ.timed.patient late t && σ.peers.all fun (c, p) =>
    match σ.pings.get c with
    | some due => !p.attends || decide (t ≤ due + late)
    | none => true

/-- One event (mercurio-server/src/server.rs:118-190, 312-441; mercurio-client/src/client.rs:60-122, 210-320).  The
next tick is one interval after the one before was due (the default of `tokio::time::interval`). -/
def step (m : Mode) (cfg : AuthConfig) (late : Nat) (σ : TimedSystem) : TimedSysEvent → TimedSystem
  | .sys e => if e.isTick then σ else σ.onSys m cfg late .net e
  | .stick e => if e.isTick then σ else σ.onSys m cfg late .stick e
  | .resume c => { σ with timed := σ.timed.step m cfg late (.resume c) }
  | .expire c => { σ with timed := σ.timed.step m cfg late (.expire c) }
  | .tick c ok =>
    match σ.peers.get c, σ.pings.get c with
    | some p, some due =>
      if p.attends && decide (due ≤ σ.timed.now) then
        { σ with
          peers := (σ.sys.step m cfg (.app c (.tick ok))).peers
          pings := σ.pings.insert c (due + pingInterval p.opts.keepAlive) }
      else σ
    | _, _ => σ
  | .wait ms =>
    if σ.patient late (σ.timed.now + ms) then { σ with timed := { σ.timed with now := σ.timed.now + ms } } else σ

/-- The system after a history (mercurio-server/src/server.rs:74-125, mercurio-client/src/client.rs:60-122). -/
def run (m : Mode) (cfg : AuthConfig) (late : Nat) (σ : TimedSystem) (es : List TimedSysEvent) : TimedSystem :=
  es.foldl (fun σ e => σ.step m cfg late e) σ

end TimedSystem

end Mercurio
