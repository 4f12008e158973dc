import Verif.Model.Basic
import Verif.Model.Storage

/-!
# Locks and waiting

Models who waits for whom in the server: the session manager's mutex (mercurio-server/src/session_manager.rs:89,
held to the end of `start_session`), one mutex per session (mercurio-server/src/session.rs:110-112), and
the `select!` loop of a connection (mercurio-server/src/server.rs:328-441), in which `process_outgoing`
holds the session's mutex while it waits for the next message (session.rs:592-595).
Only the waiting is modelled, not what the packets do (for that see `Verif.Model.Server`).
Simplifications: a critical section without a wait in it is one action, also where it awaits the storage
or the broker (their locks are never held across a wait); the order in which waiting tasks get a free
lock is arbitrary; writing to a socket does not wait; a connection refused before `start_session` takes
no lock and is not there; restoring a stored session (server.rs:269-280) counts as a `wake`.
-/

namespace Mercurio

/-- Where the task of a connection is. -/
inductive Task where
  /-- `start_session` has been called and waits for the manager's lock
  (mercurio-server/src/session_manager.rs:89) -/
  | asks (id : Str) (clean : Bool)
  /-- holds the manager's lock; `k` more times it has to take the lock of session `r`: `get_will`, 1;
  `get_client_id`, 2; `begin`, which then sends the CONNACK, 3; `set_connect_packet`, 4
  (session_manager.rs:138-163) -/
  | enters (r k : Nat)
  /-- in the `select!`, not holding the session's lock (mercurio-server/src/server.rs:329) -/
  | rests (r : Nat)
  /-- in the `select!`, `process_outgoing` holds the lock of session `r` and waits for a message
  (mercurio-server/src/session.rs:593-595) -/
  | listens (r : Nat)
  /-- acts on a packet or sends a message; `k` more times it has to take the lock of session `r`;
  `sub`: the action gives the session its first, or takes its last, subscription
  (mercurio-server/src/server.rs:331-419) -/
  | works (r k : Nat) (sub : Option Bool)
  /-- the connection is over; `k` more times it has to take the lock (server.rs:303-309, 339-344, 445) -/
  | ends (r k : Nat)
  deriving DecidableEq

/-- The locks and the tasks.  `manager`: who holds the manager's lock; `held`: who holds the lock of a
session across a wait; `table`: the manager's sessions; `subscribed`: the sessions with subscriptions. -/
structure Locks where
  manager : Option Nat := none
  held : Map Nat Nat := []
  table : Map Str Nat := []
  fresh : Nat := 0
  subscribed : Map Nat Unit := []
  tasks : Map Nat Task := []
  deriving DecidableEq

/-- What can happen.  The first four need no client: the runtime does them as soon as it can. -/
inductive Act where
  /-- the manager's lock is taken -/
  | enter (c : Nat)
  /-- the session's lock is taken and given back -/
  | touch (c : Nat)
  /-- nothing more to do with the locks: back to the `select!`, or the end -/
  | leave (c : Nat)
  /-- `process_outgoing` takes the session's lock and finds no message -/
  | listen (c : Nat)
  /-- a client connects and its CONNECT arrives -/
  | connect (c : Nat) (id : Str) (clean : Bool)
  /-- a packet arrives, or a message is there to be sent -/
  | wake (c : Nat) (k : Nat) (sub : Option Bool)
  /-- the peer goes away, the keep-alive time is over, or a packet or the answer to it fails -/
  | close (c : Nat) (k : Nat)
  /-- the CONNACK cannot be written: `begin` fails and `start_session` returns
  (mercurio-server/src/session_manager.rs:150) -/
  | fail (c : Nat)
  deriving DecidableEq

namespace Locks

/-- Set the task of a connection. -/
def setTask (s : Locks) (c : Nat) (t : Task) : Locks := { s with tasks := s.tasks.insert c t }

/-- `subscriptions` of a session changes (mercurio-server/src/session.rs:384-432, 437-460). -/
def setSub (s : Locks) (r : Nat) : Option Bool → Locks
  | none => s
  | some true => { s with subscribed := s.subscribed.insert r () }
  | some false => { s with subscribed := s.subscribed.erase r }

/-- `start_session` with the manager's lock held, up to the first use of the session's lock
(mercurio-server/src/session_manager.rs:94-149): a clean start removes the table's session, a session
in the table is used again (4 uses of its lock), otherwise there is a new one (3 uses). -/
def enters (s : Locks) (c : Nat) (id : Str) (clean : Bool) : Locks :=
  let table := if clean then s.table.erase id else s.table
  match table.get id with
  | some r => { s with manager := some c, table }.setTask c (.enters r 4)
  | none =>
    { s with manager := some c, table := table.insert id s.fresh, fresh := s.fresh + 1 }.setTask c
      (.enters s.fresh 3)

/-- The task leaves the `select!`: its other branches are dropped, and with them the session's lock
(mercurio-server/src/server.rs:329). -/
def dropLock (s : Locks) (r : Nat) : Locks := { s with held := s.held.erase r }

/-- One action; `none` if it is not possible now. -/
def step (s : Locks) : Act → Option Locks
  | .connect c id clean =>
    match s.tasks.get c with
    | none => some (s.setTask c (.asks id clean))
    | some _ => none
  | .enter c =>
    match s.tasks.get c, s.manager with
    | some (.asks id clean), none => some (s.enters c id clean)
    | _, _ => none
  | .touch c =>
    match s.tasks.get c with
    | some (.enters r (k + 1)) => if (s.held.get r).isSome then none else some (s.setTask c (.enters r k))
    | some (.works r (k + 1) sub) =>
      if (s.held.get r).isSome then none else some ((s.setSub r sub).setTask c (.works r k sub))
    | some (.ends r (k + 1)) => if (s.held.get r).isSome then none else some (s.setTask c (.ends r k))
    | _ => none
  | .leave c =>
    match s.tasks.get c with
    | some (.enters r 0) => some ({ s with manager := none }.setTask c (.rests r))
    | some (.works r 0 _) => some (s.setTask c (.rests r))
    | some (.ends _ 0) => some { s with tasks := s.tasks.erase c }
    | _ => none
  | .listen c =>
    match s.tasks.get c with
    | some (.rests r) =>
      if (s.held.get r).isSome || (s.subscribed.get r).isNone then none
      else some ({ s with held := s.held.insert r c }.setTask c (.listens r))
    | _ => none
  | .wake c k sub =>
    match s.tasks.get c with
    | some (.rests r) => some (s.setTask c (.works r k sub))
    | some (.listens r) => some ((s.dropLock r).setTask c (.works r k sub))
    | _ => none
  | .close c k =>
    match s.tasks.get c with
    | some (.rests r) => some (s.setTask c (.ends r k))
    | some (.listens r) => some ((s.dropLock r).setTask c (.ends r k))
    | some (.works r 0 _) => some (s.setTask c (.ends r k))
    | _ => none
  | .fail c =>
    match s.tasks.get c with
    | some (.enters _ 2) => some { s with manager := none, tasks := s.tasks.erase c }
    | _ => none

/-- A sequence of actions, if all are possible. -/
def run (s : Locks) : List Act → Option Locks
  | [] => some s
  | a :: as => (s.step a).bind fun s' => s'.run as

end Locks

end Mercurio
