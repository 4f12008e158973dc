import Verif.Model.Session

/-!
# Session manager, connection handler and server

Models mercurio-server/src/session_manager.rs and the per-connection part of
mercurio-server/src/server.rs as one state machine: the state shared by all connections, and one
event for each thing that can happen on a connection.  Histories are arbitrary lists of events, so
any number of connections interleave in any order.
Simplifications: an event runs to its end before the next one starts; packets are values (their
bytes are the subject of `Verif.Model.Packets` and `Verif.Model.Connection`); storage calls succeed;
a failing write of a response or of an outgoing packet is the event `close` right after it; a failing
retransmission is only logged by the code (server.rs:292-298), so the connection goes on; time is in
`Verif.Model.KeepAlive`.
-/

namespace Mercurio

/-- `AuthConfig`, mercurio-server/src/server.rs:27-34. -/
structure AuthConfig where
  requireAuth : Bool := false
  validator : Option (Str → Buf → Bool) := none
  manager : Option AuthManager := none

/-- One running `Handler` (mercurio-server/src/server.rs:55-64): the session it works on.
`key` is bookkeeping: the client identifier in its CONNECT. -/
structure Conn where
  session : Nat
  key : Str
  deriving DecidableEq

/-- The state shared by all connections.  A `Session` is a reference to shared state
(mercurio-server/src/session.rs:99-105), hence `heap`; `sessions` is `State` of the session manager
(mercurio-server/src/session_manager.rs:42-44); `conns` are the running handlers. -/
structure Server where
  world : World
  heap : Map Nat Session
  fresh : Nat
  sessions : Map Str Nat
  conns : Map Nat Conn

/-- What can happen. -/
inductive Event where
  /-- The first packet on a new connection `c`; `uuid` is the identifier `Uuid::new_v4` would
  generate, `written` whether writing the CONNACK succeeds (mercurio-server/src/server.rs:174-190). -/
  | first (c : Nat) (p : Packet) (uuid : Str) (written : Bool)
  /-- A further packet on `c` (server.rs:331-398). -/
  | recv (c : Nat) (p : Packet)
  /-- `c` sends the next message of the subscription `filter` (server.rs:401-425). -/
  | deliver (c : Nat) (filter : Str)
  /-- `c` ends without DISCONNECT: end of stream, read or write error, keep-alive timeout or
  shutdown (server.rs:331-335, 428-441). -/
  | close (c : Nat)
  /-- The task of `c` panics. -/
  | abort (c : Nat)
  /-- The process is restarted with the same storage.  Simplification: mercurio-server/src/server.rs:81
  always creates a new `MemoryStore`; the event describes the other storage back end. -/
  | restart
  deriving DecidableEq

/-- Packets sent to the connection of the event, and whether its task panicked. -/
structure Out where
  sent : List Packet := []
  panicked : Bool := false
  deriving DecidableEq

namespace Server

/-- A new server, mercurio-server/src/server.rs:80-110. -/
def init : Server := ⟨⟨⟨TopicTree.new, MemoryStore.new⟩, []⟩, [], 0, [], []⟩

/-- A change of the storage (mercurio-server/src/session_manager.rs:80-228). -/
def mapStore (srv : Server) (f : MemoryStore → MemoryStore) : Server :=
  { srv with world := srv.world.mapStore f }

/-- The storage (mercurio-server/src/server.rs:81). -/
def store (srv : Server) : MemoryStore := srv.world.broker.store

/-! ## Session manager -/

/-- What `start_session` finds to resume (mercurio-server/src/session_manager.rs:89-134):
`resume`, `subscriptions_to_restore`, `will_to_restore`, `inflight_to_retry`. -/
structure Found where
  resume : Bool
  subscriptions : List Str
  will : Option StoredWill
  inflight : List Inflight
  deriving DecidableEq

/-- Nothing to resume (mercurio-server/src/session_manager.rs:89-92). -/
def Found.none : Found := ⟨false, [], Option.none, []⟩

/-- mercurio-server/src/session_manager.rs:94-134, the lookups. -/
def find (srv : Server) (cid : Str) (clean : Bool) : Found :=
  if clean then Found.none
  else if (srv.sessions.get cid).isSome then ⟨true, [], none, []⟩
  else match srv.store.loadSession cid with
    | some st => ⟨true, st.subscriptions, srv.store.getWill cid, srv.store.getAllInflight cid⟩
    | none => Found.none

/-- mercurio-server/src/session_manager.rs:94-99, the removals of a clean start. -/
def discard (srv : Server) (cid : Str) (clean : Bool) : Server :=
  if clean then
    { srv with sessions := srv.sessions.erase cid }.mapStore
      fun s => (s.deleteSession cid).deleteWill cid
  else srv

/-- mercurio-server/src/session_manager.rs:136-146: the session of the client, its reference, and the
manager's table with it.  (The case of a table entry without session does not occur, see
`Verif.Lemmas.Server`.) -/
def enter (srv : Server) (p : ConnectPacket) : Server × Nat × Session :=
  let new : Server × Nat × Session :=
    ({ srv with fresh := srv.fresh + 1, sessions := srv.sessions.insert p.payload.clientId srv.fresh },
     srv.fresh, Session.new p)
  match srv.sessions.get p.payload.clientId with
  | none => new
  | some r =>
    match srv.heap.get r with
    | none => new
    | some s => (srv, r, s.setConnect p)

/-- Store a session back (the writes through its lock, mercurio-server/src/session.rs:103-105). -/
def put (srv : Server) (r : Nat) (s : Session) : Server := { srv with heap := srv.heap.insert r s }

/-- The `session_state` of `start_session` and `save_subscriptions`,
mercurio-server/src/session_manager.rs:153-157, 182-186. -/
def stateOf (cid : Str) (subs : List Str) : SessionState := ⟨cid, subs, false⟩

/-- The storage updates of `start_session`, mercurio-server/src/session_manager.rs:150-164. -/
def saveStart (s : Session) (subs : List Str) (st : MemoryStore) : MemoryStore :=
  let st := st.saveSession s.clientId (stateOf s.clientId subs)
  match s.will with
  | some w => st.storeWill s.clientId w
  | none => st

/-! ## Connections -/

/-- The credential check of `run`, mercurio-server/src/server.rs:219-240. -/
def authenticated (cfg : AuthConfig) (p : ConnectPacket) : Bool :=
  match p.payload.userName, p.payload.password with
  | some u, some pw =>
    match cfg.validator with
    | some v => v u pw
    | none => false
  | _, _ => false

/-- The refusal of `run`, mercurio-server/src/server.rs:245-252. -/
def refusal (p : ConnectPacket) : Packet :=
  .connAck { protocolVersion := p.protocolVersion, reasonCode := .badUserNameOrPassword }

/-- A message sent again after a resumption, mercurio-server/src/server.rs:283-291. -/
def retryPacket (i : Inflight) : Packet :=
  .publish { dup := true, qos := i.qos, retain := false, topicName := i.topic, packetId := some i.packetId, payload := i.payload }

/-- `set_will` of a restored will, mercurio-server/src/server.rs:277-279. -/
def restoreWill (s : Session) (w : Option StoredWill) : Session :=
  match w with
  | some w => { s with will := some w }
  | none => s

/-- `start_session` (mercurio-server/src/session_manager.rs:80-174) followed by the rest of `run` up
to its packet loop (mercurio-server/src/server.rs:267-299). -/
def start (srv : Server) (c : Nat) (p : ConnectPacket) (uuid : Str) (written : Bool) : Server × Out :=
  let cid := p.payload.clientId
  let found := srv.find cid p.flags.cleanStart
  let e := (srv.discard cid p.flags.cleanStart).enter p
  let b := e.2.2.begin uuid found.resume
  if written then
    let srv' := e.1.mapStore (saveStart b.1 found.subscriptions)
    let r := b.1.restoreSubscriptions srv'.world found.subscriptions
    let s := restoreWill r.1 found.will
    ({ srv' with world := r.2, conns := srv'.conns.insert c ⟨e.2.1, cid⟩ }.put e.2.1 s,
     { sent := .connAck b.2 :: found.inflight.map retryPacket })
  else (e.1.put e.2.1 b.1, {})

/-- `run` up to its packet loop, mercurio-server/src/server.rs:216-299. -/
def connect (cfg : AuthConfig) (srv : Server) (c : Nat) (p : ConnectPacket) (uuid : Str)
    (written : Bool) : Server × Out :=
  if cfg.requireAuth && !authenticated cfg p then (srv, { sent := [refusal p] })
  else srv.start c p uuid written

/-- The message of `publish_will`, mercurio-server/src/server.rs:451-459. -/
def willMessage (w : StoredWill) : Message :=
  { packetId := none, topic := w.topic, dup := false, qos := w.qos, retain := w.retain, payload := some w.payload }

/-- The end of `run` after its packet loop: the will, if the session still has one, is taken and
published (mercurio-server/src/server.rs:303-310, 444-464). -/
def finish (srv : Server) (c : Nat) (r : Nat) (s : Session) : Server :=
  let srv := { srv with conns := srv.conns.erase c }
  match s.will with
  | none => srv.put r s
  | some w =>
    let srv := { srv with world := srv.world.publish (.will c) w.topic (willMessage w) }
    (srv.put r { s with will := none }).mapStore fun st => st.deleteWill s.clientId

/-- The storage updates after a packet was processed, mercurio-server/src/server.rs:369-389. -/
def saveAfter (s : Session) (p : Packet) (st : MemoryStore) : MemoryStore :=
  match p with
  | .subscribe _ => st.saveSession s.clientId (stateOf s.clientId s.filters)
  | .unsubscribe _ => st.saveSession s.clientId (stateOf s.clientId s.filters)
  | .pubAck a => st.removeInflight s.clientId a.packetId
  | .pubComp a => st.removeInflight s.clientId a.packetId
  | _ => st

/-- A packet on a running connection, mercurio-server/src/server.rs:331-398. -/
def recv (cfg : AuthConfig) (srv : Server) (c : Nat) (r : Nat) (s : Session) (p : Packet) :
    Server × Out :=
  match p with
  | .disconnect _ =>
    let s := { s with will := none }
    ((srv.mapStore fun st => st.deleteWill s.clientId).finish c r s, {})
  | p =>
    let h := s.processIncoming srv.world cfg.manager c p
    let srv := { srv with world := h.world }
    match h.result with
    | .error _ => (srv.finish c r h.session, {})
    | .ok res =>
      ((srv.mapStore (saveAfter h.session p)).put r h.session, { sent := res.toList })

/-- The in-flight record of an outgoing packet, mercurio-server/src/server.rs:405-422. -/
def saveOutgoing (s : Session) (p : PublishPacket) (st : MemoryStore) : MemoryStore :=
  match p.packetId with
  | none => st
  | some id =>
    match p.qos with
    | .atLeastOnce | .exactlyOnce =>
      st.storeInflight s.clientId id ⟨id, p.topicName, p.payload, p.qos, p.dup⟩
    | _ => st

/-- An outgoing packet on a running connection, mercurio-server/src/server.rs:401-425. -/
def deliver (srv : Server) (c : Nat) (r : Nat) (s : Session) (filter : Str) : Server × Out :=
  match s.processOutgoing srv.world.broker.tree filter with
  | .idle => (srv, {})
  | .packet s' p => ((srv.mapStore (saveOutgoing s' p)).put r s', { sent := [.publish p] })
  | .panicked s' => ({ srv with conns := srv.conns.erase c }.put r s', { panicked := true })

/-- Act on a running connection and its session; nothing happens if there is none. -/
def onConn (srv : Server) (c : Nat) (f : Nat → Session → Server × Out) : Server × Out :=
  match srv.conns.get c with
  | none => (srv, {})
  | some k =>
    match srv.heap.get k.session with
    | none => (srv, {})
    | some s => f k.session s

/-- One event (mercurio-server/src/server.rs:174-190, 216-464).  An event that cannot happen in the
state (a second "first packet", activity on a connection that does not exist) changes nothing. -/
def step (cfg : AuthConfig) (srv : Server) : Event → Server × Out
  | .first c p uuid written =>
    if (srv.conns.get c).isSome then (srv, {})
    else match p with
      | .connect p => srv.connect cfg c p uuid written
      | _ => (srv, {})
  | .recv c p => srv.onConn c fun r s => srv.recv cfg c r s p
  | .deliver c f => srv.onConn c fun r s => srv.deliver c r s f
  | .close c => srv.onConn c fun r s => (srv.finish c r s, {})
  | .abort c => ({ srv with conns := srv.conns.erase c }, {})
  | .restart =>
    (⟨srv.world.restart, [], srv.fresh, [], []⟩, {})

/-- The server after a history (mercurio-server/src/server.rs:174-464). -/
def run (cfg : AuthConfig) (srv : Server) (es : List Event) : Server :=
  es.foldl (fun s e => (s.step cfg e).1) srv

end Server

end Mercurio
