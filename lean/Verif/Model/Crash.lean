import Verif.Model.Server

/-!
# Crashes

The server of `Verif.Model.Server` handles an event at once.  Here the handling is taken apart into what can be
seen from outside the process, in the order of the code: changes of the storage and packets written.  A crash
leaves a beginning of that list behind.
Simplifications: each method of the storage is atomic (mercurio-storage/src/sqlite.rs does each in one
statement); a packet written has reached the client; at most one event is unfinished when the process dies; the
server uses a storage that survives the process (mercurio-server/src/server.rs:81 always creates a `MemoryStore`, see
C117).
-/

namespace Mercurio

/-- Something the handling of an event does that outlives the process: a call that changes the storage
(mercurio-storage/src/lib.rs:69-150), or a packet written (mercurio-server/src/connection.rs:71-81). -/
inductive Effect where
  | store (op : StorageOp)
  | write (p : Packet)
  deriving DecidableEq

/-- The storage after these effects (mercurio-storage/src/lib.rs:69-150). -/
def storeAfter (s : MemoryStore) (es : List Effect) : MemoryStore :=
  es.foldl (fun s e => match e with | .store op => (s.step op).1 | .write _ => s) s

/-- The packets among the effects (mercurio-server/src/connection.rs:71-81). -/
def writtenIn (es : List Effect) : List Packet :=
  es.filterMap fun e => match e with | .store _ => none | .write p => some p

namespace Server

/-- `Broker::publish`, mercurio-server/src/broker.rs:45-69. -/
def publishEffects (topic : Str) (m : Message) : List Effect :=
  if m.retain then
    [.store (.storeRetained topic (if Broker.noPayload m then none else some { m with retain := false }))]
  else []

/-- The end of `run`, mercurio-server/src/server.rs:303-310, 444-464. -/
def finishEffects (s : Session) : List Effect :=
  match s.will with
  | none => []
  | some w => publishEffects w.topic (willMessage w) ++ [.store (.deleteWill s.clientId)]

/-- The storage calls of `process_incoming`: only a PUBLISH makes one, mercurio-server/src/session.rs:278-335. -/
def handleEffects : Packet → List Effect
  | .publish p =>
    match validatePublishTopic p.topicName with
    | .error _ => []
    | .ok () => publishEffects p.topicName (Session.messageOf p)
  | _ => []

/-- The storage calls after a packet was processed, mercurio-server/src/server.rs:369-389. -/
def saveEffects (s : Session) : Packet → List Effect
  | .subscribe _ => [.store (.saveSession s.clientId (stateOf s.clientId s.filters))]
  | .unsubscribe _ => [.store (.saveSession s.clientId (stateOf s.clientId s.filters))]
  | .pubAck a => [.store (.removeInflight s.clientId a.packetId)]
  | .pubComp a => [.store (.removeInflight s.clientId a.packetId)]
  | _ => []

/-- A packet on a running connection, mercurio-server/src/server.rs:331-398. -/
def recvEffects (cfg : AuthConfig) (srv : Server) (c : Nat) (s : Session) (p : Packet) : List Effect :=
  match p with
  | .disconnect _ => .store (.deleteWill s.clientId) :: finishEffects { s with will := none }
  | p =>
    let h := s.processIncoming srv.world cfg.manager c p
    match h.result with
    | .error _ => handleEffects p ++ finishEffects h.session
    | .ok res => handleEffects p ++ saveEffects h.session p ++ res.toList.map .write

/-- The storage call for an outgoing packet, mercurio-server/src/server.rs:405-422. -/
def outgoingEffects (s : Session) (p : PublishPacket) : List Effect :=
  match p.packetId with
  | none => []
  | some id =>
    match p.qos with
    | .atLeastOnce | .exactlyOnce => [.store (.storeInflight s.clientId id ⟨id, p.topicName, p.payload, p.qos, p.dup⟩)]
    | _ => []

/-- An outgoing packet on a running connection, mercurio-server/src/server.rs:401-425. -/
def deliverEffects (srv : Server) (s : Session) (filter : Str) : List Effect :=
  match s.processOutgoing srv.world.broker.tree filter with
  | .packet s' p => outgoingEffects s' p ++ [.write (.publish p)]
  | _ => []

/-- `start_session` (mercurio-server/src/session_manager.rs:80-174) and the messages sent again
(mercurio-server/src/server.rs:281-299): the CONNACK is written before the session is saved. -/
def startEffects (srv : Server) (p : ConnectPacket) (uuid : Str) (written : Bool) : List Effect :=
  let cid := p.payload.clientId
  let found := srv.find cid p.flags.cleanStart
  let b := ((srv.discard cid p.flags.cleanStart).enter p).2.2.begin uuid found.resume
  (if p.flags.cleanStart then [.store (.deleteSession cid), .store (.deleteWill cid)] else []) ++
  if written then
    .write (.connAck b.2) ::
    .store (.saveSession b.1.clientId (stateOf b.1.clientId found.subscriptions)) ::
    (match b.1.will with
      | some w => [.store (.storeWill b.1.clientId w)]
      | none => []) ++
    found.inflight.map fun i => .write (retryPacket i)
  else []

/-- What `run` does on connection `c`, if it is being served (mercurio-server/src/server.rs:322-442). -/
def onConnEffects (srv : Server) (c : Nat) (f : Session → List Effect) : List Effect :=
  match srv.conns.get c with
  | none => []
  | some k =>
    match srv.heap.get k.session with
    | none => []
    | some s => f s

/-- What the handling of an event does, in order (mercurio-server/src/server.rs:216-464). -/
def effects (cfg : AuthConfig) (srv : Server) : Event → List Effect
  | .first c p uuid written =>
    if (srv.conns.get c).isSome then []
    else match p with
      | .connect p =>
        if cfg.requireAuth && !authenticated cfg p then [.write (refusal p)]
        else srv.startEffects p uuid written
      | _ => []
  | .recv c p => srv.onConnEffects c fun s => srv.recvEffects cfg c s p
  | .deliver c f => srv.onConnEffects c fun s => srv.deliverEffects s f
  | .close c => srv.onConnEffects c finishEffects
  | .abort _ => []
  | .restart => []

/-- The process dies after the first `k` effects of the handling of an event and is started again: the new server,
and the packets that were written before (mercurio-server/src/server.rs:80-110).  The bookkeeping of the model (list of
calls, next reference) is that of the whole event. -/
def crash (cfg : AuthConfig) (srv : Server) (e : Event) (k : Nat) : Server × List Packet :=
  let done := (srv.effects cfg e).take k
  let after := (srv.step cfg e).1
  (({ after with world := after.world.mapStore fun _ => storeAfter srv.store done }.step cfg .restart).1, writtenIn done)

end Server

end Mercurio
