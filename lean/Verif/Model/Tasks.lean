import Verif.Model.Calls
import Verif.Model.Server

/-!
# The connections' tasks, step by step

In Model/Server an event runs to its end before the next one starts.  Here the tasks of all connections run
at the same time: handling a PUBLISH or a SUBSCRIBE consists of the steps of Model/Calls (storing, waiting
for the locks of the topic tree, walking through it, reading retained messages), and any other task can
take steps in between.  Steps that touch only the session, or one entry of the storage under its lock, stay
atomic.

Simplifications: every connection has a session of its own, new when it starts; what authentication,
resumption and a shared client identifier do is the subject of Model/Server and Model/Locks.  Writes succeed.
-/

namespace Mercurio.Tasks

open Mercurio

/-- Where the task of a connection is (mercurio-server/src/server.rs:327-464, session.rs:278-335, 379-431).
`none` for the packet means that the will is published (server.rs:303-310, 444-464). -/
inductive Phase where
  /-- in `select!`, server.rs:328 -/
  | idle
  /-- in `broker.publish`, after its storage step, broker.rs:64-67 -/
  | stored (topic : Str) (m : Message) (p : Option PublishPacket)
  /-- in `broker.publish`, inside the topic tree, topic_tree.rs:83-125 -/
  | routing (p : Option PublishPacket)
  /-- in the loop of `handle_subscribe`, session.rs:393: filters to do, reason codes so far -/
  | subscribing (p : SubscribePacket) (todo : List Str) (codes : List ReasonCode)
  /-- in `broker.subscribe(f)`, call number `q`, after its tree step, broker.rs:35-36 -/
  | reading (p : SubscribePacket) (q : Nat) (f : Str) (todo : List Str) (codes : List ReasonCode)
  /-- the task has returned, server.rs:163-170 -/
  | ended

/-- The task of a connection (mercurio-server/src/server.rs:55-64). -/
structure Task where
  session : Session
  phase : Phase

/-- What all tasks share, and the tasks.  `log` is bookkeeping: the steps taken in the broker, oldest first
(mercurio-server/src/server.rs:80-110). -/
structure State where
  calls : Calls.State
  tasks : Map Nat Task
  log : List Calls.Event

/-- One atomic step. -/
inductive Event where
  /-- connection `c` has been let in with CONNECT `p`; `uuid` as in Model/Server (server.rs:216-299) -/
  | start (c : Nat) (p : ConnectPacket) (uuid : Str)
  /-- a packet arrives, server.rs:331-398 -/
  | arrive (c : Nat) (p : Packet)
  /-- the next step of the handling of a packet; `q` is the number of a call of `subscribe`, if
  one is made -/
  | work (c : Nat) (q : Nat)
  /-- the next message of a subscription is sent, server.rs:401-425 -/
  | deliver (c : Nat) (f : Str)
  /-- the connection ends without DISCONNECT, server.rs:331-335, 428-441 -/
  | close (c : Nat)
  deriving DecidableEq

namespace State

/-- No connections (mercurio-server/src/server.rs:80-110). -/
def init : State := ⟨Calls.init, [], []⟩

/-- A step in the broker (mercurio-server/src/broker.rs:31-69). -/
def call (s : State) (e : Calls.Event) : Option State :=
  match Calls.step s.calls e with
  | some cs => some { s with calls := cs, log := s.log ++ [e] }
  | none => none

/-- Store a task back. -/
def put (s : State) (c : Nat) (t : Task) : State := { s with tasks := s.tasks.insert c t }

/-- A task ends (it stays in the list, so that its number is not used again). -/
def drop (s : State) (c : Nat) (sess : Session) : State := s.put c ⟨sess, .ended⟩

/-- A change of the storage (mercurio-server/src/session_manager.rs:176-228). -/
def mapStore (s : State) (g : MemoryStore → MemoryStore) : State :=
  { s with calls := { s.calls with store := g s.calls.store } }

/-- What a handler that uses neither `publish` nor `subscribe` sees of the broker. -/
def world (s : State) : World := ⟨⟨s.calls.walk.tree, s.calls.store⟩, []⟩

/-- The end of a connection: the will, if there is one, is taken and published,
mercurio-server/src/server.rs:303-310, 444-464. -/
def ending (s : State) (c : Nat) (sess : Session) : Option State :=
  match sess.will with
  | none => some (s.drop c sess)
  | some w =>
    match s.call (.store c w.topic (Server.willMessage w)) with
    | some s => some (s.put c ⟨{ sess with will := none }, .stored w.topic (Server.willMessage w) none⟩)
    | none => none

/-- `handle_publish` up to the storage step of `broker.publish`, mercurio-server/src/session.rs:278-332. -/
def beginPublish (s : State) (c : Nat) (sess : Session) (p : PublishPacket) : Option State :=
  match validatePublishTopic p.topicName with
  | .error _ => s.ending c sess
  | .ok () =>
    match s.call (.store c p.topicName (Session.messageOf p)) with
    | some s => some (s.put c ⟨sess.notePublish p, .stored p.topicName (Session.messageOf p) (some p)⟩)
    | none => none

/-- A packet arrives at an idle task, mercurio-server/src/server.rs:331-398. -/
def arrive (cfg : AuthConfig) (s : State) (c : Nat) (sess : Session) : Packet → Option (State × List Packet)
  | .publish p => (s.beginPublish c sess p).map fun s => (s, [])
  | .subscribe p => some (s.put c ⟨sess, .subscribing p (p.payload.map (·.topicFilter)) []⟩, [])
  | .disconnect _ =>
    some ((s.mapStore fun st => st.deleteWill sess.clientId).drop c { sess with will := none }, [])
  | p =>
    let h := sess.processIncoming s.world cfg.manager c p
    match h.result with
    | .error _ => (s.ending c h.session).map fun s => (s, [])
    | .ok res =>
      some ((s.mapStore (Server.saveAfter h.session p)).put c ⟨h.session, .idle⟩, res.toList)

/-- `broker.publish` has returned: the response of `handle_publish`, or the end of a connection whose will
it was, mercurio-server/src/session.rs:332-334, server.rs:386-390, 303-310. -/
def published (s : State) (c : Nat) (sess : Session) : Option PublishPacket → Option (State × List Packet)
  | none => some ((s.mapStore fun st => st.deleteWill sess.clientId).drop c sess, [])
  | some p =>
    match Session.publishResponse p with
    | .ok res => some (s.put c ⟨sess, .idle⟩, res.toList)
    | .error _ => (s.ending c sess).map fun s => (s, [])

/-- The next step of a task that is handling a packet (mercurio-server/src/session.rs:278-335, 379-431,
broker.rs:31-69). -/
def work (s : State) (c q : Nat) (sess : Session) : Phase → Option (State × List Packet)
  | .idle | .ended => none
  | .stored t m p => (s.call (.begin c t m)).map fun s => (s.put c ⟨sess, .routing p⟩, [])
  | .routing p =>
    match s.calls.walk.calls.get c with
    | some ⟨_, []⟩ => (s.call (.finish c)).bind fun s => s.published c sess p
    | _ => (s.call (.work c)).map fun s => (s, [])
  | .subscribing p [] codes =>
    some ((s.mapStore (Server.saveAfter sess (.subscribe p))).put c ⟨sess, .idle⟩,
      [.subAck { protocolVersion := sess.connect.protocolVersion, packetId := p.packetId, payload := codes }])
  | .subscribing p (f :: fs) codes =>
    match validateSubscribeFilter f with
    | .error _ => some (s.put c ⟨sess, .subscribing p fs (codes ++ [.topicFilterInvalid])⟩, [])
    | .ok () => (s.call (.subTree q f)).map fun s => (s.put c ⟨sess, .reading p q f fs codes⟩, [])
  | .reading p q f fs codes =>
    match s.call (.subRead q) with
    | none => none
    | some s =>
      match s.calls.walk.subs.get q, s.calls.reads.get q with
      | some rx, some (_, some retained) =>
        some (s.put c ⟨{ sess with subscriptions := sess.subscriptions.insert f ⟨retained, rx⟩ },
          .subscribing p fs (codes ++ [.grantedQoS0])⟩, [])
      | _, _ => none

/-- A message of the subscription `f` is sent, mercurio-server/src/server.rs:401-425. -/
def deliver (s : State) (c : Nat) (sess : Session) (f : Str) : Option (State × List Packet) :=
  match sess.processOutgoing s.calls.walk.tree f with
  | .idle => none
  | .packet sess' p =>
    some ((s.mapStore (Server.saveOutgoing sess' p)).put c ⟨sess', .idle⟩, [.publish p])
  | .panicked sess' => some (s.drop c sess', [])

/-- What the start of a new session does to the storage: a clean start removes what is stored under the client
identifier, and the session and its will are stored (mercurio-server/src/session_manager.rs:94-99, 150-164). -/
def entering (p : ConnectPacket) (sess : Session) (st : MemoryStore) : MemoryStore :=
  Server.saveStart sess []
    (if p.flags.cleanStart then (st.deleteSession p.payload.clientId).deleteWill p.payload.clientId else st)

/-- One step and the packets it sends on its connection; `none` if it is not possible in this state
(mercurio-server/src/server.rs:174-464). -/
def step (cfg : AuthConfig) (s : State) : Event → Option (State × List Packet)
  | .start c p uuid =>
    match s.tasks.get c with
    | some _ => none
    | none =>
      let b := (Session.new p).begin uuid false
      some ((s.mapStore (entering p b.1)).put c ⟨b.1, .idle⟩, [.connAck b.2])
  | .arrive c p =>
    match s.tasks.get c with
    | some ⟨sess, .idle⟩ => s.arrive cfg c sess p
    | _ => none
  | .work c q =>
    match s.tasks.get c with
    | some ⟨sess, ph⟩ => s.work c q sess ph
    | none => none
  | .deliver c f =>
    match s.tasks.get c with
    | some ⟨sess, .idle⟩ => s.deliver c sess f
    | _ => none
  | .close c =>
    match s.tasks.get c with
    | some ⟨sess, .idle⟩ => (s.ending c sess).map fun s => (s, [])
    | _ => none

/-- A whole interleaving; `none` if it is not possible. -/
def run (cfg : AuthConfig) (s : State) : List Event → Option State
  | [] => some s
  | e :: es => match step cfg s e with
    | none => none
    | some (s', _) => run cfg s' es

end State

end Mercurio.Tasks
