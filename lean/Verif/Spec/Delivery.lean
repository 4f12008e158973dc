import Verif.Spec.Server

/-!
# Specification of delivery to a subscriber

What a subscriber is sent, and which events leave its subscription in place.
-/

namespace Mercurio

/-- The packets sent on connection `c` for its subscription `f` during a history. -/
def Server.delivered (cfg : AuthConfig) (c : Nat) (f : Str) (srv : Server) : List Event → List Packet
  | [] => []
  | e :: es => (if e = .deliver c f then (srv.step cfg e).2.sent else []) ++
      Server.delivered cfg c f (srv.step cfg e).1 es

/-- The client identifier of the session behind the open connection `c` (for a client that sent an
empty one, the identifier it was assigned). -/
def Server.nameOf (srv : Server) (c : Nat) : Option Str := (srv.at c).map (·.clientId)

/-- Connections `c` and `c'` work on the same session: their clients gave the same identifier, and one resumed the
session that the other had started. -/
def Server.shares (srv : Server) (c c' : Nat) : Prop :=
  ∃ k k', srv.conns.get c = some k ∧ srv.conns.get c' = some k' ∧ k.session = k'.session

/-- The publications accepted by the broker during the history `es` from state `srv` on. -/
def published (cfg : AuthConfig) (srv : Server) (es : List Event) : List (Str × Message) :=
  Call.publications ((srv.run cfg es).world.log.drop srv.world.log.length)

namespace Spec

open Mercurio

/-- The event leaves the subscription `f` of connection `c` in place: the connection stays open, no
other open connection works on its session (none does if none has its client identifier), and the event is
no SUBSCRIBE or UNSUBSCRIBE of the client naming `f`. -/
structure Calm (cfg : AuthConfig) (srv : Server) (c : Nat) (f : Str) (e : Event) : Prop where
  stays : (srv.step cfg e).1.isOpen c
  alone : ∀ c', c' ≠ c → ¬ srv.shares c c'
  sub : ∀ p, e = .recv c (.subscribe p) → f ∉ p.payload.map (·.topicFilter)
  unsub : ∀ p, e = .recv c (.unsubscribe p) → f ∉ p.payload

/-- Every event of the history leaves the subscription in place. -/
def CalmRun (cfg : AuthConfig) (c : Nat) (f : Str) : Server → List Event → Prop
  | _, [] => True
  | srv, e :: es => Calm cfg srv c f e ∧ CalmRun cfg c f (srv.step cfg e).1 es

/-- The packet by which the server passes on a message for the filter `f`: payload, QoS, duplicate
flag and packet identifier are those of the publication; the topic field holds the filter. -/
def forwarded (f : Str) (m : Message) : Packet :=
  .publish ⟨m.dup, m.qos, false, f, m.packetId, none, m.payload⟩

/-- The subscriber keeps up: at any time at most 16 matching publications are waiting for it
(besides the `n` retained messages it is sent first). -/
def KeepsUp (cfg : AuthConfig) (srv : Server) (c : Nat) (f : Str) (n : Nat) (es : List Event) : Prop :=
  ∀ k, (matching f (published cfg srv (es.take k))).length ≤
    16 + ((srv.delivered cfg c f (es.take k)).length - n)

/-! ## What waits for a subscriber -/

/-- What waits for a subscriber: the retained messages it is given first, and the messages published since. -/
structure Mailbox where
  retained : List Message
  live : List Message

/-- A message comes in.  There is room for sixteen; if they are taken, the oldest message is dropped. -/
def Mailbox.put (b : Mailbox) (m : Message) : Mailbox :=
  { b with live := (if b.live.length < 16 then b.live else b.live.tail) ++ [m] }

/-- The message the subscriber is sent next, and what is left. -/
def Mailbox.take : Mailbox → Option Message × Mailbox
  | ⟨m :: ms, live⟩ => (some m, ⟨ms, live⟩)
  | ⟨[], m :: ms⟩ => (some m, ⟨[], ms⟩)
  | ⟨[], []⟩ => (none, ⟨[], []⟩)

/-- The messages that are taken out of the mailbox `b` of the subscription `f` of connection `c` during a
history: the matching publications are put in, and one message is taken out whenever the connection sends the
next message of the subscription. -/
noncomputable def drawn (cfg : AuthConfig) (c : Nat) (f : Str) : Server → Mailbox → List Event → List Message
  | _, _, [] => []
  | srv, b, e :: es =>
    let b := (matching f (published cfg srv [e])).foldl Mailbox.put b
    if e = .deliver c f then b.take.1.toList ++ drawn cfg c f (srv.step cfg e).1 b.take.2 es
    else drawn cfg c f (srv.step cfg e).1 b es

/-! ## Messages in flight -/

/-- The record of a PUBLISH sent with QoS 1 or 2 and packet identifier `id`. -/
def recordOf (id : UInt16) : Packet → Option Inflight
  | .publish p => if p.packetId = some id ∧ (p.qos = .atLeastOnce ∨ p.qos = .exactlyOnce) then
      some ⟨id, p.topicName, p.payload, p.qos, p.dup⟩ else none
  | _ => none

/-- What is unacknowledged under packet identifier `id` of client `cid` after an event, given what
was before (`old`): a QoS 1 or 2 message just sent to the client under that identifier; nothing if the
client just acknowledged it by PUBACK or PUBCOMP; otherwise what was before. -/
def inflightAfter (cfg : AuthConfig) (srv : Server) (cid : Str) (id : UInt16) (old : Option Inflight) :
    Event → Option Inflight
  | .deliver c f =>
    match (srv.step cfg (.deliver c f)).2.sent with
    | p :: _ => if srv.nameOf c = some cid ∧ (recordOf id p).isSome then recordOf id p else old
    | [] => old
  | .recv c (.pubAck a) => if srv.nameOf c = some cid ∧ a.packetId = id then none else old
  | .recv c (.pubComp a) => if srv.nameOf c = some cid ∧ a.packetId = id then none else old
  | _ => old

/-- What is unacknowledged under packet identifier `id` of client `cid` after a history, given what
was before. -/
def unacknowledged (cfg : AuthConfig) (cid : Str) (id : UInt16) : Server → Option Inflight →
    List Event → Option Inflight
  | _, old, [] => old
  | srv, old, e :: es =>
    unacknowledged cfg cid id (srv.step cfg e).1 (inflightAfter cfg srv cid id old e) es

/-- A message in flight sent again: the same packet, marked as duplicate. -/
def resent (i : Inflight) : Packet :=
  .publish ⟨true, i.qos, false, i.topic, some i.packetId, none, i.payload⟩

end Spec

end Mercurio
