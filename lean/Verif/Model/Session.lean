import Verif.Model.Storage
import Verif.Model.Auth
import Verif.Model.Packets

/-!
# Sessions

Models mercurio-server/src/session.rs: the state of a session and the handlers for incoming and
outgoing packets.  Handlers are functions of the session and of the world they act on.
Simplification: each handler runs at once (the session lock is held, or taken again, across its
awaits; interleaved broker calls are the subject of `Verif.Model.Race`); storage calls succeed.
-/

namespace Mercurio

/-- Who caused a call on the broker (bookkeeping, not in the code). -/
inductive Source where
  /-- a PUBLISH packet received on connection `c` -/
  | client (c : Nat)
  /-- the end of connection `c` -/
  | will (c : Nat)
  deriving DecidableEq, Repr

/-- A call of `Broker::publish` or `Broker::subscribe` (mercurio-server/src/broker.rs:31-69). -/
inductive Call where
  | publish (src : Source) (topic : Str) (m : Message)
  | subscribe (filter : Str)
  /-- the process is restarted (all channels are gone) -/
  | restart
  deriving DecidableEq, Repr

/-- The broker with its storage, and the list of all calls made on it so far.  The list is
bookkeeping: nothing reads it, and the functions below are the only ones that change it. -/
structure World where
  broker : Broker
  log : List Call

namespace World

/-- `broker.publish(topic, message)`, mercurio-server/src/broker.rs:45-69. -/
def publish (w : World) (src : Source) (topic : Str) (m : Message) : World :=
  ⟨w.broker.publish topic m, w.log ++ [.publish src topic m]⟩

/-- `broker.subscribe(filter)`, mercurio-server/src/broker.rs:31-42. -/
def subscribe (w : World) (filter : Str) : World × Receiver × List Message :=
  let r := w.broker.subscribe filter
  (⟨r.1, w.log ++ [.subscribe filter]⟩, r.2)

/-- A new process with the same storage (mercurio-server/src/topic_tree.rs:51-59). -/
def restart (w : World) : World := ⟨⟨TopicTree.new, w.broker.store⟩, w.log ++ [.restart]⟩

/-- A change of the storage (mercurio-server/src/session_manager.rs:80-228). -/
def mapStore (w : World) (f : MemoryStore → MemoryStore) : World :=
  { w with broker := { w.broker with store := f w.broker.store } }

end World

/-- The stream of one subscription: retained messages not yet given out, then a broadcast receiver
(mercurio-server/src/session.rs:405-421, 207-224). -/
structure SubStream where
  retained : List Message
  rx : Receiver
  deriving DecidableEq, Repr

/-- Everything sent so far on the channel a receiver belongs to
(mercurio-server/src/topic_tree.rs:10-13). -/
def channelOf (t : TopicTree Message) (r : Receiver) : List Message :=
  ((TopicNode.find t r.path).map TopicNode.sent).getD []

/-- The receive loop of the stream: a `Lagged` error is skipped and `recv` called again
(mercurio-server/src/session.rs:411-420).  Two rounds suffice: after `Lagged` the receiver is within
the channel's capacity. -/
def liveNext (sent : List Message) (next : Nat) : Option (Message × Nat) :=
  match Receiver.recv sent next with
  | (.value m, n) => some (m, n)
  | (.empty, _) => none
  | (.lagged _, n) =>
    match Receiver.recv sent n with
    | (.value m, n') => some (m, n')
    | _ => none

/-- The next item of a subscription stream, `none` if it has to wait
(mercurio-server/src/session.rs:405-421, 207-224). -/
def SubStream.poll (t : TopicTree Message) (s : SubStream) : Option (Message × SubStream) :=
  match s.retained with
  | m :: rest => some (m, { s with retained := rest })
  | [] => (liveNext (channelOf t s.rx) s.rx.next).map fun r =>
      (r.1, { s with rx := { s.rx with next := r.2 } })

/-- `WillMessage::from_connect_packet`, mercurio-server/src/session.rs:56-70.  `WillMessage` has the
fields of `StoredWillMessage` (lines 46-52), and the two conversions (73-93) copy them. -/
def willOfConnect (p : ConnectPacket) : Option StoredWill :=
  if p.flags.willFlag then
    match p.payload.willTopic with
    | none => none
    | some t => some ⟨t, p.payload.willPayload.getD [], p.flags.willQos, p.flags.willRetain⟩
  else none

/-- `State` of a session, mercurio-server/src/session.rs:107-121.
`StreamMap` is a map from filters to streams. -/
structure Session where
  connect : ConnectPacket
  clientId : Str
  subscriptions : Map Str SubStream
  unacked : Map UInt16 PublishPacket
  pubrecs : Map UInt16 AckPacket
  will : Option StoredWill
  authMethod : Option Str
  deriving DecidableEq

/-- What a handler leaves behind, and its `Result`. -/
structure Handled where
  session : Session
  world : World
  result : Except Err (Option Packet)

namespace Session

/-- `Session::new`, mercurio-server/src/session.rs:136-153. -/
def new (p : ConnectPacket) : Session := ⟨p, p.payload.clientId, [], [], [], willOfConnect p, none⟩

/-- `set_connect_packet`, mercurio-server/src/session.rs:155-160. -/
def setConnect (s : Session) (p : ConnectPacket) : Session :=
  { s with clientId := p.payload.clientId, will := willOfConnect p, connect := p }

/-- `get_subscription_filters`, mercurio-server/src/session.rs:194-197. -/
def filters (s : Session) : List Str := s.subscriptions.keys

/-- Subscribe to one filter: the loop body shared by `handle_subscribe`
(mercurio-server/src/session.rs:401-427) and `restore_subscriptions` (208-228). -/
def addSubscription (s : Session) (w : World) (f : Str) : Session × World :=
  let r := w.subscribe f
  ({ s with subscriptions := s.subscriptions.insert f ⟨r.2.2, r.2.1⟩ }, r.1)

/-- `restore_subscriptions`, mercurio-server/src/session.rs:201-231. -/
def restoreSubscriptions (s : Session) (w : World) : List Str → Session × World
  | [] => (s, w)
  | f :: fs =>
    let r := s.addSubscription w f
    restoreSubscriptions r.1 r.2 fs

/-- `begin` without the write, mercurio-server/src/session.rs:233-265: the acknowledgement and the
session, which gets the generated identifier `uuid` if the client sent an empty one. -/
def begin (s : Session) (uuid : Str) (resume : Bool) : Session × ConnAckPacket :=
  let v := s.connect.protocolVersion
  if s.connect.payload.clientId.isEmpty then
    ({ s with
        connect := { s.connect with payload := { s.connect.payload with clientId := uuid } }
        clientId := uuid },
     { protocolVersion := v, sessionPresent := resume,
       properties := if v.supportsProperties then some { assignedClientId := some uuid } else none })
  else (s, { protocolVersion := v, sessionPresent := resume })

/-- The response of `handle_publish`, mercurio-server/src/session.rs:288-318. -/
def publishResponse (p : PublishPacket) : Except Err (Option Packet) :=
  match p.qos, p.packetId with
  | .atMostOnce, _ => .ok none
  | .atLeastOnce, some id => .ok (some (.pubAck { packetId := id }))
  | .exactlyOnce, some id => .ok (some (.pubRec { packetId := id }))
  | _, _ => .error (.mqtt .protocolError)

/-- The QoS 2 bookkeeping of `handle_publish`, mercurio-server/src/session.rs:303-306. -/
def notePublish (s : Session) (p : PublishPacket) : Session :=
  match p.qos, p.packetId with
  | .exactlyOnce, some id => { s with unacked := s.unacked.insert id p }
  | _, _ => s

/-- The message of `handle_publish`, mercurio-server/src/session.rs:321-329. -/
def messageOf (p : PublishPacket) : Message :=
  { packetId := p.packetId, topic := p.topicName, dup := p.dup, qos := p.qos, retain := p.retain, payload := p.payload }

/-- `handle_publish`, mercurio-server/src/session.rs:278-335. -/
def handlePublish (s : Session) (w : World) (c : Nat) (p : PublishPacket) : Handled :=
  match validatePublishTopic p.topicName with
  | .error _ => ⟨s, w, .error (.mqtt .topicNameInvalid)⟩
  | .ok () => ⟨s.notePublish p, w.publish (.client c) p.topicName (messageOf p), publishResponse p⟩

/-- `handle_puback`, mercurio-server/src/session.rs:337-342. -/
def handlePubAck (s : Session) (w : World) (p : AckPacket) : Handled :=
  ⟨{ s with unacked := s.unacked.erase p.packetId }, w, .ok none⟩

/-- `handle_pubrec`, mercurio-server/src/session.rs:344-358. -/
def handlePubRec (s : Session) (w : World) (p : AckPacket) : Handled :=
  ⟨{ s with unacked := s.unacked.erase p.packetId, pubrecs := s.pubrecs.insert p.packetId p }, w,
   .ok (some (.pubRel { packetId := p.packetId }))⟩

/-- `handle_pubcomp`, mercurio-server/src/session.rs:360-365. -/
def handlePubComp (s : Session) (w : World) (p : AckPacket) : Handled :=
  ⟨{ s with pubrecs := s.pubrecs.erase p.packetId }, w, .ok none⟩

/-- `handle_pubrel`, mercurio-server/src/session.rs:367-377. -/
def handlePubRel (s : Session) (w : World) (p : AckPacket) : Handled :=
  ⟨{ s with pubrecs := s.pubrecs.erase p.packetId }, w,
   .ok (some (.pubComp { packetId := p.packetId }))⟩

/-- The loop of `handle_subscribe`, mercurio-server/src/session.rs:393-428: the session, the world
and the reason codes. -/
def subscribeLoop (s : Session) (w : World) : List Str → Session × World × List ReasonCode
  | [] => (s, w, [])
  | f :: fs =>
    match validateSubscribeFilter f with
    | .error _ =>
      let r := subscribeLoop s w fs
      (r.1, r.2.1, .topicFilterInvalid :: r.2.2)
    | .ok () =>
      let a := s.addSubscription w f
      let r := subscribeLoop a.1 a.2 fs
      (r.1, r.2.1, .grantedQoS0 :: r.2.2)

/-- `handle_subscribe`, mercurio-server/src/session.rs:379-431. -/
def handleSubscribe (s : Session) (w : World) (p : SubscribePacket) : Handled :=
  let r := s.subscribeLoop w (p.payload.map (·.topicFilter))
  ⟨r.1, r.2.1, .ok (some (.subAck
    { protocolVersion := s.connect.protocolVersion, packetId := p.packetId, payload := r.2.2 }))⟩

/-- The loop of `handle_unsubscribe`, mercurio-server/src/session.rs:445-455. -/
def unsubscribeLoop (subs : Map Str SubStream) : List Str → Map Str SubStream × List ReasonCode
  | [] => (subs, [])
  | f :: fs =>
    let code := if (subs.get f).isSome then ReasonCode.success else .noSubscriptionExisted
    let r := unsubscribeLoop (subs.erase f) fs
    (r.1, code :: r.2)

/-- `handle_unsubscribe`, mercurio-server/src/session.rs:433-458. -/
def handleUnsubscribe (s : Session) (w : World) (p : UnsubscribePacket) : Handled :=
  let r := unsubscribeLoop s.subscriptions p.payload
  ⟨{ s with subscriptions := r.1 }, w, .ok (some (.unsubAck
    { protocolVersion := s.connect.protocolVersion, packetId := p.packetId, payload := r.2 }))⟩

/-- The success answer of an AUTH exchange, mercurio-server/src/session.rs:499-502, 536-539. -/
def authSuccess : Packet := .auth { reason := .success }

/-- The challenge of an AUTH exchange, mercurio-server/src/session.rs:506-517, 543-554. -/
def authChallenge (method : Str) (data : Buf) : Packet :=
  .auth { reason := .continueAuthentication,
          properties := { authMethod := some method, authData := some data } }

/-- The `ReAuthenticate` case of `handle_auth`, mercurio-server/src/session.rs:484-521: the new
`auth_method` and the result. -/
def authStart (a : AuthManager) (current : Option Str) (p : AuthProperties) :
    Option Str × Except Err (Option Packet) :=
  match p.authMethod with
  | none => (current, .error (.mqtt .protocolError))
  | some m =>
    if a.supportsMethod m then
      match a.startAuth m p.authData with
      | .success => (none, .ok (some authSuccess))
      | .continue d => (some m, .ok (some (authChallenge m d)))
      | .failed r => (some m, .error (.mqtt r))
    else (current, .error (.mqtt .badAuthenticationMethod))

/-- The `ContinueAuthentication` case of `handle_auth`, mercurio-server/src/session.rs:522-560. -/
def authContinue (a : AuthManager) (current : Option Str) (p : AuthProperties) :
    Option Str × Except Err (Option Packet) :=
  match current, p.authData with
  | none, _ => (current, .error (.mqtt .protocolError))
  | some _, none => (current, .error (.mqtt .protocolError))
  | some m, some d =>
    match a.continueAuth m d with
    | .success => (none, .ok (some authSuccess))
    | .continue d' => (some m, .ok (some (authChallenge m d')))
    | .failed r => (none, .error (.mqtt r))

/-- `handle_auth`, mercurio-server/src/session.rs:460-565. -/
def handleAuth (s : Session) (w : World) (manager : Option AuthManager) (p : AuthPacket) : Handled :=
  match manager with
  | none => ⟨s, w, .error (.mqtt .badAuthenticationMethod)⟩
  | some a =>
    let r := match p.reason with
      | .reAuthenticate => authStart a s.authMethod p.properties
      | .continueAuthentication => authContinue a s.authMethod p.properties
      | _ => (s.authMethod, .error (.mqtt .protocolError))
    ⟨{ s with authMethod := r.1 }, w, r.2⟩

/-- `process_incoming`, mercurio-server/src/session.rs:567-590. -/
def processIncoming (s : Session) (w : World) (manager : Option AuthManager) (c : Nat) :
    Packet → Handled
  | .publish p => s.handlePublish w c p
  | .pubAck p => s.handlePubAck w p
  | .pubRec p => s.handlePubRec w p
  | .pubRel p => s.handlePubRel w p
  | .pubComp p => s.handlePubComp w p
  | .subscribe p => s.handleSubscribe w p
  | .unsubscribe p => s.handleUnsubscribe w p
  | .pingReq => ⟨s, w, .ok (some .pingResp)⟩
  | .disconnect p => ⟨s, w, .ok (some (.disconnect p))⟩
  | .auth p => s.handleAuth w manager p
  | _ => ⟨s, w, .error (.mqtt .protocolError)⟩

/-- The packet built by `process_outgoing`, mercurio-server/src/session.rs:597-605. -/
def outgoingPacket (filter : Str) (m : Message) : PublishPacket :=
  { dup := m.dup, qos := m.qos, retain := false, topicName := filter, packetId := m.packetId, payload := m.payload }

/-- The acknowledgement bookkeeping of `process_outgoing`, mercurio-server/src/session.rs:608-619;
`none` is the `unreachable!()` panic. -/
def noteOutgoing (s : Session) (p : PublishPacket) : Option Session :=
  match p.packetId with
  | none => some s
  | some id =>
    match p.qos with
    | .atMostOnce => some s
    | .atLeastOnce | .exactlyOnce => some { s with unacked := s.unacked.insert id p }
    | .invalid => none

/-- What `process_outgoing` does with the stream of one filter, mercurio-server/src/session.rs:592-625.
`StreamMap::next` picks any stream that has an item; the choice is the argument `filter`. -/
inductive Outgoing where
  /-- nothing to send for this filter -/
  | idle
  | packet (s : Session) (p : PublishPacket)
  | panicked (s : Session)

/-- `process_outgoing`, mercurio-server/src/session.rs:592-625. -/
def processOutgoing (s : Session) (t : TopicTree Message) (filter : Str) : Outgoing :=
  match s.subscriptions.get filter with
  | none => .idle
  | some st =>
    match st.poll t with
    | none => .idle
    | some (m, st') =>
      let s' := { s with subscriptions := s.subscriptions.insert filter st' }
      let p := outgoingPacket filter m
      match s'.noteOutgoing p with
      | none => .panicked s'
      | some s'' => .packet s'' p

end Session

end Mercurio
