import Verif.Model.Connection

/-!
# The client (mercurio-client/src/client.rs, options.rs, event.rs)

One step of `Client.step` is one turn of the event loop (or one `recv` call of the application).
Simplifications: a connection is established already (see `Verif.Model.Dial`); a write either succeeds as a whole
or fails (then the bytes are not counted as sent); the ticks of the ping timer are inputs (their
times are modelled in `Verif.Model.KeepAlive`); the application keeps its `MqttClient` (see `Verif.Model.ClientQueue` for one that does not), and its calls
arrive in the order of the command queue.
-/

namespace Mercurio

/-- `Will`, mercurio-client/src/options.rs:6-11. -/
structure ClientWill where
  topic : Str
  payload : Buf
  qos : QoS := .atMostOnce
  retain : Bool := false
  deriving DecidableEq, Repr

/-- `ConnectOptions`, mercurio-client/src/options.rs:48-78, with the defaults of `new`.  Host, port,
connect timeout and TLS options are added in `Verif.Model.ClientOptions`. -/
structure ConnectOptions where
  clientId : Option Str := none
  username : Option Str := none
  password : Option Buf := none
  keepAlive : UInt16 := 60
  cleanStart : Bool := true
  will : Option ClientWill := none
  protocolVersion : ProtocolVersion := .v5
  deriving DecidableEq, Repr

/-- `build_connect_packet`, mercurio-client/src/client.rs:177-207. -/
def buildConnect (o : ConnectOptions) : ConnectPacket :=
  { protocolVersion := o.protocolVersion
    flags :=
      { userName := o.username.isSome
        password := o.password.isSome
        willRetain := (o.will.map ClientWill.retain).getD false
        willQos := (o.will.map ClientWill.qos).getD .atMostOnce
        willFlag := o.will.isSome
        cleanStart := o.cleanStart }
    keepalive := o.keepAlive
    properties := none
    payload :=
      { clientId := o.clientId.getD []
        willProperties := o.will.map fun _ => {}
        willTopic := o.will.map ClientWill.topic
        willPayload := o.will.map ClientWill.payload
        userName := o.username
        password := o.password } }

/-- `ClientError`, mercurio-client/src/error.rs:6-42, without the texts.  `closed` stands for
`SendError` and `Disconnected`: the event loop is gone. -/
inductive ClientError where
  | io
  | connectionFailed
  | refused (r : ReasonCode)
  | protocol
  | packet (e : Err)
  | timeout
  | closed
  | tls
  deriving DecidableEq, Repr

/-- What the client gets while waiting for the CONNACK. -/
inductive ConnectReply where
  | timeout
  | read (r : ReadOut)
  deriving DecidableEq, Repr

/-- Result of the handshake: the client id and keep-alive, an error, or a panic of the reader. -/
inductive Handshake where
  | connected (clientId : Str) (keepAlive : UInt16)
  | failed (e : ClientError)
  | panicked
  deriving DecidableEq, Repr

/-- `perform_connect` after CONNECT was written, mercurio-client/src/client.rs:142-174. -/
def performConnect (o : ConnectOptions) : ConnectReply → Handshake
  | .timeout => .failed .timeout
  | .read .panicked => .panicked
  | .read (.error .io) => .failed .io
  | .read (.error e) => .failed (.packet e)
  | .read .closed => .failed .connectionFailed
  | .read (.packet (.connAck ack)) =>
    if ack.reasonCode ≠ .success then .failed (.refused ack.reasonCode)
    else
      .connected ((ack.properties.bind ConnAckProperties.assignedClientId).getD (o.clientId.getD []))
        o.keepAlive
  | .read (.packet _) => .failed .protocol

/-- `DisconnectReason`, mercurio-client/src/event.rs:21-36 (`ProtocolError` is never produced). -/
inductive DisconnectReason where
  | clientInitiated
  | serverInitiated
  | connectionLost
  | keepAliveTimeout
  deriving DecidableEq, Repr

/-- `Event`, mercurio-client/src/event.rs:6-17. -/
inductive ClientEvent where
  | message (topic : Str) (payload : Buf) (qos : QoS) (retain : Bool)
  | disconnected (r : DisconnectReason)
  deriving DecidableEq, Repr

/-- What the event loop wakes up for, and the application's `recv` call.  `ok` says whether the
socket takes what is written in this turn. -/
inductive ClientIn where
  /-- `read_packet` returned -/
  | read (r : ReadOut) (ok : Bool)
  | publish (topic : Str) (payload : Buf) (qos : QoS) (retain : Bool) (ok : Bool)
  | subscribe (topics : List (Str × QoS)) (ok : Bool)
  | unsubscribe (topics : List Str) (ok : Bool)
  | disconnect (ok : Bool)
  /-- the ping timer ticked -/
  | tick (ok : Bool)
  /-- the application takes the next event -/
  | recv
  deriving DecidableEq, Repr

/-- What a call of the client's interface returns. -/
inductive CallResult where
  | published (id : Option UInt16)
  /-- topic, requested QoS, success -/
  | subscribed (results : List (Str × QoS × Bool))
  | done
  | failed (e : ClientError)
  deriving DecidableEq, Repr

/-- The event loop of a connected client (mercurio-client/src/client.rs:210-228). -/
structure Client where
  /-- `packet_id_counter` -/
  counter : UInt16 := 1
  running : Bool := true
  /-- the event channel (`mpsc::channel(256)`, line 74) followed by the event whose `send` is
  waiting for room, if there are more than 256 -/
  pending : List ClientEvent := []
  deriving DecidableEq, Repr

/-- What one turn does to the outside. -/
structure ClientOut where
  /-- the packet written to the socket -/
  sent : Option Packet := none
  /-- the result of the application's call -/
  result : Option CallResult := none
  /-- the event `recv` returned -/
  event : Option ClientEvent := none
  deriving DecidableEq, Repr

/-- Capacity of the event channel, mercurio-client/src/client.rs:74. -/
def eventCapacity : Nat := 256

namespace Client

/-- The loop is waiting in `event_tx.send(..).await` for room in the event channel. -/
def blocked (c : Client) : Prop := eventCapacity < c.pending.length

instance (c : Client) : Decidable c.blocked := inferInstanceAs (Decidable (_ < _))

/-- `event_tx.send(e).await`. -/
def emit (c : Client) (e : ClientEvent) : Client := { c with pending := c.pending ++ [e] }

/-- `connection.write_packet(p)`, mercurio-client/src/connection.rs:55-61: written, refused by the
socket, or a panic of the encoder. -/
def write (p : Packet) (ok : Bool) : Res Bool :=
  match p.encode with
  | .ok _ => .ok ok
  | .err e => .err e
  | .panic => .panic

/-- A panic ends the task that runs the loop. -/
def crash (c : Client) : Client × ClientOut := ({ c with running := false }, {})

/-- `handle_incoming_packet`, mercurio-client/src/client.rs:323-381.  An error is only logged
(lines 236-242). -/
def incoming (c : Client) (p : Packet) (ok : Bool) : Client × ClientOut :=
  match p with
  | .publish p =>
    let ev := ClientEvent.message p.topicName (p.payload.getD []) p.qos p.retain
    match p.qos, p.packetId with
    | .atLeastOnce, some id =>
      let ack := Packet.pubAck { packetId := id, reason := .success, properties := none }
      match write ack ok with
      | .ok true => (c.emit ev, { sent := some ack })
      | .ok false | .err _ => (c, {})
      | .panic => c.crash
    | _, _ => (c.emit ev, {})
  | .disconnect _ => (c.emit (.disconnected .serverInitiated), {})
  | _ => (c, {})

/-- Write a packet on behalf of a call and return the call's result; the call fails if the write does. -/
def call (c : Client) (p : Packet) (ok : Bool) (r : CallResult) : Client × ClientOut :=
  match write p ok with
  | .ok true => (c, { sent := some p, result := some r })
  | .ok false => (c, { result := some (.failed .io) })
  | .err e => (c, { result := some (.failed (.packet e)) })
  | .panic => ({ c with running := false }, { result := some (.failed .closed) })

/-- `handle_publish`, mercurio-client/src/client.rs:384-417 (`fetch_add` wraps around). -/
def doPublish (c : Client) (topic : Str) (payload : Buf) (qos : QoS) (retain ok : Bool) :
    Client × ClientOut :=
  let id := if qos ≠ .atMostOnce then some c.counter else none
  let c := if qos ≠ .atMostOnce then { c with counter := c.counter + 1 } else c
  c.call (.publish { dup := false, qos := qos, retain := retain, topicName := topic, packetId := id
                     properties := none, payload := some payload }) ok (.published id)

/-- `handle_subscribe`, mercurio-client/src/client.rs:420-461. -/
def doSubscribe (c : Client) (topics : List (Str × QoS)) (ok : Bool) : Client × ClientOut :=
  let id := c.counter
  let c := { c with counter := c.counter + 1 }
  c.call (.subscribe { packetId := id, properties := none
                       payload := topics.map fun t =>
                        { topicFilter := t.1, opts := { qos := t.2 } } }) ok
    (.subscribed (topics.map fun t => (t.1, t.2, true)))

/-- `handle_unsubscribe`, mercurio-client/src/client.rs:464-493. -/
def doUnsubscribe (c : Client) (topics : List Str) (ok : Bool) : Client × ClientOut :=
  let id := c.counter
  let c := { c with counter := c.counter + 1 }
  c.call (.unsubscribe { packetId := id, properties := none, payload := topics }) ok .done

/-- `handle_disconnect` and what follows it, mercurio-client/src/client.rs:292-299, 496-510. -/
def doDisconnect (c : Client) (ok : Bool) : Client × ClientOut :=
  let (c, out) := c.call (.disconnect { reason := .normalDisconnection, properties := none }) ok .done
  ({ c.emit (.disconnected .clientInitiated) with running := false }, out)

/-- The loop is over, mercurio-client/src/client.rs:244-258, 310-313. -/
def stop (c : Client) (r : DisconnectReason) : Client × ClientOut :=
  ({ c.emit (.disconnected r) with running := false }, {})

/-- A turn of the loop while it runs and is not waiting, mercurio-client/src/client.rs:230-317. -/
def turn (c : Client) : ClientIn → Client × ClientOut
  | .read (.packet p) ok => c.incoming p ok
  | .read .closed _ => c.stop .serverInitiated
  | .read (.error _) _ => c.stop .connectionLost
  | .read .panicked _ => c.crash
  | .publish t pl q r ok => c.doPublish t pl q r ok
  | .subscribe l ok => c.doSubscribe l ok
  | .unsubscribe l ok => c.doUnsubscribe l ok
  | .disconnect ok => c.doDisconnect ok
  | .tick ok =>
    match write .pingReq ok with
    | .ok true => (c, { sent := some .pingReq })
    | .ok false | .err _ => c.stop .keepAliveTimeout
    | .panic => c.crash
  | .recv => (c, {})

/-- After the loop has ended calls fail, mercurio-client/src/client.rs:530-583. -/
def refuse (c : Client) : ClientIn → Client × ClientOut
  | .publish .. | .subscribe .. | .unsubscribe .. | .disconnect .. =>
    (c, { result := some (.failed .closed) })
  | _ => (c, {})

/-- `recv` of the application, mercurio-client/src/client.rs:588-591. -/
def take (c : Client) : Client × ClientOut :=
  match c.pending with
  | [] => (c, {})
  | e :: es => ({ c with pending := es }, { event := some e })

/-- One turn of `event_loop`, mercurio-client/src/client.rs:230-317, or one `recv` of the application
(lines 588-591).  While the loop waits for room in the event channel nothing else happens: calls wait
in the command queue, bytes in the socket, ticks are late. -/
def step (c : Client) (i : ClientIn) : Client × ClientOut :=
  if i = .recv then c.take
  else if c.blocked then (c, {})
  else if c.running then c.turn i
  else c.refuse i

/-- A run of the client: final state and the outputs of all steps. -/
def run (c : Client) : List ClientIn → Client × List ClientOut
  | [] => (c, [])
  | i :: is =>
    let (c, o) := c.step i
    let (c, os) := c.run is
    (c, o :: os)

end Client

end Mercurio
