import Verif.Model.ClientOptions
import Verif.Model.KeepAlive

/-!
# Connecting (mercurio-client/src/client.rs:58-175)

`MqttClient::connect` from the address to the CONNACK, with the time each step takes.  The network is a
parameter.  Simplifications: the steps of the client themselves take no time; bytes handed to a socket
that fails later count as handed over; what `read_packet` makes of the incoming bytes is modelled in
`Verif.Model.Connection`, here its result is part of the network.
-/

namespace Mercurio

/-- An operation on the network: how many milliseconds it takes (`none`: it never ends) and what comes
of it.  Those of mercurio-client/src/client.rs:64-69, 81-86, 138-140 and 143-147. -/
structure NetOp (α : Type) where
  takes : Option Nat
  result : α
  deriving DecidableEq, Repr

/-- What the network does during one `connect` (external). -/
structure Network where
  /-- `TcpStream::connect`, by address -/
  tcp : Str → NetOp Bool
  /-- `connector.connect` -/
  handshake : Connector → NetOp Bool
  /-- writing and flushing the CONNECT -/
  write : NetOp Bool
  /-- `read_packet` -/
  read : NetOp ReadOut

/-- `tokio::time::timeout` (external), as used in mercurio-client/src/client.rs:64-69, 81-86 and
143-147: when it returns, and what the operation gave if it ended in time.  The operation is looked at
before the clock, so one that ends with the deadline counts. -/
def withTimeout {α : Type} (now : Nat) (secs : UInt64) (op : NetOp α) : Nat × Option α :=
  let deadline := sleepUntil now (1000 * secs.toNat)
  match op.takes with
  | some t => if now + t ≤ deadline then (now + t, some op.result) else (deadline, none)
  | none => (deadline, none)

/-- What `connect` comes to; `waiting`: it never returns. -/
inductive DialResult where
  | connected (clientId : Str) (keepAlive : UInt16)
  | failed (e : ClientError)
  | panicked
  | waiting
  deriving DecidableEq, Repr

/-- What one `connect` did. -/
structure Dial where
  address : Str
  /-- the bytes handed to a stream, which one, and how the server had been checked -/
  handed : Option (StreamKind × Option Connector × Buf) := none
  result : DialResult
  /-- when it returned; if it never does, when it began to wait -/
  ended : Nat
  deriving DecidableEq, Repr

/-- The address dialled, mercurio-client/src/client.rs:60. -/
def dialAddress (host : Str) (port : UInt16) : Str := host ++ str ":" ++ str (toString port.toNat)

/-- `perform_connect`, mercurio-client/src/client.rs:128-175, on the stream of that kind, from `now`. -/
def dialSession (net : Network) (o : ClientOptions) (addr : Str) (kind : StreamKind)
    (conn : Option Connector) (now : Nat) : Dial :=
  match (Packet.connect (buildConnect o.toConnectOptions)).encode with
  | .panic => { address := addr, result := .panicked, ended := now }
  | .err e => { address := addr, result := .failed (.packet e), ended := now }
  | .ok bytes =>
    match net.write.takes with
    | none => { address := addr, handed := some (kind, conn, bytes), result := .waiting, ended := now }
    | some w =>
      if net.write.result then
        let r := withTimeout (now + w) o.connectTimeoutSecs net.read
        let reply : ConnectReply := match r.2 with
          | none => .timeout
          | some x => .read x
        { address := addr, handed := some (kind, conn, bytes), ended := r.1
          result := match performConnect o.toConnectOptions reply with
            | .connected id k => .connected id k
            | .failed e => .failed e
            | .panicked => .panicked }
      else { address := addr, handed := some (kind, conn, bytes), result := .failed .io, ended := now + w }

/-- `MqttClient::connect`, mercurio-client/src/client.rs:58-126 (the event loop it starts is
`Client`). -/
def dial (lib : Rustls) (files : PemFiles) (net : Network) (o : ClientOptions) (now : Nat) : Dial :=
  let addr := dialAddress o.host o.port
  match withTimeout now o.connectTimeoutSecs (net.tcp addr) with
  | (t, none) => { address := addr, result := .failed .timeout, ended := t }
  | (t, some false) => { address := addr, result := .failed .connectionFailed, ended := t }
  | (t, some true) =>
    if o.tls.enabled then
      match buildConnector lib files o.tls o.host with
      | none => { address := addr, result := .failed .tls, ended := t }
      | some c =>
        match withTimeout t o.connectTimeoutSecs (net.handshake c) with
        | (t', none) => { address := addr, result := .failed .timeout, ended := t' }
        | (t', some false) => { address := addr, result := .failed .tls, ended := t' }
        | (t', some true) => dialSession net o addr .encrypted (some c) t'
    else dialSession net o addr .plain none t

end Mercurio
