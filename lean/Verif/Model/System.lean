import Verif.Model.Net
import Verif.Model.Client

/-!
# The whole system: a server and its clients

Puts `Verif.Model.Net` (the server on byte streams) together with any number of instances of the
built-in client (`Verif.Model.Client`), each connected to the server by two byte streams.  What one
side writes, the other side can read, later, in pieces of any size, in order.
Simplifications: those of the two models; bytes written before a connection ends can be lost (the
reader need not get to them), but never changed, repeated or reordered (TCP); TLS passes bytes on
unchanged.
-/

namespace Mercurio

/-- One round of the client's `read_packet` on its buffer, mercurio-client/src/connection.rs:69-86, 99-103:
`needMore` means that the socket is read next.  (`clientReadPacket` is the loop around it.) -/
def clientParse (m : Mode) (v : ProtocolVersion) (buf : Buf) : ParseOut :=
  match buf with
  | [] => .needMore
  | _ :: _ =>
    match parseWithVersion m v buf with
    | .ok (p, _) =>
      match p.encode with
      | .ok bytes => if bytes.length ≤ buf.length then .packet p (buf.drop bytes.length) else .panicked
      | .err e => .error e
      | .panic => .panicked
    | .err .incomplete => .needMore
    | .err e => .error e
    | .panic => .panicked

/-- How far a client is: `MqttClient::connect` waits for the CONNACK
(mercurio-client/src/client.rs:125-174), has returned a client whose event loop is the given one
(lines 104-119), or has failed (`none`: panicked). -/
inductive Phase where
  | connecting
  | connected (l : Client)
  | failed (e : Option ClientError)
  deriving DecidableEq

/-- A client and its end of the connection (mercurio-client/src/client.rs:36-42, 60-122;
mercurio-client/src/connection.rs:16-21).  `wrote`, `got` and `history` are bookkeeping: all bytes
written to and read from the socket so far, and all turns of the event loop and `recv` calls with what
came of them. -/
structure Peer where
  opts : ConnectOptions
  phase : Phase := .connecting
  /-- `read_buffer` -/
  buf : Buf := []
  wrote : Buf
  got : Buf := []
  history : List (ClientIn × ClientOut) := []

namespace Peer

/-- The client still uses its socket; it is dropped when `connect` fails or the event loop ends
(mercurio-client/src/client.rs:60-122, 210-320). -/
def socketOpen (p : Peer) : Bool :=
  match p.phase with
  | .connecting => true
  | .connected l => l.running
  | .failed _ => false

/-- The client is in `read_packet`: it is waiting for the CONNACK or its event loop is running and not
stuck in an `event_tx.send` (mercurio-client/src/client.rs:145-151, 230-258). -/
def reading (p : Peer) : Bool :=
  match p.phase with
  | .connecting => true
  | .connected l => l.running && !decide l.blocked
  | .failed _ => false

/-- A turn of the event loop or a call of the application, and what it writes to the socket
(mercurio-client/src/client.rs:230-317). -/
def act (p : Peer) (l : Client) (i : ClientIn) : Peer :=
  let r := l.step i
  let bytes := match r.2.sent with
    | some q => match q.encode with
      | .ok b => b
      | _ => []
    | none => []
  { p with phase := .connected r.1, wrote := p.wrote ++ bytes, history := p.history ++ [(i, r.2)] }

/-- `read_packet` returns (mercurio-client/src/client.rs:145-171 while connecting, 231-258 later). -/
def receive (p : Peer) (r : ReadOut) (ok : Bool) : Peer :=
  match p.phase with
  | .connecting =>
    { p with phase := match performConnect p.opts (.read r) with
        | .connected _ _ => .connected {}
        | .failed e => .failed (some e)
        | .panicked => .failed none }
  | .connected l => p.act l (.read r ok)
  | .failed _ => p

end Peer

/-- The server and all clients that ever connected; client `c` is at the other end of the server's
connection `c`. -/
structure System where
  net : Net
  peers : Map Nat Peer

/-- What can happen. -/
inductive SysEvent where
  /-- client `c` opens a connection and writes its CONNECT (mercurio-client/src/client.rs:60-72, 125-140) -/
  | connect (c : Nat) (o : ConnectOptions)
  /-- the server's read on connection `c` returns up to `n` bytes, or the end of the stream if the
  client has closed the socket and all was read (mercurio-server/src/connection.rs:61-67) -/
  | serverRead (c : Nat) (n : Nat)
  /-- the server acts on a packet in its buffer, see `NetEvent.turn` -/
  | serverTurn (c : Nat) (uuid : Str) (written : Bool)
  /-- the server sends the next message of a subscription, see `NetEvent.deliver` -/
  | deliver (c : Nat) (filter : Str)
  /-- the server gives up connection `c`, see `NetEvent.close` -/
  | serverClose (c : Nat)
  /-- the client's read returns up to `n` bytes, or the end of the stream if the server has closed the
  socket and all was read (mercurio-client/src/connection.rs:88-95) -/
  | clientRead (c : Nat) (n : Nat)
  /-- `read_packet` of the client returns a packet or an error; `ok`: see `ClientIn` -/
  | clientTurn (c : Nat) (ok : Bool)
  /-- the client's read fails (mercurio-client/src/connection.rs:90) -/
  | clientError (c : Nat)
  /-- no CONNACK in time (mercurio-client/src/client.rs:145-150) -/
  | timeout (c : Nat)
  /-- the application calls its client, or the ping timer ticks -/
  | app (c : Nat) (i : ClientIn)
  deriving DecidableEq

namespace System

/-- A new server and no clients (mercurio-server/src/server.rs:76-113). -/
def init : System := ⟨Net.init, []⟩

/-- Act on client `c`, if there is one. -/
def onPeer (σ : System) (c : Nat) (f : Peer → System) : System :=
  match σ.peers.get c with
  | none => σ
  | some p => f p

/-- Change client `c`. -/
def put (σ : System) (c : Nat) (p : Peer) : System := { σ with peers := σ.peers.insert c p }

/-- The bytes client `c` has written and the server has not read yet. -/
def upstream (σ : System) (c : Nat) (p : Peer) : Buf :=
  match σ.net.wires.get c with
  | none => []
  | some w => p.wrote.drop w.rcvd.length

/-- The bytes the server has written to client `c` and the client has not read yet. -/
def downstream (σ : System) (c : Nat) (p : Peer) : Buf :=
  match σ.net.wires.get c with
  | none => []
  | some w => w.sent.drop p.got.length

/-- The server has closed connection `c`. -/
def ended (σ : System) (c : Nat) : Bool :=
  match σ.net.wires.get c with
  | none => false
  | some w => !w.running

/-- One event.  Events that are not possible change nothing.  A read of the client returns at most
4096 bytes (mercurio-client/src/connection.rs:89); no read of the server returns more than 2^31 bytes
(the limit of the operating system is below that).  A CONNECT that cannot be encoded panics before
anything is written; then there is no connection here. -/
def step (m : Mode) (cfg : AuthConfig) (σ : System) : SysEvent → System
  | .connect c o =>
    match σ.peers.get c, (Packet.connect (buildConnect o)).encode with
    | none, .ok b => ⟨σ.net.step m cfg (.accept c), σ.peers.insert c { opts := o, wrote := b }⟩
    | _, _ => σ
  | .serverRead c n => σ.onPeer c fun p =>
    match (σ.upstream c p).take (min n (2 ^ 31)) with
    | [] =>
      if (σ.upstream c p).isEmpty && !p.socketOpen then { σ with net := σ.net.step m cfg (.data c []) }
      else σ
    | b :: bs => { σ with net := σ.net.step m cfg (.data c (b :: bs)) }
  | .serverTurn c uuid written => { σ with net := σ.net.step m cfg (.turn c uuid written) }
  | .deliver c f => { σ with net := σ.net.step m cfg (.deliver c f) }
  | .serverClose c => { σ with net := σ.net.step m cfg (.close c) }
  | .clientRead c n => σ.onPeer c fun p =>
    if p.reading && clientParse m p.opts.protocolVersion p.buf == .needMore then
      match (σ.downstream c p).take (min n 4096) with
      | [] => if (σ.downstream c p).isEmpty && σ.ended c then σ.put c (p.receive .closed true) else σ
      | b :: bs => σ.put c { p with buf := p.buf ++ b :: bs, got := p.got ++ b :: bs }
    else σ
  | .clientTurn c ok => σ.onPeer c fun p =>
    if p.reading then
      match clientParse m p.opts.protocolVersion p.buf with
      | .needMore => σ
      | .packet q rest => σ.put c ({ p with buf := rest }.receive (.packet q) ok)
      | .error e => σ.put c (p.receive (.error e) ok)
      | .panicked => σ.put c (p.receive .panicked ok)
    else σ
  | .clientError c => σ.onPeer c fun p =>
    if p.reading then σ.put c (p.receive (.error .io) true) else σ
  | .timeout c => σ.onPeer c fun p =>
    match p.phase with
    | .connecting => σ.put c { p with phase := .failed (some .timeout) }
    | _ => σ
  | .app c i => σ.onPeer c fun p =>
    match p.phase, i with
    | _, .read _ _ => σ
    | .connected l, i => σ.put c (p.act l i)
    | _, _ => σ

/-- The system after a history (mercurio-server/src/server.rs:74-125, mercurio-client/src/client.rs:60-122). -/
def run (m : Mode) (cfg : AuthConfig) (σ : System) (es : List SysEvent) : System :=
  es.foldl (fun σ e => σ.step m cfg e) σ

end System

end Mercurio
