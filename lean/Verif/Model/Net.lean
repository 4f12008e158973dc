import Verif.Model.Server
import Verif.Model.Connection

/-!
# The server on byte streams

Models the listener and the handlers of mercurio-server/src/server.rs together with
mercurio-server/src/connection.rs: connections are accepted, bytes arrive in chunks, packets are cut
out of the read buffer and processed, and the bytes of the answers are written.
Simplifications: those of `Verif.Model.Server`; a `write_packet` writes all bytes or the event `close`
follows; connections have numbers, and a number is never used again (it stands for the socket); the
memory for buffers does not run out.
-/

namespace Mercurio

/-- One accepted connection: `Connection` (mercurio-server/src/connection.rs:18-27) and the state of
the task that handles it (mercurio-server/src/server.rs:139-165).  `rcvd` and `sent` are bookkeeping:
all bytes read from and written to the socket so far. -/
structure Wire where
  /-- `read_buffer` -/
  buf : Buf := []
  /-- the first packet has been read -/
  begun : Bool := false
  /-- the keep-alive of the CONNECT (mercurio-server/src/server.rs:260), 0 before it has been read -/
  keepalive : UInt16 := 0
  /-- the task has not ended -/
  running : Bool := true
  rcvd : Buf := []
  sent : Buf := []
  deriving DecidableEq

/-- The server process. -/
structure Net where
  server : Server
  wires : Map Nat Wire

/-- What can happen. -/
inductive NetEvent where
  /-- a client connects (mercurio-server/src/server.rs:118-165) -/
  | accept (c : Nat)
  /-- the `read_buf` of the handler returns; no bytes: end of stream
  (mercurio-server/src/connection.rs:61-67) -/
  | data (c : Nat) (bytes : Buf)
  /-- `read_packet` finds what it needs in the buffer (connection.rs:57-59) and the handler acts on it;
  `uuid` and `written` as in `Event.first` -/
  | turn (c : Nat) (uuid : Str) (written : Bool)
  /-- the handler sends the next message of a subscription (mercurio-server/src/server.rs:401-425) -/
  | deliver (c : Nat) (filter : Str)
  /-- keep-alive timeout, shutdown or an I/O error (mercurio-server/src/server.rs:332, 428-441) -/
  | close (c : Nat)
  deriving DecidableEq

/-- `write_packet` for each packet (mercurio-server/src/connection.rs:71-81): the bytes written, and
whether every packet could be encoded (an encoder can panic, see `Verif.Model.Packets`). -/
def writePackets : List Packet → Buf × Bool
  | [] => ([], true)
  | p :: ps =>
    match p.encode with
    | .ok b => (b ++ (writePackets ps).1, (writePackets ps).2)
    | _ => ([], false)

namespace Net

/-- The server before the first connection, mercurio-server/src/server.rs:76-113. -/
def init : Net := ⟨Server.init, []⟩

/-- Whether the keep-alive deadline can be set again after an event: it is after a packet has been processed
(mercurio-server/src/server.rs:392), and for keep-alive 0 this overflows and panics (see `Timer.packet` in
`Verif.Model.KeepAlive`; simplification: the monotonic clock has reached one second).  After a DISCONNECT or
an error the handler does not get there, but then there is nothing left to end. -/
def resets (w : Wire) : Event → Bool
  | .recv _ _ => w.keepalive ≠ 0
  | _ => true

/-- The keep-alive of a CONNECT (mercurio-server/src/server.rs:260). -/
def keepaliveOf : Packet → UInt16
  | .connect p => p.keepalive
  | _ => 0

/-- The handler of `c` acts on an event and writes what is to be sent; a panic of an encoder or of the timer
ends the task (mercurio-server/src/server.rs:216-442). -/
def act (cfg : AuthConfig) (n : Net) (c : Nat) (w : Wire) (e : Event) : Net :=
  let r := n.server.step cfg e
  let out := writePackets r.2.sent
  let srv := if out.2 && resets w e then r.1 else (r.1.step cfg (.abort c)).1
  ⟨srv, n.wires.insert c { w with sent := w.sent ++ out.1, running := (srv.conns.get c).isSome }⟩

/-- Act on a connection whose task has not ended; otherwise nothing happens. -/
def onWire (n : Net) (c : Nat) (f : Wire → Net) : Net :=
  match n.wires.get c with
  | none => n
  | some w => if w.running then f w else n

/-- One event.  `data`: the socket is only read when the buffer does not hold a complete packet
(mercurio-server/src/connection.rs:55-69).  `turn`: the first packet goes to `Listener::handle_connection`
(mercurio-server/src/server.rs:170-190), the others to `Handler::handle_connection`
(server.rs:331-398); an error of `read_packet` ends the connection (server.rs:189, 332). -/
def step (m : Mode) (cfg : AuthConfig) (n : Net) : NetEvent → Net
  | .accept c =>
    match n.wires.get c with
    | some _ => n
    | none => ⟨n.server, n.wires.insert c {}⟩
  | .data c bytes => n.onWire c fun w =>
    match parsePacket m w.buf with
    | .needMore =>
      if bytes = [] then n.act cfg c w (.close c)
      else ⟨n.server, n.wires.insert c { w with buf := w.buf ++ bytes, rcvd := w.rcvd ++ bytes }⟩
    | _ => n
  | .turn c uuid written => n.onWire c fun w =>
    match parsePacket m w.buf with
    | .needMore => n
    | .packet p rest =>
      n.act cfg c { w with buf := rest, begun := true, keepalive := if w.begun then w.keepalive else keepaliveOf p }
        (if w.begun then .recv c p else .first c p uuid written)
    | .error _ => n.act cfg c w (.close c)
    | .panicked => n.act cfg c w (.abort c)
  | .deliver c f => n.onWire c fun w => if w.begun then n.act cfg c w (.deliver c f) else n
  | .close c => n.onWire c fun w => n.act cfg c w (.close c)

/-- The server after a history (mercurio-server/src/server.rs:74-125). -/
def run (m : Mode) (cfg : AuthConfig) (n : Net) (es : List NetEvent) : Net :=
  es.foldl (fun n e => n.step m cfg e) n

end Net

end Mercurio
