import Verif.Model.Packets

/-!
# Reading packets from a byte stream (mercurio-server/src/connection.rs, mercurio-client/src/connection.rs)

A TCP/TLS stream is the list of chunks its successive `read` calls return; an empty chunk and the end
of the list both stand for "0 bytes read", i.e. end of stream.  I/O errors are not modelled here.
-/

namespace Mercurio

/-- Result of one `read_packet` call. -/
inductive ReadOut where
  /-- `Ok(Some(p))`. -/
  | packet (p : Packet)
  /-- `Ok(None)`. -/
  | closed
  /-- `Err(e)`. -/
  | error (e : Err)
  | panicked
  deriving DecidableEq, Repr

/-- Outcome of `parse_packet`: nothing yet, a packet and the unread bytes, an error, a panic. -/
inductive ParseOut where
  | needMore
  | packet (p : Packet) (rest : Buf)
  | error (e : Err)
  | panicked
  deriving DecidableEq, Repr

/-- `Connection::parse_packet` of the server, mercurio-server/src/connection.rs:83-94.  Only
`PacketIncomplete` from `check` means "need more"; the same error from `parse` is an error. -/
def parsePacket (m : Mode) (buf : Buf) : ParseOut :=
  match check m buf with
  | .panic => .panicked
  | .err .incomplete => .needMore
  | .err e => .error e
  | .ok () =>
    match parse m buf with
    | .ok (p, rest) => .packet p rest
    | .err e => .error e
    | .panic => .panicked

/-- `Connection::read_packet` of the server, mercurio-server/src/connection.rs:55-69, on the buffered
bytes and the chunks still to arrive; returns the result, the new buffer and the chunks left. -/
def readPacket (m : Mode) (buf : Buf) : List Buf → ReadOut × Buf × List Buf
  | [] =>
    match parsePacket m buf with
    | .packet p rest => (.packet p, rest, [])
    | .error e => (.error e, buf, [])
    | .panicked => (.panicked, buf, [])
    | .needMore => (if buf = [] then .closed else .error (.mqtt .normalDisconnection), buf, [])
  | c :: cs =>
    match parsePacket m buf with
    | .packet p rest => (.packet p, rest, c :: cs)
    | .error e => (.error e, buf, c :: cs)
    | .panicked => (.panicked, buf, c :: cs)
    | .needMore =>
      if c = [] then (if buf = [] then .closed else .error (.mqtt .normalDisconnection), buf, cs)
      else readPacket m (buf ++ c) cs

/-- Repeated `read_packet` calls, as the server makes them while handling a connection
(mercurio-server/src/server.rs:216-313): the packets returned, and the first result that is not a
packet (`none` if all `n` calls returned packets). -/
def readStream (m : Mode) : (n : Nat) → Buf → List Buf → List Packet × Option ReadOut
  | 0, _, _ => ([], none)
  | n + 1, buf, chunks =>
    match readPacket m buf chunks with
    | (.packet p, buf', chunks') =>
      let (ps, e) := readStream m n buf' chunks'
      (p :: ps, e)
    | (out, _, _) => ([], some out)

/-- `Connection::read_packet` of the client, mercurio-client/src/connection.rs:66-96: it parses a
clone of the buffer without a completeness check and then drops as many bytes as re-encoding the
packet would take (`calculate_packet_size`, lines 99-103; `split_to` panics beyond the buffer). -/
def clientReadPacket (m : Mode) (v : ProtocolVersion) (buf : Buf) :
    List Buf → ReadOut × Buf × List Buf
  | [] =>
    match buf with
    | [] => (.closed, buf, [])
    | _ :: _ =>
      match parseWithVersion m v buf with
      | .ok (p, _) =>
        match p.encode with
        | .ok bytes => if bytes.length ≤ buf.length then (.packet p, buf.drop bytes.length, [])
                       else (.panicked, buf, [])
        | .err e => (.error e, buf, [])
        | .panic => (.panicked, buf, [])
      | .err .incomplete => (.closed, buf, [])
      | .err e => (.error e, buf, [])
      | .panic => (.panicked, buf, [])
  | c :: cs =>
    match buf with
    | [] => if c = [] then (.closed, buf, cs) else clientReadPacket m v (buf ++ c) cs
    | _ :: _ =>
      match parseWithVersion m v buf with
      | .ok (p, _) =>
        match p.encode with
        | .ok bytes => if bytes.length ≤ buf.length then (.packet p, buf.drop bytes.length, c :: cs)
                       else (.panicked, buf, c :: cs)
        | .err e => (.error e, buf, c :: cs)
        | .panic => (.panicked, buf, c :: cs)
      | .err .incomplete =>
        if c = [] then (.closed, buf, cs) else clientReadPacket m v (buf ++ c) cs
      | .err e => (.error e, buf, c :: cs)
      | .panic => (.panicked, buf, c :: cs)

/-- Repeated `read_packet` calls of the client's event loop (mercurio-client/src/client.rs:210-320). -/
def clientReadStream (m : Mode) (v : ProtocolVersion) :
    (n : Nat) → Buf → List Buf → List Packet × Option ReadOut
  | 0, _, _ => ([], none)
  | n + 1, buf, chunks =>
    match clientReadPacket m v buf chunks with
    | (.packet p, buf', chunks') =>
      let (ps, e) := clientReadStream m v n buf' chunks'
      (p :: ps, e)
    | (out, _, _) => ([], some out)

end Mercurio
