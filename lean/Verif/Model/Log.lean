import Verif.Model.Server

/-!
# The log

What the server writes to its log about connections: the `tracing` events of
mercurio-server/src/server.rs, session_manager.rs and session.rs from the first packet of a connection on.
There are none in the other files of the server.
Simplifications: a failing retransmission (server.rs:292-298) is not an event of `Verif.Model.Server`, so
its line is left out; nor is a failing storage, so the line of a will that cannot be published
(server.rs:461-463) is left out; so are the lines of the accept loop and of TLS (server.rs:87-154), which contain
nothing but the address of the peer and texts of the operating system and of rustls.
Which levels are written, and how the lines look beyond their messages, is the subscriber's choice
(mercuriod/src/main.rs:94-102).
-/

namespace Mercurio

/-- The level of an event (crate `tracing`). -/
inductive Level where
  | error
  | warn
  | info
  | debug
  deriving DecidableEq, Repr

/-- One event: its level, its message, and the field `cause` (mercurio-server/src/server.rs:185). -/
structure LogLine where
  level : Level
  message : Str
  cause : Option Err := none
  deriving DecidableEq, Repr

/-- How `{:?}` writes a text and `{:#?}` writes a packet: derived code of `std`, a parameter. -/
structure Printing where
  text : Str → Str
  packet : Packet → Str

/-- Why a connection ended without an error of `process_incoming` (mercurio-server/src/server.rs:331-337,
423-437): the end of the stream or a shutdown, of which nothing is said; the keep-alive timer; an
error of reading or writing. -/
inductive Ending where
  | quiet
  | timeout (seconds : Nat)
  | failed (e : Err)
  deriving DecidableEq

/-- `{}` of an unsigned number (mercurio-server/src/server.rs:427). -/
def decimal (n : Nat) : Str := str (toString n)

namespace Server

/-- mercurio-server/src/server.rs:185. -/
def errorLine (e : Err) : LogLine := ⟨.error, str "Connection error", some e⟩

/-- The lines of `start_session` about what it found (mercurio-server/src/session_manager.rs:109-130). -/
def foundLog (srv : Server) (cid : Str) (clean : Bool) : List LogLine :=
  if clean || (srv.sessions.get cid).isSome then []
  else match srv.store.loadSession cid with
    | none => []
    | some st =>
      let inflight := srv.store.getAllInflight cid
      [⟨.info, str "Restoring session for client `" ++ cid ++ str "` with " ++
          decimal st.subscriptions.length ++ str " subscriptions", none⟩] ++
      (if (srv.store.getWill cid).isSome then
        [⟨.info, str "Restoring will message for client `" ++ cid ++ str "`", none⟩] else []) ++
      (if inflight.isEmpty then [] else
        [⟨.info, str "Restoring " ++ decimal inflight.length ++ str " inflight messages for client `" ++
          cid ++ str "`", none⟩])

/-- The line of `begin` (mercurio-server/src/session.rs:267-271). -/
def beginLine (cid : Str) (resume : Bool) : LogLine :=
  ⟨.info, str "Client with id `" ++ cid ++ str "` " ++ (if resume then str "resumed" else str "started") ++
    str " a session", none⟩

/-- The lines of `start_session`, and that of a failing write of the CONNACK
(mercurio-server/src/session_manager.rs:80-148, server.rs:183-186). -/
def startLog (srv : Server) (p : ConnectPacket) (uuid : Str) (written : Bool) : List LogLine :=
  let cid := p.payload.clientId
  let found := srv.find cid p.flags.cleanStart
  let e := (srv.discard cid p.flags.cleanStart).enter p
  let b := e.2.2.begin uuid found.resume
  srv.foundLog cid p.flags.cleanStart ++ [beginLine b.1.clientId found.resume] ++
    (if written then [] else [errorLine .io])

/-- The line about wrong credentials (mercurio-server/src/server.rs:227). -/
def refusedLine (user : Str) : LogLine := ⟨.warn, str "Authentication failed for user `" ++ user ++ str "`", none⟩

/-- The lines of the credential check (mercurio-server/src/server.rs:219-240): nothing is said if there is no validator. -/
def refusalLog (cfg : AuthConfig) (p : ConnectPacket) : List LogLine :=
  match p.payload.userName, p.payload.password with
  | some u, some pw =>
    match cfg.validator with
    | some v => if v u pw then [] else [refusedLine u]
    | none => []
  | _, _ => [⟨.warn, str "Authentication required but no credentials provided", none⟩]

/-- The line of `publish_will` (mercurio-server/src/server.rs:446-449), if there is a will. -/
def willLog (s : Session) : List LogLine :=
  match s.will with
  | none => []
  | some w => [⟨.info, str "Publishing will message for client `" ++ s.clientId ++ str "` on topic `" ++
      w.topic ++ str "`", none⟩]

/-- The lines of a further packet (mercurio-server/src/server.rs:331-393, 303-310, 185).  After a
DISCONNECT there is no will to be published. -/
def recvLog (pr : Printing) (cfg : AuthConfig) (srv : Server) (c : Nat) (s : Session) : Packet → List LogLine
  | .disconnect _ => []
  | p =>
    let h := s.processIncoming srv.world cfg.manager c p
    match h.result with
    | .error e => willLog h.session ++ [errorLine e]
    | .ok none => []
    | .ok (some res) => [⟨.debug, str "Sending response packet:" ++ pr.packet res ++ str " to client " ++
        pr.text h.session.clientId, none⟩]

/-- The line of an outgoing packet (mercurio-server/src/server.rs:397). -/
def deliverLog (pr : Printing) (srv : Server) (s : Session) (filter : Str) : List LogLine :=
  match s.processOutgoing srv.world.broker.tree filter with
  | .packet s' p => [⟨.debug, str "Sending outgoing packet: " ++ pr.packet (.publish p) ++ str " to client " ++
      pr.text s'.clientId, none⟩]
  | _ => []

/-- The lines of the end of a connection (mercurio-server/src/server.rs:423-437, 303-310, 185). -/
def closeLog (s : Session) : Ending → List LogLine
  | .quiet => willLog s
  | .timeout n => ⟨.warn, str "Keep-alive timeout for client `" ++ s.clientId ++ str "` (" ++ decimal n ++
      str "s with no packets)", none⟩ :: willLog s
  | .failed e => willLog s ++ [errorLine e]

/-- What a running connection's session makes of something; nothing if there is none. -/
def logAt (srv : Server) (c : Nat) (f : Session → List LogLine) : List LogLine :=
  match srv.conns.get c with
  | none => []
  | some k =>
    match srv.heap.get k.session with
    | none => []
    | some s => f s

/-- What is written to the log at one event (mercurio-server/src/server.rs:174-190, 216-464).  A panic and
the end of the process are not logged. -/
def logged (pr : Printing) (cfg : AuthConfig) (srv : Server) (why : Ending) : Event → List LogLine
  | .first c p uuid written =>
    if (srv.conns.get c).isSome then []
    else match p with
      | .connect p =>
        if cfg.requireAuth && !authenticated cfg p then refusalLog cfg p else srv.startLog p uuid written
      | _ => [⟨.error, str "ConnectPacket expectation not met", none⟩]
  | .recv c p => srv.logAt c fun s => srv.recvLog pr cfg c s p
  | .deliver c f => srv.logAt c fun s => srv.deliverLog pr s f
  | .close c => srv.logAt c fun s => closeLog s why
  | .abort _ => []
  | .restart => []

/-- The log of a history (mercurio-server/src/server.rs:174-464). -/
def log (pr : Printing) (cfg : AuthConfig) (srv : Server) : List (Event × Ending) → List LogLine
  | [] => []
  | (e, why) :: es => srv.logged pr cfg why e ++ log pr cfg (srv.step cfg e).1 es

end Server

end Mercurio
