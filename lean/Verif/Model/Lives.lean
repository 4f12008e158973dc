import Verif.Model.Server

/-!
# A server that is stopped and started again

`run_with_tls` (mercurio-server/src/server.rs:71-123) makes a new `MemoryStore`, a new `Broker` and a new
`SessionManager` each time it is called; `mercuriod` calls it once in the life of the process
(mercuriod/src/main.rs).  No other storage can be configured: `Listener` and `Handler` are declared with
`MemoryStore` (server.rs:46-64).
-/

namespace Mercurio

/-- What happens to a server over several starts. -/
inductive LifeEvent where
  /-- an event of the running server, mercurio-server/src/server.rs:174-464 -/
  | during (e : Event)
  /-- the server ends and is started again, mercurio-server/src/server.rs:71-123 -/
  | again
  deriving DecidableEq

namespace Server

/-- One event over several starts, mercurio-server/src/server.rs:71-123, 174-464. -/
def lifeStep (cfg : AuthConfig) (srv : Server) : LifeEvent → Server × Out
  | .during e => srv.step cfg e
  | .again => (init, {})

/-- The server after a history over several starts, mercurio-server/src/server.rs:71-123, 174-464. -/
def lifeRun (cfg : AuthConfig) (srv : Server) (es : List LifeEvent) : Server :=
  es.foldl (fun s e => (s.lifeStep cfg e).1) srv

end Server

end Mercurio
