import Verif.Spec.Delivery

/-!
# Specification of what a client gets whose session is kept

A client may leave and come back, on a new connection, to the session the server keeps for its
identifier.  What it is sent is then counted over all its connections.
-/

namespace Mercurio

/-- Connection `c` is open and works on the session that the server keeps for the client identifier
`cid`.  (It does from the CONNECT with that identifier on, until it ends or until some connection
starts a new session under the identifier: `C105_begins`, `C105_goes_on`.) -/
def Server.worksFor (srv : Server) (c : Nat) (cid : Str) : Bool :=
  match srv.conns.get c, srv.sessions.get cid with
  | some k, some r => k.session == r
  | _, _ => false

/-- The packets an event sends for the subscription `f` of the session kept for `cid`. -/
def Server.sentFor (cfg : AuthConfig) (cid f : Str) (srv : Server) : Event → List Packet
  | .deliver c g => if srv.worksFor c cid = true ∧ g = f then (srv.step cfg (.deliver c g)).2.sent else []
  | _ => []

/-- The packets sent for the subscription `f` of the session kept for `cid` during a history, on
whatever connections. -/
def Server.deliveredFor (cfg : AuthConfig) (cid f : Str) (srv : Server) : List Event → List Packet
  | [] => []
  | e :: es => srv.sentFor cfg cid f e ++ Server.deliveredFor cfg cid f (srv.step cfg e).1 es

namespace Spec

open Mercurio

/-- The event leaves the session kept for `cid` in place: it is no restart of the server, and no
CONNECT with this identifier that asks for a clean start. -/
structure KeepsSession (cid : Str) (e : Event) : Prop where
  running : e ≠ .restart
  resumes : ∀ c p uuid w, e = .first c (.connect p) uuid w → p.payload.clientId = cid →
    p.flags.cleanStart = false

/-- The event leaves the subscription `f` of the session kept for `cid` in place: the session is kept,
and no client of the session names `f` in a SUBSCRIBE or UNSUBSCRIBE.  Connections of the session may be
opened and closed. -/
structure KeepsSubscription (cfg : AuthConfig) (srv : Server) (cid f : Str) (e : Event) : Prop where
  keeps : KeepsSession cid e
  sub : ∀ c p, srv.worksFor c cid = true → e = .recv c (.subscribe p) → f ∉ p.payload.map (·.topicFilter)
  unsub : ∀ c p, srv.worksFor c cid = true → e = .recv c (.unsubscribe p) → f ∉ p.payload

/-- Every event of the history leaves the subscription in place. -/
def KeptRun (cfg : AuthConfig) (cid f : Str) : Server → List Event → Prop
  | _, [] => True
  | srv, e :: es => KeepsSubscription cfg srv cid f e ∧ KeptRun cfg cid f (srv.step cfg e).1 es

/-- No task of the server panics during the history. -/
def PanicFree (cfg : AuthConfig) : Server → List Event → Prop
  | _, [] => True
  | srv, e :: es => (srv.step cfg e).2.panicked = false ∧ PanicFree cfg (srv.step cfg e).1 es

open Classical in
/-- The messages that are taken out of the mailbox `b` of the subscription `f` of the session kept for `cid` during a
history: the matching publications are put in, and one message is taken out whenever a connection of the session
sends the next message of the subscription. -/
noncomputable def drawnFor (cfg : AuthConfig) (cid f : Str) : Server → Mailbox → List Event → List Message
  | _, _, [] => []
  | srv, b, e :: es =>
    let b := (matching f (published cfg srv [e])).foldl Mailbox.put b
    if ∃ c, e = .deliver c f ∧ srv.worksFor c cid = true then
      b.take.1.toList ++ drawnFor cfg cid f (srv.step cfg e).1 b.take.2 es
    else drawnFor cfg cid f (srv.step cfg e).1 b es

end Spec

end Mercurio
