import Verif.Model.Log
import Verif.Spec.Server

/-!
# Specification for the log
-/

namespace Mercurio.Spec

open Mercurio

/-- A CONNECT without its password. -/
def withoutPassword (p : ConnectPacket) : ConnectPacket := { p with payload := { p.payload with password := none } }

/-- An event without the password in its packet. -/
def hidden : Event → Event
  | .first c (.connect p) uuid w => .first c (.connect (withoutPassword p)) uuid w
  | .recv c (.connect p) => .recv c (.connect (withoutPassword p))
  | e => e

/-- Two events are the same but for a password, and if passwords are checked, then both passwords are accepted, both are
rejected, or none is given. -/
structure SameButPassword (cfg : AuthConfig) (e e' : Event) : Prop where
  same : hidden e = hidden e'
  verdict : cfg.requireAuth = true → ∀ c p p' uuid w, e = .first c (.connect p) uuid w →
    e' = .first c (.connect p') uuid w → p.payload.password.isSome = p'.payload.password.isSome ∧
    ∀ check user pw pw', cfg.validator = some check → p.payload.userName = some user →
      p.payload.password = some pw → p'.payload.password = some pw' → check user pw = check user pw'

/-- Two histories are the same but for passwords, event by event. -/
inductive SameButPasswords (cfg : AuthConfig) : List (Event × Ending) → List (Event × Ending) → Prop where
  | nil : SameButPasswords cfg [] []
  | cons {e e' why es es'} : SameButPassword cfg e e' → SameButPasswords cfg es es' →
      SameButPasswords cfg ((e, why) :: es) ((e', why) :: es')

/-- What every event of a history makes the server send. -/
def outputs (cfg : AuthConfig) : Server → List Event → List Out
  | _, [] => []
  | srv, e :: es => (srv.step cfg e).2 :: outputs cfg (srv.step cfg e).1 es

/-- The user names whose passwords are refused during a history, in order: of the CONNECTs on connections that
are not open yet, those with a user name and a password of which the configured check says no. -/
def refusedUsers (cfg : AuthConfig) : Server → List Event → List Str
  | _, [] => []
  | srv, e :: es =>
    (match e with
      | .first c (.connect p) _ _ =>
        match cfg.requireAuth, srv.conns.get c, cfg.validator, p.payload.userName, p.payload.password with
        | true, none, some check, some user, some pw => if check user pw then [] else [user]
        | _, _, _, _, _ => []
      | _ => []) ++ refusedUsers cfg (srv.step cfg e).1 es

/-- How the log tells of a refused password. -/
def toldRefused (user : Str) : Str := str "Authentication failed for user `" ++ user ++ str "`"

/-- The line is a warning about a refused password. -/
def tellsRefused (l : LogLine) : Bool :=
  decide (l.level = .warn) && (str "Authentication failed for user `").isPrefixOf l.message

/-- The texts that the log quotes contain no line feed: client identifiers (given and generated), user names
and topics of wills. -/
def OneLineNames : Event → Prop
  | .first _ (.connect p) uuid _ => 10 ∉ p.payload.clientId ∧ 10 ∉ uuid ∧
      (∀ u, p.payload.userName = some u → 10 ∉ u) ∧ (∀ t, p.payload.willTopic = some t → 10 ∉ t)
  | _ => True

/-- How the log tells that a client has a session now: with its identifier, and whether it was resumed. -/
def toldSession (id : Str) (resumed : Bool) : Str :=
  str "Client with id `" ++ id ++ str "` " ++ (if resumed then str "resumed" else str "started") ++ str " a session"

/-- The line tells that a client has a session. -/
def tellsSession (l : LogLine) : Bool :=
  decide (l.level = .info) && (str "Client with id `").isPrefixOf l.message

/-- What the log has to tell of the sessions of a history: for every CONNECT that is answered by a CONNACK with success, in
order, the identifier of the client (the generated one if it sent none) and whether the CONNACK reports a session. -/
def sessionsToTell (cfg : AuthConfig) : Server → List Event → List Str
  | _, [] => []
  | srv, e :: es =>
    (match e, (srv.step cfg e).2.sent with
      | .first _ (.connect p) uuid _, .connAck ack :: _ =>
        if ack.reasonCode = .success then
          [toldSession (if p.payload.clientId = [] then uuid else p.payload.clientId) ack.sessionPresent]
        else []
      | _, _ => []) ++ sessionsToTell cfg (srv.step cfg e).1 es

/-- How the log tells that a will is published. -/
def toldWill (id topic : Str) : Str :=
  str "Publishing will message for client `" ++ id ++ str "` on topic `" ++ topic ++ str "`"

/-- The line tells that a will is published. -/
def tellsWill (l : LogLine) : Bool :=
  decide (l.level = .info) && (str "Publishing will message for client `").isPrefixOf l.message

/-- What the log has to tell of the wills of a history: of every will published to the broker, in order, the topic and the
identifier of the client whose connection it is the will of. -/
def willsToTell (cfg : AuthConfig) : Server → List Event → List Str
  | _, [] => []
  | srv, e :: es =>
    ((srv.step cfg e).1.world.log.drop srv.world.log.length).filterMap (fun call => match call with
      | .publish (.will c) topic _ => (srv.at c).map fun s => toldWill s.clientId topic
      | _ => none) ++ willsToTell cfg (srv.step cfg e).1 es

end Mercurio.Spec
