import Verif.Spec.Delivery

/-!
# A plain broker

A broker described by what it knows, without topic tree, channels, caches or locks: every subscription has a mailbox, and a
message is put into the mailboxes of all subscriptions whose filter matches its topic.  All tables are functions.  What a
step leaves open is stated as such: in which order several retained messages, or several unacknowledged messages, are sent,
and which free number an account gets.
-/

namespace Mercurio.Spec

open Mercurio Classical

/-- The function with its value at `a` replaced. -/
noncomputable def upd {α β : Type} (f : α → β) (a : α) (b : β) : α → β := fun x => if x = a then b else f x

/-- What the broker knows of a client: its name, the version it speaks, a mailbox for each filter it has subscribed to, its
will, and the authentication method of an exchange under way. -/
@[ext] structure Profile where
  name : Str
  version : ProtocolVersion
  boxes : Str → Option Mailbox
  will : Option StoredWill
  auth : Option Str

/-- What the broker knows. -/
@[ext] structure Plain where
  /-- the retained message of a topic -/
  retained : Str → Option Message
  /-- the filters kept for a client name -/
  kept : Str → Option (Str → Prop)
  /-- the will kept for a client name -/
  wills : Str → Option StoredWill
  /-- the unacknowledged messages of a client name -/
  unacked : Str → UInt16 → Option Inflight
  /-- the account of a client name -/
  known : Str → Option Nat
  account : Nat → Option Profile
  /-- the account an open connection works on -/
  conn : Nat → Option Nat

namespace Plain

/-- A broker that knows nothing. -/
def new : Plain :=
  ⟨fun _ => none, fun _ => none, fun _ => none, fun _ _ => none, fun _ => none, fun _ => none, fun _ => none⟩

/-- The account of an open connection. -/
def who (b : Plain) (c : Nat) : Option (Nat × Profile) := (b.conn c).bind fun n => (b.account n).map fun s => (n, s)

/-- An account is changed. -/
noncomputable def modify (b : Plain) (n : Nat) (g : Profile → Profile) : Plain :=
  { b with account := upd b.account n ((b.account n).map g) }

/-- A message is published: it becomes the retained message of its topic if it asks for it (without payload, there is none from
now on), and is put into the mailboxes of all subscriptions whose filter matches. -/
noncomputable def publish (b : Plain) (topic : Str) (m : Message) : Plain :=
  { b with
    retained := if m.retain then upd b.retained topic (if m.payload.getD [] = [] then none else some m) else b.retained
    account := fun n => (b.account n).map fun s =>
      { s with boxes := fun f => (s.boxes f).map fun x => if Matches f topic then x.put m else x } }

/-- The connection is gone. -/
noncomputable def drop (b : Plain) (c : Nat) : Plain := { b with conn := upd b.conn c none }

/-- The connection ends without DISCONNECT: the will is published and forgotten. -/
noncomputable def hangUp (b : Plain) (c : Nat) : Plain :=
  match b.who c with
  | none => b
  | some (n, s) =>
    match s.will with
    | none => b.drop c
    | some w =>
      let b := ((b.drop c).publish w.topic ⟨none, w.topic, false, w.qos, w.retain, some w.payload⟩).modify n
        fun s => { s with will := none }
      { b with wills := upd b.wills s.name none }

/-- The list holds the retained messages the filter matches, each once. -/
def Keeps (b : Plain) (f : Str) (rs : List Message) : Prop :=
  ∃ topics : List Str, topics.Nodup ∧ (∀ t, t ∈ topics ↔ Matches f t ∧ (b.retained t).isSome) ∧
    rs = topics.filterMap b.retained

/-- Subscribing: the valid ones among the filters get a new mailbox with the matching retained messages; the others stay as
they are. -/
def Opens (b : Plain) (old : Str → Option Mailbox) (fs : Str → Prop) (new : Str → Option Mailbox) : Prop :=
  ∀ f, (fs f ∧ ValidFilter f → ∃ rs, b.Keeps f rs ∧ new f = some ⟨rs, []⟩) ∧
    (¬ (fs f ∧ ValidFilter f) → new f = old f)

/-- The client now has these mailboxes, and their filters are kept. -/
noncomputable def file (b : Plain) (n : Nat) (name : Str) (boxes : Str → Option Mailbox) : Plain :=
  { b.modify n fun s => { s with boxes := boxes } with
    kept := upd b.kept name (some fun f => boxes f ≠ none) }

/-- The message of the client with this packet identifier is as given. -/
noncomputable def note (b : Plain) (name : Str) (id : UInt16) (i : Option Inflight) : Plain :=
  { b with unacked := upd b.unacked name (upd (b.unacked name) id i) }

/-- The UNSUBACK codes: success for filters there is a mailbox for (the second time there is none). -/
noncomputable def codes (boxes : Str → Option Mailbox) : List Str → List ReasonCode
  | [] => []
  | f :: fs => (if boxes f = none then .noSubscriptionExisted else .success) :: codes (upd boxes f none) fs

/-- The PUBLISH is answered, after it has been carried out; or the connection ends. -/
def Answered (b : Plain) (c : Nat) (p : PublishPacket) (b' : Plain) (out : List Packet) : Prop :=
  match p.qos, p.packetId with
  | .atMostOnce, _ => b' = b ∧ out = []
  | .atLeastOnce, some id => b' = b ∧ out = [.pubAck { packetId := id }]
  | .exactlyOnce, some id => b' = b ∧ out = [.pubRec { packetId := id }]
  | _, _ => b' = b.hangUp c ∧ out = []

/-- What the authenticator says about an exchange by method `x`: the method of the exchange from now on and the answer, or
that the connection ends. -/
def verdict (x : Str) (left : Option Str) : AuthResult → Option Str × Option Packet
  | .success => (none, some (.auth { reason := .success }))
  | .continue d => (some x, some (.auth { reason := .continueAuthentication
                                          properties := { authMethod := some x, authData := some d } }))
  | .failed _ => (left, none)

/-- One step of an AUTH exchange: a client begins one with a method there is an authenticator for, and continues the one under
way with data.  (The method of an exchange refused at once stays, of one refused later not.) -/
def authStep (m : AuthManager) (current : Option Str) (p : AuthPacket) : Option Str × Option Packet :=
  match p.reason, p.properties.authMethod, current, p.properties.authData with
  | .reAuthenticate, some x, _, data =>
    if m.supportsMethod x then verdict x (some x) (m.startAuth x data) else (current, none)
  | .continueAuthentication, _, some x, some d => verdict x none (m.continueAuth x d)
  | _, _, _, _ => (current, none)

/-- A packet arrives on connection `c`, which works on account `n`. -/
def Receives (cfg : AuthConfig) (b : Plain) (c n : Nat) (s : Profile) : Packet → Plain → List Packet → Prop
  | .publish p, b', out =>
    if ValidTopic p.topicName then
      (b.publish p.topicName ⟨p.packetId, p.topicName, p.dup, p.qos, p.retain, p.payload⟩).Answered c p b' out
    else b' = b.hangUp c ∧ out = []
  | .pubAck a, b', out => b' = b.note s.name a.packetId none ∧ out = []
  | .pubComp a, b', out => b' = b.note s.name a.packetId none ∧ out = []
  | .pubRec a, b', out => b' = b ∧ out = [.pubRel { packetId := a.packetId }]
  | .pubRel a, b', out => b' = b ∧ out = [.pubComp { packetId := a.packetId }]
  | .subscribe p, b', out =>
    ∃ boxes, b.Opens s.boxes (· ∈ p.payload.map (·.topicFilter)) boxes ∧ b' = b.file n s.name boxes ∧
      out = [.subAck { protocolVersion := s.version, packetId := p.packetId
                       payload := p.payload.map fun x => subscribeCode x.topicFilter }]
  | .unsubscribe p, b', out =>
    b' = b.file n s.name (fun f => if f ∈ p.payload then none else s.boxes f) ∧
      out = [.unsubAck { protocolVersion := s.version, packetId := p.packetId, payload := codes s.boxes p.payload }]
  | .pingReq, b', out => b' = b ∧ out = [.pingResp]
  | .disconnect _, b', out =>
    b' = { (b.drop c).modify n (fun s => { s with will := none }) with wills := upd b.wills s.name none } ∧ out = []
  | .auth p, b', out =>
    match cfg.manager with
    | none => b' = b.hangUp c ∧ out = []
    | some m =>
      let r := authStep m s.auth p
      let b := b.modify n fun s => { s with auth := r.1 }
      match r.2 with
      | none => b' = b.hangUp c ∧ out = []
      | some x => b' = b ∧ out = [x]
  | _, b', out => b' = b.hangUp c ∧ out = []

/-- Connection `c`, which works on account `n`, sends the next message of the mailbox of a filter.  One with QoS 1 or 2 and a
packet identifier is kept until it is acknowledged.  (A message with identifier and QoS 3 ends the connection.) -/
def Sends (b : Plain) (c n : Nat) (s : Profile) (f : Str) (b' : Plain) (out : Out) : Prop :=
  match s.boxes f with
  | none => b' = b ∧ out = {}
  | some box =>
    match box.take with
    | (none, _) => b' = b ∧ out = {}
    | (some m, rest) =>
      let b := b.modify n fun s => { s with boxes := upd s.boxes f (some rest) }
      match m.packetId, m.qos with
      | some _, .invalid => b' = b.drop c ∧ out = { panicked := true }
      | some id, .atLeastOnce => b' = b.note s.name id (some ⟨id, f, m.payload, m.qos, m.dup⟩) ∧ out = { sent := [forwarded f m] }
      | some id, .exactlyOnce => b' = b.note s.name id (some ⟨id, f, m.payload, m.qos, m.dup⟩) ∧ out = { sent := [forwarded f m] }
      | _, _ => b' = b ∧ out = { sent := [forwarded f m] }

/-- What a clean start removes. -/
noncomputable def forget (b : Plain) (name : Str) : Plain :=
  { b with known := upd b.known name none, kept := upd b.kept name none, wills := upd b.wills name none }

/-- The account of a client name: the one known, or a new one. -/
def Enters (b : Plain) (name : Str) (n : Nat) (s : Profile) (b' : Plain) : Prop :=
  match b.known name with
  | some k => n = k ∧ b.account k = some s ∧ b' = b
  | none => b.account n = none ∧ s.boxes = (fun _ => none) ∧ s.auth = none ∧ b' = { b with known := upd b.known name (some n) }

/-- The CONNACK: an assigned name is told to those who can understand it. -/
def welcome (p : ConnectPacket) (uuid : Str) (present : Bool) : Packet :=
  .connAck { protocolVersion := p.protocolVersion, sessionPresent := present
             properties := if p.payload.clientId = [] ∧ p.protocolVersion = .v5 then some { assignedClientId := some uuid } else none }

/-- The list holds the unacknowledged messages of a client name, each once. -/
def Owes (b : Plain) (name : Str) (again : List Inflight) : Prop :=
  (again.map (·.packetId)).Nodup ∧ ∀ i, i ∈ again ↔ b.unacked name i.packetId = some i

/-- A client is let in on connection `c` under its name, or under `uuid` if it gave none.  A known client goes on with its
account, another one for which filters are kept gets these and its unacknowledged messages; if the CONNACK cannot be written
it ends there.  (The filters kept from now on are those restored.) -/
def Begins (b : Plain) (c : Nat) (p : ConnectPacket) (uuid : Str) (written : Bool) (b' : Plain) (out : Out) : Prop :=
  let id := p.payload.clientId
  let name := if id = [] then uuid else id
  let b := if p.flags.cleanStart then b.forget id else b
  let restored := if b.known id = none then b.kept id else none
  ∃ n s b1, b.Enters id n s b1 ∧
    let s := { s with name := name, version := p.protocolVersion, will := willIn p }
    if written then
      ∃ boxes again, b.Opens s.boxes (fun f => ∃ fs, restored = some fs ∧ fs f) boxes ∧
        (if restored = none then again = [] else b.Owes id again) ∧
        b' = { b1 with
          conn := upd b1.conn c (some n)
          account := upd b1.account n (some { s with
            boxes := boxes
            will := if restored = none then s.will else (b.wills id).or s.will })
          kept := upd b1.kept name (some fun f => ∃ fs, restored = some fs ∧ fs f)
          wills := match s.will with
            | none => b1.wills
            | some w => upd b1.wills name (some w) } ∧
        out = { sent := welcome p uuid (b.known id ≠ none ∨ restored ≠ none) :: again.map resent }
    else b' = { b1 with account := upd b1.account n (some s) } ∧ out = {}

/-- The credentials are there and accepted. -/
def Trusted (cfg : AuthConfig) (p : ConnectPacket) : Prop :=
  ∃ u pw v, p.payload.userName = some u ∧ p.payload.password = some pw ∧ cfg.validator = some v ∧ v u pw = true

/-- One event: what the broker knows afterwards, and what is sent. -/
def Does (cfg : AuthConfig) (b : Plain) : Event → Plain → Out → Prop
  | .first c p uuid written, b', out =>
    if b.conn c ≠ none then b' = b ∧ out = {}
    else match p with
      | .connect p =>
        if cfg.requireAuth = true ∧ ¬ Trusted cfg p then
          b' = b ∧ out = { sent := [.connAck { protocolVersion := p.protocolVersion, reasonCode := .badUserNameOrPassword }] }
        else b.Begins c p uuid written b' out
      | _ => b' = b ∧ out = {}
  | .recv c p, b', out =>
    match b.who c with
    | none => b' = b ∧ out = {}
    | some (n, s) => ∃ sent, b.Receives cfg c n s p b' sent ∧ out = { sent := sent }
  | .deliver c f, b', out =>
    match b.who c with
    | none => b' = b ∧ out = {}
    | some (n, s) => b.Sends c n s f b' out
  | .close c, b', out => b' = b.hangUp c ∧ out = {}
  | .abort c, b', out => b' = b.drop c ∧ out = {}
  | .restart, b', out =>
    b' = { b with known := fun _ => none, account := fun _ => none, conn := fun _ => none } ∧ out = {}

/-- The broker can go through these events with these outputs. -/
inductive Goes (cfg : AuthConfig) : Plain → List (Event × Out) → Plain → Prop
  | done (b) : Goes cfg b [] b
  | step {b b1 b2 e out rest} : b.Does cfg e b1 out → Goes cfg b1 rest b2 → Goes cfg b ((e, out) :: rest) b2

end Plain

/-- The CONNECTs among the events carry no will with an invalid topic. -/
def ProperWills (es : List Event) : Prop :=
  ∀ c p uuid written w, .first c (.connect p) uuid written ∈ es → willIn p = some w → ValidTopic w.topic

end Mercurio.Spec

namespace Mercurio

/-- The events with the outputs of the server. -/
def Server.trace (cfg : AuthConfig) : Server → List Event → List (Event × Out)
  | _, [] => []
  | srv, e :: es => (e, (srv.step cfg e).2) :: Server.trace cfg (srv.step cfg e).1 es

end Mercurio
