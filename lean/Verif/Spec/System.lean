import Verif.Model.System
import Verif.Spec.Client
import Verif.Spec.Cuts
import Verif.Spec.Topic

/-!
# Specification: what applications see of each other

Statements about the whole system, in terms of the calls applications make on their clients and of the
events they get from them.
-/

namespace Mercurio

open Spec

/-- A message as an application hands it to its client. -/
structure Publication where
  topic : Str
  payload : Buf
  qos : QoS
  retain : Bool
  deriving DecidableEq

/-- A message as an application gets it from its client. -/
structure Heard where
  topic : Str
  payload : Buf
  qos : QoS
  retain : Bool
  deriving DecidableEq

/-- The loop of a client that is connected. -/
def Peer.loop (p : Peer) : Option Client :=
  match p.phase with
  | .connected l => some l
  | _ => none

/-- The messages for which `publish` returned normally, in the order of the calls. -/
def Peer.published (p : Peer) : List Publication :=
  p.history.filterMap fun
    | (.publish t pl q r _, o) => match o.result with
      | some (.published _) => some ⟨t, pl, q, r⟩
      | _ => none
    | _ => none

/-- The messages the client has for the application, in order: those it has taken (`recv`) and those
that are waiting for it. -/
def Peer.heard (p : Peer) : List Heard :=
  (p.history.filterMap (·.2.event) ++ (p.loop.map Client.pending).getD []).filterMap fun
    | .message t pl q r => some ⟨t, pl, q, r⟩
    | _ => none

/-- Of the successful calls of `subscribe` and `unsubscribe` that named `f`, the last one was
`subscribe`. -/
def Peer.subscribedTo (p : Peer) (f : Str) : Prop :=
  p.history.foldl (fun (b : Prop) => fun
    | (.subscribe l _, o) => match o.result with
      | some (.subscribed _) => b ∨ f ∈ l.map (·.1)
      | _ => b
    | (.unsubscribe l _, o) => match o.result with
      | some .done => b ∧ f ∉ l
      | _ => b
    | _ => b) False

/-- A call that changes the subscription `f`. -/
def ClientIn.Names (f : Str) : ClientIn → Prop
  | .subscribe l _ => f ∈ l.map (·.1)
  | .unsubscribe l _ => f ∈ l
  | _ => False

/-- The connection of client `c` is up at both ends. -/
structure System.Up (σ : System) (c : Nat) (p : Peer) (w : Wire) : Prop where
  peer : σ.peers.get c = some p
  wire : σ.net.wires.get c = some w
  server : w.running = true
  client : ∃ l, p.loop = some l ∧ l.running = true

/-- Nothing is in transit from client `c` to the server: everything the client wrote was read and
acted on. -/
def System.QuietUp (σ : System) (c : Nat) : Prop :=
  ∃ p w, σ.Up c p w ∧ w.rcvd = p.wrote ∧ w.buf = []

/-- Nothing is in transit from the server to client `c`: the server has no message to send for any subscription of
the client, and the client has read and acted on everything the server wrote. -/
def System.QuietDown (m : Mode) (cfg : AuthConfig) (σ : System) (c : Nat) : Prop :=
  ∃ p w, σ.Up c p w ∧ (∀ f, (σ.net.server.step cfg (.deliver c f)).2 = {}) ∧
    p.got = w.sent ∧ clientParse m p.opts.protocolVersion p.buf = .needMore

/-- Nothing is in transit on the connection of client `c`, in either direction. -/
def System.Quiet (m : Mode) (cfg : AuthConfig) (σ : System) (c : Nat) : Prop :=
  σ.QuietUp c ∧ σ.QuietDown m cfg c

/-- What applications are assumed to do: texts are UTF-8 of at most 65535 bytes, messages and lists of
topics stay within MQTT's size limit (also when a message is sent on under a longer name), QoS values
are 0, 1 or 2, and wills have QoS 0 and a valid topic.  The identifiers the server makes up are texts. -/
def SysEvent.Ordinary : SysEvent → Prop
  | .connect _ o => o.Admissible ∧ ∀ w, o.will = some w → ValidTopic w.topic ∧ w.qos = .atMostOnce
  | .serverTurn _ uuid _ => TextField uuid
  | .app _ (.publish t pl q _ _) => TextField t ∧ q ≠ .invalid ∧ pl.length + 65545 ≤ 2 ^ 28
  | .app _ (.subscribe l _) => l ≠ [] ∧ (∀ t ∈ l, TextField t.1 ∧ t.2 ≠ .invalid) ∧
      (l.map fun t => t.1.length + 3).sum + 3 < 2 ^ 28
  | .app _ (.unsubscribe l _) => l ≠ [] ∧ (∀ t ∈ l, TextField t) ∧
      (l.map fun t => t.length + 2).sum + 3 < 2 ^ 28
  | _ => True

/-- A client that has got `got` of the bytes `sent`: the last read ended between packets, or inside a packet at a
place where it may be cut (see C58 for those, and for what happens elsewhere). -/
def GotWell (v : ProtocolVersion) (sent got : Buf) : Prop :=
  ∃ qs s, SentTo v qs s ∧ s <+: sent ∧ got <+: s ∧ EndsWell v qs got.length

/-- Client `c` reads well: no read cuts a packet where it must not, and its acknowledgements can be
written. -/
def ReadsWell (m : Mode) (cfg : AuthConfig) (c : Nat) : System → List SysEvent → Prop
  | _, [] => True
  | σ, e :: es =>
    (∀ n, e = .clientRead c n → ∀ p w, (σ.step m cfg e).peers.get c = some p →
      (σ.step m cfg e).net.wires.get c = some w → GotWell p.opts.protocolVersion w.sent p.got) ∧
    e ≠ .clientTurn c false ∧ ReadsWell m cfg c (σ.step m cfg e) es

/-- The client identifier a client sends. -/
def Peer.clientId (p : Peer) : Str := p.opts.clientId.getD []

/-- Client `c` does not share its session with any other client: other clients with its identifier, if there are
any (all those that give none have the empty one), start clean, and then so does `c`. -/
def System.Apart (σ : System) (c : Nat) (p : Peer) : Prop :=
  ∀ d q, d ≠ c → σ.peers.get d = some q → q.clientId = p.clientId →
    q.opts.cleanStart = true ∧ p.opts.cleanStart = true

/-- The messages among `L` that client `d` published. -/
def byClient (d : Nat) (L : List (Source × Publication)) : List Publication :=
  (L.filter fun q => q.1 = .client d).map (·.2)

/-- The messages among `L` whose topic the filter `f` matches, as a subscriber to `f` gets them: the
topic field holds the filter (see C40) and the retain flag is not set. -/
noncomputable def heardFor (f : Str) (L : List (Source × Publication)) : List Heard := by
  classical exact
  (L.filter fun q => Matches f q.2.topic).map fun q => ⟨f, q.2.payload, q.2.qos, false⟩

/-- The messages the application got for its subscription `f`, in order. -/
def Peer.heardOn (p : Peer) (f : Str) : List Heard := p.heard.filter fun x => x.topic = f

/-- `L` is, in an order common to all applications, what was published between two states of the
system: of each client a piece of what its application published; all that its application
published since, if nothing was in transit from it at either time (a first part of that, if
something is in transit at the end or its connection was lost); and wills of clients. -/
structure PublishedBetween (σ1 σ2 : System) (L : List (Source × Publication)) : Prop where
  piece : ∀ d q2, σ2.peers.get d = some q2 → byClient d L <:+: q2.published
  since : ∀ d q1 q2, σ1.peers.get d = some q1 → σ2.peers.get d = some q2 → σ1.QuietUp d →
    ∃ N, q2.published = q1.published ++ N ∧ byClient d L <+: N ∧ (σ2.QuietUp d → byClient d L = N)
  new : ∀ d q2, σ1.peers.get d = none → σ2.peers.get d = some q2 →
    byClient d L <+: q2.published ∧ (σ2.QuietUp d → byClient d L = q2.published)
  sources : ∀ q ∈ L, (∃ d q2, q.1 = .client d ∧ σ2.peers.get d = some q2) ∨
    ∃ d d' q2 w, q.1 = .will d' ∧ σ2.peers.get d = some q2 ∧ q2.opts.will = some w ∧
      q.2 = ⟨w.topic, w.payload, w.qos, w.retain⟩

/-- Client `c` connected with a keep-alive other than 0.  With 0 the server drops the connection as soon as it has acted
on the first packet after CONNECT (see `C75_keep_alive_zero_false`). -/
def System.Timed (σ : System) (c : Nat) : Prop := ∀ p, σ.peers.get c = some p → p.opts.keepAlive ≠ 0

/-- An event that gives no reason to end the connection of client `c`: not a keep-alive timeout, a
shutdown of the server or an I/O error on this connection, not a call of `disconnect`, not a tick of the ping timer
(see C18, C75), and only valid topics are published to. -/
def SysEvent.Harmless (c : Nat) : SysEvent → Prop
  | .serverClose d => d ≠ c
  | .clientError d => d ≠ c
  | .app d (.disconnect _) => d ≠ c
  | .app d (.tick _) => d ≠ c
  | .app d (.publish t _ _ _ _) => d = c → ValidTopic t
  | _ => True

/-- An event that gives the server no reason to end the connection of client `c` before it has acted on
everything the client sent.  A tick of the ping timer does (see C18). -/
def SysEvent.Kept (c : Nat) : SysEvent → Prop
  | .serverClose d => d ≠ c
  | .app d (.tick _) => d ≠ c
  | .app d (.publish t _ _ _ _) => d = c → ValidTopic t
  | _ => True

/-- What the application of client `d` has published so far. -/
def System.published (σ : System) (d : Nat) : List Publication := ((σ.peers.get d).map Peer.published).getD []

/-- The server is done with what client `d` sent: it has closed the connection, or read and acted on everything
the client wrote. -/
def System.Settled (σ : System) (d : Nat) : Prop :=
  ∃ p w, σ.peers.get d = some p ∧ σ.net.wires.get d = some w ∧
    (w.running = false ∨ w.rcvd = p.wrote ∧ w.buf = [])

/-- A call of `subscribe` that named `f` succeeded. -/
def Peer.askedFor (p : Peer) (f : Str) : Prop :=
  ∃ l ok o fs, (ClientIn.subscribe l ok, o) ∈ p.history ∧ o.result = some (.subscribed fs) ∧ f ∈ l.map (·.1)

/-- An application published `q`, or a client connected with it as its will. -/
def System.origin (σ : System) (q : Publication) : Prop :=
  ∃ d p, σ.peers.get d = some p ∧
    (q ∈ p.published ∨ ∃ w, p.opts.will = some w ∧ q = ⟨w.topic, w.payload, w.qos, w.retain⟩)

/-- The retained message of topic `t` after the publications `L`: the last of them to `t` that asked for being
retained; none if there is none, or if that one had no payload. -/
def lastRetained (t : Str) (L : List (Source × Publication)) : Option Publication :=
  match L.reverse.find? fun q => q.2.topic = t ∧ q.2.retain = true with
  | some q => if q.2.payload = [] then none else some q.2
  | none => none

/-- As a subscriber to `f` gets it. -/
def asHeard (f : Str) (q : Publication) : Heard := ⟨f, q.payload, q.qos, false⟩

end Mercurio
