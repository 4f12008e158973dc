import Verif.Model.Server
import Verif.Spec.Topic
import Verif.Spec.Utf8

/-!
# Specification of the server's behaviour towards one client

How to look at a server state, which packets a client may send, and what the answers are.
-/

namespace Mercurio

/-- The state of the session that connection `c` works on, if the connection is open. -/
def Server.at (srv : Server) (c : Nat) : Option Session :=
  match srv.conns.get c with
  | some k => srv.heap.get k.session
  | none => none

/-- Connection `c` is open. -/
def Server.isOpen (srv : Server) (c : Nat) : Prop := ∃ k, srv.conns.get c = some k

/-- The server can be reached from a new one by some history. -/
def Server.Reachable (cfg : AuthConfig) (srv : Server) : Prop :=
  ∃ es, srv = Server.run cfg Server.init es

/-- The client identifier sent in the CONNECT of the open connection `c`. -/
def Server.clientOf (srv : Server) (c : Nat) : Option Str := (srv.conns.get c).map (·.key)

/-- The publications among the calls. -/
def Call.publications : List Call → List (Str × Message)
  | [] => []
  | .publish _ t m :: cs => (t, m) :: publications cs
  | _ :: cs => publications cs

namespace Spec

/-- The will a CONNECT asks for. -/
def willIn (p : ConnectPacket) : Option StoredWill :=
  match p.flags.willFlag, p.payload.willTopic with
  | true, some t => some { topic := t, payload := p.payload.willPayload.getD [], qos := p.flags.willQos,
                           retain := p.flags.willRetain }
  | _, _ => none

open Mercurio

/-- The will publications of connection `c` among the calls on the broker. -/
def willPublications (c : Nat) (log : List Call) : List Call :=
  log.filter fun call => match call with
    | .publish (.will c') _ _ => c' = c
    | _ => false

/-- Packets (other than AUTH) a client may send on an established connection and that keep the
connection open: PUBLISH to a valid topic (with packet identifier if the QoS is 1 or 2), the four
acknowledgements, SUBSCRIBE, UNSUBSCRIBE, PINGREQ. -/
def Accepted : Packet → Prop
  | .publish p => ValidTopic p.topicName ∧
      (p.qos = .atMostOnce ∨ ((p.qos = .atLeastOnce ∨ p.qos = .exactlyOnce) ∧ ∃ id, p.packetId = some id))
  | .pubAck _ | .pubRec _ | .pubRel _ | .pubComp _ => True
  | .subscribe _ | .unsubscribe _ | .pingReq => True
  | .connect _ | .connAck _ | .subAck _ | .unsubAck _ | .pingResp | .disconnect _ | .auth _ => False

/-- The packets that answer a packet from a client. -/
def Answer : Packet → List Packet → Prop
  | .publish p, out =>
    (p.qos = .atMostOnce ∧ out = []) ∨
    (p.qos = .atLeastOnce ∧ ∃ id, p.packetId = some id ∧ out = [.pubAck ⟨id, .success, none⟩]) ∨
    (p.qos = .exactlyOnce ∧ ∃ id, p.packetId = some id ∧ out = [.pubRec ⟨id, .success, none⟩])
  | .pubAck _, out => out = []
  | .pubRec a, out => out = [.pubRel ⟨a.packetId, .success, none⟩]
  | .pubRel a, out => out = [.pubComp ⟨a.packetId, .success, none⟩]
  | .pubComp _, out => out = []
  | .subscribe p, out => ∃ a, out = [.subAck a] ∧ a.packetId = p.packetId
  | .unsubscribe p, out => ∃ a, out = [.unsubAck a] ∧ a.packetId = p.packetId
  | .pingReq, out => out = [.pingResp]
  | _, _ => False

open Classical in
/-- The SUBACK code for a requested filter: refused exactly if the filter is not valid. -/
noncomputable def subscribeCode (f : Str) : ReasonCode :=
  if ValidFilter f then .grantedQoS0 else .topicFilterInvalid

/-- The UNSUBACK codes for the requested filters, given the filters subscribed to: success for those
subscribed to at that point (a filter named twice is gone the second time). -/
def unsubscribeCodes (subscribed : List Str) : List Str → List ReasonCode
  | [] => []
  | f :: fs => (if f ∈ subscribed then .success else .noSubscriptionExisted) ::
      unsubscribeCodes (subscribed.filter (· ≠ f)) fs

end Spec

end Mercurio
