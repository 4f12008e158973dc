import Verif.Spec.Client
import Verif.Spec.Wire

/-!
# Specification: where a read of the client may end

A read of a socket may end anywhere inside a packet.  Which places do no harm?
-/

namespace Mercurio

open Spec

/-- The number of bytes of first byte and length. -/
def Spec.headEnd (bytes : Buf) : Nat := 2 + (bytes.tail.takeWhile fun b => decide (Continues b)).length

/-- If a read ends after the first `k` bytes of the packet, the client waits for the others:

* PINGRESP: nowhere;
* PUBLISH: before the payload, that is, the payload is missing and something else, too, but not after the length
  of the topic and before its end;
* SUBACK, UNSUBACK: before the reason codes, in the same sense (in an UNSUBACK of MQTT 3 there are none);
* CONNACK: not after the length and not after the flags, but everywhere else;
* PUBACK, PUBREC, PUBREL, PUBCOMP: everywhere but before the reason code;
* DISCONNECT, AUTH: the same. -/
def Packet.SafeCut (v : ProtocolVersion) (p : Packet) (bytes : Buf) (k : Nat) : Prop :=
  match p with
  | .connAck _ => k < headEnd bytes ∨ headEnd bytes + 2 ≤ k
  | .publish p => (p.payload.getD []).length < bytes.length - k ∧
      (k < headEnd bytes + 2 ∨ headEnd bytes + 2 + p.topicName.length ≤ k)
  | .pubAck _ | .pubRec _ | .pubRel _ | .pubComp _ => k ≠ headEnd bytes + 2
  | .subAck p => p.payload.length < bytes.length - k
  | .unsubAck p => v = .v5 → p.payload.length < bytes.length - k
  | .disconnect _ | .auth _ => k ≠ headEnd bytes
  | _ => False

/-- Packets that servers send. -/
def Packet.ToClient : Packet → Prop
  | .connAck _ | .publish _ | .pubAck _ | .pubRec _ | .pubRel _ | .pubComp _ | .subAck _ | .unsubAck _
  | .pingResp | .disconnect _ | .auth _ => True
  | _ => False

/-- The first `k` bytes of what is sent for the packets are whole packets, or whole packets and the beginning of
one that may be cut there. -/
def EndsWell (v : ProtocolVersion) : List Packet → Nat → Prop
  | [], _ => True
  | p :: ps, k => k = 0 ∨ ∃ bytes, p.encode = .ok bytes ∧
      if k < bytes.length then p.SafeCut v bytes k else EndsWell v ps (k - bytes.length)

end Mercurio
