import Verif.Spec.Packets

/-!
# Specification: the packets of MQTT 3.1.1

The packets of a connection of version 3.1 or 3.1.1 after the CONNECT, as data and as bytes, after chapter 3
of the MQTT 3.1.1 standard.  (Differently from MQTT 5 there are no properties, and acknowledgements give no
reason.)
-/

namespace Mercurio.Spec

open Mercurio

/-- A packet of MQTT 3.1.1. -/
inductive Packet3 where
  | connAck (present : Bool) (code : UInt8)
  | publish (dup : Bool) (qos : QoS) (retain : Bool) (topic : Str) (id : Option UInt16) (payload : Buf)
  | pubAck (id : UInt16)
  | pubRec (id : UInt16)
  | pubRel (id : UInt16)
  | pubComp (id : UInt16)
  | subscribe (id : UInt16) (filters : List (Str × QoS))
  | subAck (id : UInt16) (codes : List UInt8)
  | unsubscribe (id : UInt16) (filters : List Str)
  | unsubAck (id : UInt16)
  | pingReq
  | pingResp
  | disconnect

namespace Packet3

/-- The first byte. -/
def first : Packet3 → Nat
  | .connAck .. => 0x20
  | .publish dup qos retain .. => 0x30 + (if dup then 8 else 0) + 2 * qos.level + (if retain then 1 else 0)
  | .pubAck _ => 0x40
  | .pubRec _ => 0x50
  | .pubRel _ => 0x62
  | .pubComp _ => 0x70
  | .subscribe .. => 0x82
  | .subAck .. => 0x90
  | .unsubscribe .. => 0xa2
  | .unsubAck _ => 0xb0
  | .pingReq => 0xc0
  | .pingResp => 0xd0
  | .disconnect => 0xe0

/-- The bytes after the length. -/
def body : Packet3 → Buf
  | .connAck present code => [if present then 1 else 0, code]
  | .publish _ _ _ topic id payload =>
    field topic ++ (match id with | none => [] | some i => be16 i.toNat) ++ payload
  | .pubAck id | .pubRec id | .pubRel id | .pubComp id | .unsubAck id => be16 id.toNat
  | .subscribe id fs => be16 id.toNat ++ fs.flatMap fun f => field f.1 ++ [UInt8.ofNat f.2.level]
  | .subAck id codes => be16 id.toNat ++ codes
  | .unsubscribe id fs => be16 id.toNat ++ fs.flatMap field
  | .pingReq | .pingResp | .disconnect => []

/-- The bytes of a packet. -/
def bytes (x : Packet3) : Buf := UInt8.ofNat x.first :: (vbi x.body.length ++ x.body)

/-- What the standard demands of a packet. -/
def Legal (x : Packet3) : Prop :=
  x.body.length < 2 ^ 28 ∧
  match x with
  | .connAck present code => code ≤ 5 ∧ (present = true → code = 0)
  | .publish _ qos _ topic id _ => TextField topic ∧ qos ≠ .invalid ∧ (id.isSome ↔ qos ≠ .atMostOnce)
  | .subscribe _ fs => fs ≠ [] ∧ ∀ f ∈ fs, f.1 ≠ [] ∧ TextField f.1 ∧ f.2 ≠ .invalid
  | .subAck _ codes => codes ≠ [] ∧ ∀ c ∈ codes, c ∈ [0, 1, 2, 0x80]
  | .unsubscribe _ fs => fs ≠ [] ∧ ∀ f ∈ fs, f ≠ [] ∧ TextField f
  | _ => True

/-- The return code of a CONNACK and a reason as the server has it. -/
def connectCode : ReasonCode → Option UInt8
  | .success => some 0
  | .unsupportedProtocolVersion => some 1
  | .clientIdentifierNotValid => some 2
  | .serverUnavailable => some 3
  | .badUserNameOrPassword => some 4
  | .notAuthorized => some 5
  | _ => none

/-- The return code of a SUBACK and a reason as the server has it. -/
def subscribeCode : ReasonCode → UInt8
  | .grantedQoS0 => 0
  | .grantedQoS1 => 1
  | .grantedQoS2 => 2
  | _ => 0x80

/-- The packet says the same as the packet of the server: properties are absent or empty, no options
besides the QoS are used, acknowledgements give success. -/
def Means : Packet3 → Packet → Prop
  | .connAck present code, .connAck p => p.sessionPresent = present ∧ connectCode p.reasonCode = some code
  | .publish dup qos retain topic id payload, .publish p => p.dup = dup ∧ p.qos = qos ∧ p.retain = retain ∧
      p.topicName = topic ∧ p.packetId = id ∧ p.properties.getD {} = {} ∧ p.payload.getD [] = payload
  | .pubAck id, .pubAck p | .pubRec id, .pubRec p | .pubRel id, .pubRel p | .pubComp id, .pubComp p =>
      p = { packetId := id }
  | .subscribe id fs, .subscribe p => p.packetId = id ∧ p.properties.getD {} = {} ∧
      p.payload = fs.map fun f => ⟨f.1, { qos := f.2 }⟩
  | .subAck id codes, .subAck p => p.packetId = id ∧ p.payload.map subscribeCode = codes
  | .unsubscribe id fs, .unsubscribe p => p.packetId = id ∧ p.properties.getD {} = {} ∧ p.payload = fs
  | .unsubAck id, .unsubAck p => p.packetId = id
  | .pingReq, .pingReq | .pingResp, .pingResp => True
  | .disconnect, .disconnect p => p = { reason := .normalDisconnection }
  | _, _ => False

end Packet3

end Mercurio.Spec
