import Verif.Spec.Grammar
import Verif.Spec.Topic
import Verif.Model.Server

/-!
# Specification: the packets an MQTT 5 server may send, and clients that obey the standard

The packets from a server to a client, as data and as bytes, after chapter 3 of the MQTT 5 standard; and what
of the standard is demanded of the clients when the server's packets are judged.
-/

namespace Mercurio.Spec

open Mercurio

/-- What an acknowledgement may add to the packet identifier: nothing (success), a reason, or a reason and
properties. -/
abbrev AckTail := Option (UInt8 × Option (List Property))

/-- A packet of MQTT 5 from a server to a client. -/
inductive Packet5 where
  | connAck (present : Bool) (code : UInt8) (props : List Property)
  | publish (dup : Bool) (qos : QoS) (retain : Bool) (topic : Str) (id : Option UInt16) (props : List Property) (payload : Buf)
  | pubAck (id : UInt16) (why : AckTail)
  | pubRec (id : UInt16) (why : AckTail)
  | pubRel (id : UInt16) (why : AckTail)
  | pubComp (id : UInt16) (why : AckTail)
  | subAck (id : UInt16) (props : List Property) (codes : List UInt8)
  | unsubAck (id : UInt16) (props : List Property) (codes : List UInt8)
  | pingResp
  | disconnect (why : AckTail)
  | auth (why : Option (UInt8 × List Property))

namespace Packet5

/-- A block of properties: its length and the properties (MQTT 5, 2.2.2). -/
def propertyBlock (ps : List Property) : Buf :=
  vbi (ps.flatMap Property.wire).length ++ ps.flatMap Property.wire

/-- Reason and properties at the end of an acknowledgement (MQTT 5, 3.4.2.1). -/
def whyBytes : AckTail → Buf
  | none => []
  | some (code, none) => [code]
  | some (code, some ps) => code :: propertyBlock ps

/-- The first byte. -/
def first : Packet5 → Nat
  | .connAck .. => 0x20
  | .publish dup qos retain .. => 0x30 + (if dup then 8 else 0) + 2 * qos.level + (if retain then 1 else 0)
  | .pubAck .. => 0x40
  | .pubRec .. => 0x50
  | .pubRel .. => 0x62
  | .pubComp .. => 0x70
  | .subAck .. => 0x90
  | .unsubAck .. => 0xb0
  | .pingResp => 0xd0
  | .disconnect _ => 0xe0
  | .auth _ => 0xf0

/-- The bytes after the length. -/
def body : Packet5 → Buf
  | .connAck present code ps => [if present then 1 else 0, code] ++ propertyBlock ps
  | .publish _ _ _ topic id ps payload =>
    field topic ++ (match id with | none => [] | some i => be16 i.toNat) ++ propertyBlock ps ++ payload
  | .pubAck id why | .pubRec id why | .pubRel id why | .pubComp id why => be16 id.toNat ++ whyBytes why
  | .subAck id ps codes | .unsubAck id ps codes => be16 id.toNat ++ propertyBlock ps ++ codes
  | .pingResp => []
  | .disconnect why => whyBytes why
  | .auth why => match why with | none => [] | some (code, ps) => code :: propertyBlock ps

/-- The bytes of a packet. -/
def bytes (x : Packet5) : Buf := UInt8.ofNat x.first :: (vbi x.body.length ++ x.body)

/-- The properties are among the allowed ones, have the values of their type, and only user properties (and
those in `many`) are given more than once. -/
def LegalBlock (allowed many : List Nat) (ps : List Property) : Prop :=
  (∀ q ∈ ps, q.Admissible ∧ q.number ∈ allowed) ∧
  ((ps.map Property.number).filter fun n => n ≠ 0x26 ∧ n ∉ many).Nodup

/-- The reason of an acknowledgement is among the allowed ones; its properties are reason string and user
properties. -/
def LegalWhy (codes : List UInt8) : AckTail → Prop
  | none => True
  | some (code, none) => code ∈ codes
  | some (code, some ps) => code ∈ codes ∧ LegalBlock [0x1f, 0x26] [] ps

/-- What the standard demands of a packet from a server. -/
def Legal (x : Packet5) : Prop :=
  x.body.length < 2 ^ 28 ∧
  match x with
  | .connAck present code ps =>
    code ∈ [0, 0x80, 0x81, 0x82, 0x83, 0x84, 0x85, 0x86, 0x87, 0x88, 0x89, 0x8a, 0x8c, 0x90, 0x95, 0x97, 0x99,
      0x9a, 0x9b, 0x9c, 0x9d, 0x9f] ∧ (present = true → code = 0) ∧
    LegalBlock [0x11, 0x21, 0x24, 0x25, 0x27, 0x12, 0x22, 0x1f, 0x26, 0x28, 0x29, 0x2a, 0x13, 0x1a, 0x1c, 0x15, 0x16] [] ps
  | .publish dup qos _ topic id ps _ =>
    TextField topic ∧ (0 : UInt8) ∉ topic ∧ (0x2b : UInt8) ∉ topic ∧ (0x23 : UInt8) ∉ topic ∧
    (topic = [] → ∃ q ∈ ps, q.number = 0x23) ∧
    qos ≠ .invalid ∧ (id.isSome ↔ qos ≠ .atMostOnce) ∧ id ≠ some 0 ∧ (dup = true → qos ≠ .atMostOnce) ∧
    LegalBlock [0x01, 0x02, 0x23, 0x08, 0x09, 0x26, 0x0b, 0x03] [0x0b] ps
  | .pubAck id why | .pubRec id why => id ≠ 0 ∧ LegalWhy [0, 0x10, 0x80, 0x83, 0x87, 0x90, 0x91, 0x97, 0x99] why
  | .pubRel id why | .pubComp id why => id ≠ 0 ∧ LegalWhy [0, 0x92] why
  | .subAck id ps codes => id ≠ 0 ∧ LegalBlock [0x1f, 0x26] [] ps ∧ codes ≠ [] ∧
    ∀ c ∈ codes, c ∈ [0, 1, 2, 0x80, 0x83, 0x87, 0x8f, 0x91, 0x97, 0x9e, 0xa1, 0xa2]
  | .unsubAck id ps codes => id ≠ 0 ∧ LegalBlock [0x1f, 0x26] [] ps ∧ codes ≠ [] ∧
    ∀ c ∈ codes, c ∈ [0, 0x11, 0x80, 0x83, 0x87, 0x8f, 0x91]
  | .pingResp => True
  | .disconnect why =>
    match why with
    | none => True
    | some (code, ps) => code ∈ [0, 0x80, 0x81, 0x82, 0x83, 0x87, 0x89, 0x8b, 0x8d, 0x8e, 0x8f, 0x90, 0x93, 0x94, 0x95,
        0x96, 0x97, 0x98, 0x99, 0x9a, 0x9b, 0x9c, 0x9d, 0x9e, 0x9f, 0xa0, 0xa1, 0xa2] ∧
      LegalBlock [0x1f, 0x26, 0x1c] [] (ps.getD [])
  | .auth why =>
    match why with
    | none => True
    | some (code, ps) => code ∈ [0, 0x18] ∧ LegalBlock [0x15, 0x16, 0x1f, 0x26] [] ps

/-- The packet says the same as the packet of the server (which has no properties, but for the client
identifier it assigns). -/
def Means : Packet5 → Packet → Prop
  | .connAck present code ps, .connAck p => p.sessionPresent = present ∧ p.reasonCode.number = code.toNat ∧
      (p.properties = none ∧ ps = [] ∨
        ∃ id, p.properties = some { assignedClientId := some id } ∧ ps = [.assignedClientIdentifier id])
  | .publish dup qos retain topic id ps payload, .publish p => p.dup = dup ∧ p.qos = qos ∧ p.retain = retain ∧
      p.topicName = topic ∧ p.packetId = id ∧ p.properties = none ∧ ps = [] ∧ p.payload.getD [] = payload
  | .pubAck id why, .pubAck p | .pubRec id why, .pubRec p | .pubRel id why, .pubRel p | .pubComp id why, .pubComp p =>
      p = { packetId := id } ∧ why = none
  | .subAck id ps codes, .subAck p => p.packetId = id ∧ p.properties = none ∧ ps = [] ∧
      p.payload.map ReasonCode.number = codes.map UInt8.toNat
  | .unsubAck id ps codes, .unsubAck p => p.packetId = id ∧ p.properties = none ∧ ps = [] ∧
      p.payload.map ReasonCode.number = codes.map UInt8.toNat
  | .pingResp, .pingResp => True
  | _, _ => False

/-- A message under another topic. -/
def withTopic (t : Str) : Packet5 → Packet5
  | .publish dup qos retain _ id ps payload => .publish dup qos retain t id ps payload
  | x => x

/-- The packet is a message, and the topic in it contains a wildcard. -/
def UnderWildcard : Packet5 → Prop
  | .publish _ _ _ topic _ _ _ => (0x2b : UInt8) ∈ topic ∨ (0x23 : UInt8) ∈ topic
  | _ => False

end Packet5

/-- The packet from a client obeys the standard in what the server's answers and messages depend on: packet
identifiers are not zero, a PUBLISH has one exactly if its QoS is 1 or 2 and is marked as a duplicate only
then, requests name at least one filter, and sizes leave room for the packets made from them.  There is no
second CONNECT and no AUTH. -/
def Obeys5 : Packet → Prop
  | .publish p => p.qos ≠ .invalid ∧ (p.packetId.isSome ↔ p.qos ≠ .atMostOnce) ∧ p.packetId ≠ some 0 ∧
      (p.dup = true → p.qos ≠ .atMostOnce) ∧ (p.payload.getD []).length + 65545 ≤ 2 ^ 28
  | .pubRec p | .pubRel p => p.packetId ≠ 0
  | .subscribe p => p.packetId ≠ 0 ∧ p.payload ≠ [] ∧ (∀ e ∈ p.payload, TextField e.topicFilter) ∧
      p.payload.length + 4 < 2 ^ 28
  | .unsubscribe p => p.packetId ≠ 0 ∧ p.payload ≠ [] ∧ p.payload.length + 4 < 2 ^ 28
  | .connect _ | .auth _ => False
  | _ => True

/-- The CONNECT is one of MQTT 5; a will it contains has a legal topic and QoS 0. -/
def Opens5 (p : ConnectPacket) : Prop :=
  p.protocolVersion = .v5 ∧
  (p.flags.willFlag = true → ∀ t, p.payload.willTopic = some t →
    ValidTopic t ∧ p.flags.willQos = .atMostOnce ∧ (p.payload.willPayload.getD []).length ≤ 65535)

/-- All clients begin with a CONNECT of MQTT 5 and obey the standard; identifiers the server makes up are text. -/
def EventObeys5 : Event → Prop
  | .first _ p uuid _ => (∃ q, p = .connect q ∧ Opens5 q) ∧ TextField uuid
  | .recv _ p => Spec.Obeys5 p
  | _ => True

end Mercurio.Spec
