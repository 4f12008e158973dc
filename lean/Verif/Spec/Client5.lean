import Verif.Spec.V5
import Verif.Model.Client

/-!
# Specification: the packets a client may send

The packets from a client to a server which the built-in client makes use of, as data and as bytes, after
chapter 3 of the MQTT 5 standard; and the calls of the application that ask for something the standard allows.
-/

namespace Mercurio.Spec

open Mercurio

/-- The will in a CONNECT. -/
structure Testament where
  props : List Property
  topic : Str
  payload : Buf
  qos : QoS
  retain : Bool

/-- A packet from a client to a server: a CONNECT of any version, and packets of MQTT 5.  The options of a
subscription are one byte. -/
inductive Request5 where
  | connect (v : ProtocolVersion) (clean : Bool) (keepAlive : UInt16) (props : List Property) (id : Str)
      (will : Option Testament) (user : Option Str) (password : Option Buf)
  | publish (dup : Bool) (qos : QoS) (retain : Bool) (topic : Str) (id : Option UInt16) (props : List Property) (payload : Buf)
  | pubAck (id : UInt16) (why : AckTail)
  | subscribe (id : UInt16) (props : List Property) (filters : List (Str × UInt8))
  | unsubscribe (id : UInt16) (props : List Property) (filters : List Str)
  | pingReq
  | disconnect (why : AckTail)

namespace Request5

/-- The first byte. -/
def first : Request5 → Nat
  | .connect .. => 0x10
  | .publish dup qos retain .. => 0x30 + (if dup then 8 else 0) + 2 * qos.level + (if retain then 1 else 0)
  | .pubAck .. => 0x40
  | .subscribe .. => 0x82
  | .unsubscribe .. => 0xa2
  | .pingReq => 0xc0
  | .disconnect _ => 0xe0

/-- The flags of a CONNECT (MQTT 5, 3.1.2.3). -/
def flags (clean : Bool) (will : Option Testament) (user : Option Str) (password : Option Buf) : Nat :=
  128 * bit user.isSome + 64 * bit password.isSome +
    (match will with | none => 0 | some w => 32 * bit w.retain + 8 * w.qos.level + 4) + 2 * bit clean

/-- A block of properties, which only MQTT 5 has. -/
def blockIn (v : ProtocolVersion) (ps : List Property) : Buf := if v = .v5 then Packet5.propertyBlock ps else []

/-- An optional field. -/
def optField : Option Buf → Buf
  | none => []
  | some s => field s

/-- The bytes of the will. -/
def willBytes (v : ProtocolVersion) : Option Testament → Buf
  | none => []
  | some w => blockIn v w.props ++ field w.topic ++ field w.payload

/-- The bytes after the length. -/
def body : Request5 → Buf
  | .connect v clean keepAlive ps id will user password =>
    protocolOf v ++ [UInt8.ofNat (flags clean will user password)] ++ be16 keepAlive.toNat ++ blockIn v ps ++ field id ++
      willBytes v will ++ optField user ++ optField password
  | .publish _ _ _ topic id ps payload =>
    field topic ++ (match id with | none => [] | some i => be16 i.toNat) ++ Packet5.propertyBlock ps ++ payload
  | .pubAck id why => be16 id.toNat ++ Packet5.whyBytes why
  | .subscribe id ps fs => be16 id.toNat ++ Packet5.propertyBlock ps ++ fs.flatMap fun f => field f.1 ++ [f.2]
  | .unsubscribe id ps fs => be16 id.toNat ++ Packet5.propertyBlock ps ++ fs.flatMap field
  | .pingReq => []
  | .disconnect why => Packet5.whyBytes why

/-- The bytes of a packet. -/
def bytes (x : Request5) : Buf := UInt8.ofNat x.first :: (vbi x.body.length ++ x.body)

/-- What the standards demand of a packet from a client. -/
def Legal (x : Request5) : Prop :=
  x.body.length < 2 ^ 28 ∧
  match x with
  | .connect v clean _ ps id will user password =>
    TextField id ∧ (0 : UInt8) ∉ id ∧
    (∀ u, user = some u → TextField u ∧ (0 : UInt8) ∉ u) ∧ (∀ p, password = some p → BinaryField p) ∧
    (∀ w, will = some w → TextField w.topic ∧ ValidTopic w.topic ∧ BinaryField w.payload ∧ w.qos ≠ .invalid ∧
      Packet5.LegalBlock [0x18, 0x01, 0x02, 0x03, 0x08, 0x09, 0x26] [] w.props) ∧
    (v = .v5 → Packet5.LegalBlock [0x11, 0x21, 0x27, 0x22, 0x19, 0x17, 0x26, 0x15, 0x16] [] ps) ∧
    -- in MQTT 3.1.1 a password needs a user name, and a session to be kept needs an identifier (3.1.2.9, 3.1.3.1);
    -- in MQTT 3.1 identifiers have 1 to 23 characters
    (v ≠ .v5 → (password.isSome → user.isSome) ∧ (id = [] → v = .v3_1_1 ∧ clean = true)) ∧
    (v = .v3_1 → id.length ≤ 23)
  | .publish dup qos _ topic id ps _ =>
    TextField topic ∧ (0 : UInt8) ∉ topic ∧ (0x2b : UInt8) ∉ topic ∧ (0x23 : UInt8) ∉ topic ∧
    (topic = [] → ∃ q ∈ ps, q.number = 0x23) ∧
    qos ≠ .invalid ∧ (id.isSome ↔ qos ≠ .atMostOnce) ∧ id ≠ some 0 ∧ (dup = true → qos ≠ .atMostOnce) ∧
    Packet5.LegalBlock [0x01, 0x02, 0x23, 0x08, 0x09, 0x26, 0x03] [] ps
  | .pubAck id why => id ≠ 0 ∧ Packet5.LegalWhy [0, 0x10, 0x80, 0x83, 0x87, 0x90, 0x91, 0x97, 0x99] why
  | .subscribe id ps fs => id ≠ 0 ∧ Packet5.LegalBlock [0x0b, 0x26] [] ps ∧ fs ≠ [] ∧
    ∀ f ∈ fs, TextField f.1 ∧ ValidFilter f.1 ∧ f.2.toNat % 4 ≤ 2 ∧ f.2.toNat / 16 ≤ 2
  | .unsubscribe id ps fs => id ≠ 0 ∧ Packet5.LegalBlock [0x26] [] ps ∧ fs ≠ [] ∧
    ∀ f ∈ fs, TextField f ∧ ValidFilter f
  | .pingReq => True
  | .disconnect why =>
    match why with
    | none => True
    | some (code, ps) => code ∈ [0, 4, 0x80, 0x81, 0x82, 0x83, 0x90, 0x93, 0x94, 0x95, 0x96, 0x97, 0x98, 0x99] ∧
      Packet5.LegalBlock [0x11, 0x1f, 0x26] [] (ps.getD [])

/-- The packet is the one to send for what happened to the client: it says what the call said, acknowledges what
was received, or is a ping.  No properties are used. -/
def For : Request5 → ClientIn → Prop
  | .publish dup qos retain topic _ ps payload, .publish t pl q r _ =>
    dup = false ∧ qos = q ∧ retain = r ∧ topic = t ∧ ps = [] ∧ payload = pl
  | .pubAck id why, .read (.packet (.publish p)) _ => p.qos = .atLeastOnce ∧ p.packetId = some id ∧ why = none
  | .subscribe _ ps fs, .subscribe ts _ => ps = [] ∧ fs = ts.map fun t => (t.1, UInt8.ofNat t.2.level)
  | .unsubscribe _ ps fs, .unsubscribe ts _ => ps = [] ∧ fs = ts
  | .pingReq, .tick _ => True
  | .disconnect why, .disconnect _ => why = some (0, none)
  | _, _ => False

end Request5

/-- What happens to the client obeys the standard: the application publishes to topics and subscribes to
filters that are legal, names at least one filter, and what it sends is not too large for a packet; the server
uses packet identifiers other than 0. -/
def LegalInput : ClientIn → Prop
  | .publish t pl q _ _ => TextField t ∧ ValidTopic t ∧ q ≠ .invalid ∧ pl.length + 65545 ≤ 2 ^ 28
  | .subscribe ts _ => ts ≠ [] ∧ (∀ t ∈ ts, TextField t.1 ∧ ValidFilter t.1 ∧ t.2 ≠ .invalid) ∧
      (ts.map fun t => t.1.length + 3).sum + 3 < 2 ^ 28
  | .unsubscribe ts _ => ts ≠ [] ∧ (∀ t ∈ ts, TextField t ∧ ValidFilter t) ∧ (ts.map fun t => t.length + 2).sum + 3 < 2 ^ 28
  | .read (.packet (.publish p)) _ => p.packetId ≠ some 0
  | _ => True

/-- The options obey the standard of their version. -/
structure LegalOptions (o : ConnectOptions) : Prop where
  id : TextField (o.clientId.getD []) ∧ (0 : UInt8) ∉ o.clientId.getD []
  user : ∀ u, o.username = some u → TextField u ∧ (0 : UInt8) ∉ u
  password : ∀ p, o.password = some p → BinaryField p
  will : ∀ w, o.will = some w → TextField w.topic ∧ ValidTopic w.topic ∧ BinaryField w.payload ∧ w.qos ≠ .invalid
  old : o.protocolVersion ≠ .v5 → (o.password.isSome → o.username.isSome) ∧
    (o.clientId.getD [] = [] → o.protocolVersion = .v3_1_1 ∧ o.cleanStart = true)
  older : o.protocolVersion = .v3_1 → (o.clientId.getD []).length ≤ 23

/-- The CONNECT that says what the options say. -/
def connectFor (o : ConnectOptions) : Request5 :=
  .connect o.protocolVersion o.cleanStart o.keepAlive [] (o.clientId.getD [])
    (o.will.map fun w => ⟨[], w.topic, w.payload, w.qos, w.retain⟩) o.username o.password

end Mercurio.Spec
