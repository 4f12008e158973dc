import Verif.Spec.Packets

/-!
# Specification: the grammar of the packets

Which bytes say what, after MQTT 5 (and 3.1.1), as relations between values and bytes.  Only the data
types of the model are used.
-/

namespace Mercurio

open Spec

namespace Spec

/-- `w` is a variable byte integer of value `n`, of at most four bytes (MQTT 5, 1.5.5), possibly longer
than needed. -/
def VbiOf (n : Nat) (w : Buf) : Prop :=
  ∃ pre last, w = pre ++ [last] ∧ pre.length ≤ 3 ∧ (∀ b ∈ pre, Continues b) ∧ ¬ Continues last ∧
    n = base128 w

/-- `w` is the text `s` with its length. -/
def TextOf (s : Str) (w : Buf) : Prop := TextField s ∧ w = field s

/-- `w` is the binary data `s` with its length. -/
def BinaryOf (s : Buf) (w : Buf) : Prop := BinaryField s ∧ w = field s

/-- An optional item. -/
def OptOf {α : Type} (W : α → Buf → Prop) : Option α → Buf → Prop
  | none, w => w = []
  | some a, w => W a w

/-- Items one after the other. -/
inductive ListOf {α : Type} (W : α → Buf → Prop) : List α → Buf → Prop where
  | nil : ListOf W [] []
  | cons {a : α} {as : List α} {u w : Buf} : W a u → ListOf W as w → ListOf W (a :: as) (u ++ w)

/-- `1` for true. -/
def bit (b : Bool) : Nat := if b then 1 else 0

end Spec

/-! ## Properties -/

/-- The identifier of a property (MQTT 5, table 2-4). -/
def Property.number (p : Property) : Nat := (p.wire.headD 0).toNat

/-- `w` is the value of the property; booleans are given by any byte, zero or not. -/
def Property.ValueOf (p : Property) (w : Buf) : Prop :=
  p.Admissible ∧
  match p with
  | .subscriptionIdentifier v => VbiOf v.toNat w
  | .retainAvailable v | .wildcardSubscriptionAvailable v | .subscriptionIdentifierAvailable v
  | .sharedSubscriptionAvailable v => ∃ b, w = [b] ∧ (v = true ↔ b ≠ 0)
  | p => w = p.wire.tail

/-- `w` is the property: identifier and value. -/
def Property.Of (p : Property) (w : Buf) : Prop :=
  ∃ i x, w = i ++ x ∧ VbiOf p.number i ∧ p.ValueOf x

/-- How the server reads the properties: Request Response Information is taken for Request Problem
Information (see C07), the others for what they are. -/
def Property.misread : Property → Property
  | .requestResponseInformation v => .requestProblemInformation v
  | p => p

/-- The record `held` is what a list of properties says: all user properties in their order, and of every
other kind the last one. -/
def Spec.Sums (held ps : List Property) : Prop :=
  ∀ i, held.filter (·.number = i) =
    if i = 0x26 then ps.filter (·.number = i) else (ps.filter (·.number = i)).getLast?.toList

/-- `w` is a block of properties that say `held`, preceded by its length. -/
def Spec.BlockOf (held : List Property) (w : Buf) : Prop :=
  ∃ ps l x, w = l ++ x ∧ VbiOf x.length l ∧ ListOf Property.Of ps x ∧ Sums held (ps.map Property.misread)

/-- An optional property of a record. -/
def Spec.one {α : Type} (C : α → Property) : Option α → List Property
  | none => []
  | some v => [C v]

/-- The user properties of a record. -/
def Spec.users : Option (List (Str × Str)) → List Property
  | none => []
  | some l => l.map fun kv => .userProperty kv.1 kv.2

/-- The properties in a record. -/
def ConnectProperties.held (p : ConnectProperties) : List Property :=
  one .sessionExpiryInterval p.sessionExpiryInterval ++ one .receiveMaximum p.receiveMaximum ++
  one .maximumPacketSize p.maximumPacketSize ++ one .topicAliasMaximum p.topicAliasMaximum ++
  one .requestResponseInformation p.requestResponseInformation ++
  one .requestProblemInformation p.requestProblemInformation ++ users p.userProperty ++
  one .authenticationMethod p.authenticationMethod ++ one .authenticationData p.authenticationData

/-- The properties in a record. -/
def WillProperties.held (p : WillProperties) : List Property :=
  one .willDelayInterval p.willDelayInterval ++ one .payloadFormatIndicator p.payloadFormatIndicator ++
  one .messageExpiryInterval p.messageExpiryInterval ++ one .contentType p.contentType ++
  one .responseTopic p.responseTopic ++ one .correlationData p.correlationData ++ users p.userProperty

/-- The properties in a record. -/
def ConnAckProperties.held (p : ConnAckProperties) : List Property :=
  one .sessionExpiryInterval p.sessionExpiryInterval ++ one .receiveMaximum p.receiveMaximum ++
  one .maximumQoS p.maximumQos ++ one .retainAvailable p.retainAvailable ++
  one .maximumPacketSize p.maximumPacketSize ++ one .assignedClientIdentifier p.assignedClientId ++
  one .topicAliasMaximum p.topicAliasMax ++ one .reasonString p.reasonString ++ users p.userProperty ++
  one .wildcardSubscriptionAvailable p.wildcardSubscriptionAvailable ++
  one .subscriptionIdentifierAvailable p.subscriptionIdentifierAvailable ++
  one .sharedSubscriptionAvailable p.sharedSubscriptionAvailable ++
  one .serverKeepAlive p.serverKeepalive ++ one .responseInformation p.responseInformation ++
  one .serverReference p.serverReference ++ one .authenticationMethod p.authenticationMethod ++
  one .authenticationData p.authenticationData

/-- The properties in a record. -/
def PublishProperties.held (p : PublishProperties) : List Property :=
  one .payloadFormatIndicator p.payloadFormatIndicator ++
  one .messageExpiryInterval p.messageExpiryInterval ++ one .topicAlias p.topicAlias ++
  one .responseTopic p.responseTopic ++ one .correlationData p.correlationData ++ users p.userProperty ++
  one .subscriptionIdentifier p.subscriptionIdentifier ++ one .contentType p.contentType

/-- The properties in a record. -/
def AckProperties.held (p : AckProperties) : List Property :=
  one .reasonString p.reasonString ++ users p.userProperty

/-- The properties in a record. -/
def SubscribeProperties.held (p : SubscribeProperties) : List Property :=
  one .subscriptionIdentifier p.subscriptionId ++ users p.userProperty

/-- The properties in a record. -/
def UnsubscribeProperties.held (p : UnsubscribeProperties) : List Property := users p.userProperty

/-- The properties in a record. -/
def DisconnectProperties.held (p : DisconnectProperties) : List Property :=
  one .sessionExpiryInterval p.sessionExpiryInterval ++ one .reasonString p.reasonString ++
  users p.userProperty ++ one .serverReference p.serverReference

/-- The properties in a record. -/
def AuthProperties.held (p : AuthProperties) : List Property :=
  one .authenticationMethod p.authMethod ++ one .authenticationData p.authData ++
  one .reasonString p.reasonString ++ users p.userProperty

namespace Spec

/-- `w` is a block of CONNECT properties. The empty list of user properties is not used. -/
def ConnectBlock (q : ConnectProperties) (w : Buf) : Prop := q.userProperty ≠ some [] ∧ BlockOf q.held w
/-- The same for the properties of a will. -/
def WillBlock (q : WillProperties) (w : Buf) : Prop := q.userProperty ≠ some [] ∧ BlockOf q.held w
/-- The same for CONNACK. -/
def ConnAckBlock (q : ConnAckProperties) (w : Buf) : Prop := q.userProperty ≠ some [] ∧ BlockOf q.held w
/-- The same for PUBLISH. -/
def PublishBlock (q : PublishProperties) (w : Buf) : Prop := q.userProperty ≠ some [] ∧ BlockOf q.held w
/-- The same for the acknowledgements. -/
def AckBlock (q : AckProperties) (w : Buf) : Prop := q.userProperty ≠ some [] ∧ BlockOf q.held w
/-- The same for SUBSCRIBE. -/
def SubscribeBlock (q : SubscribeProperties) (w : Buf) : Prop := q.userProperty ≠ some [] ∧ BlockOf q.held w
/-- The same for UNSUBSCRIBE. -/
def UnsubscribeBlock (q : UnsubscribeProperties) (w : Buf) : Prop :=
  q.userProperty ≠ some [] ∧ BlockOf q.held w
/-- The same for DISCONNECT. -/
def DisconnectBlock (q : DisconnectProperties) (w : Buf) : Prop :=
  q.userProperty ≠ some [] ∧ BlockOf q.held w
/-- The same for AUTH. -/
def AuthBlock (q : AuthProperties) (w : Buf) : Prop := q.userProperty ≠ some [] ∧ BlockOf q.held w

end Spec

/-! ## Packets -/

/-- A reason code; of the three names of code 0 the first is used. -/
def Spec.ReasonOf (r : ReasonCode) (w : Buf) : Prop := w = [UInt8.ofNat r.number] ∧ r.received = r

/-- The flags of a CONNECT (MQTT 5, 3.1.2.3): the reserved bit is zero; without a will the bits of its
QoS say nothing. -/
def ConnectFlags.Of (f : ConnectFlags) (w : Buf) : Prop :=
  ∃ b : UInt8, ∃ q, w = [b] ∧ q ≤ 3 ∧ (if f.willFlag then q = f.willQos.level ∧ q < 3 else f.willQos = .atMostOnce) ∧
    b.toNat = 128 * bit f.userName + 64 * bit f.password + 32 * bit f.willRetain + 8 * q +
      4 * bit f.willFlag + 2 * bit f.cleanStart

/-- Retain handling as a number. -/
def RetainHandling.level : RetainHandling → Nat
  | .sendRetained => 0
  | .sendRetainedIfNonExisting => 1
  | .doNotSendRetained => 2
  | .invalid => 3

/-- A subscription of a SUBSCRIBE: filter and options (MQTT 5, 3.8.3.1), the reserved bits are zero. -/
def SubscribePayload.Of (e : SubscribePayload) (w : Buf) : Prop :=
  ∃ b : UInt8, TextField e.topicFilter ∧ w = field e.topicFilter ++ [b] ∧ e.opts.Admissible ∧
    b.toNat = e.opts.qos.level + 4 * bit e.opts.noLocal + 8 * bit e.opts.retainAsPub +
      16 * e.opts.retainHandling.level

namespace Spec

/-- Protocol name and level. -/
def protocolOf : ProtocolVersion → Buf
  | .v3_1 => field [77, 81, 73, 115, 100, 112] ++ [3]
  | .v3_1_1 => field [77, 81, 84, 84] ++ [4]
  | .v5 => field [77, 81, 84, 84] ++ [5]

/-- A return code of MQTT 3.1.1 in a CONNACK; unknown codes are read as "unspecified error". -/
def ReturnCode3 (r : ReasonCode) (w : Buf) : Prop :=
  ∃ b : UInt8, w = [b] ∧ r = match b.toNat with
    | 0 => .success
    | 1 => .unsupportedProtocolVersion
    | 2 => .clientIdentifierNotValid
    | 3 => .serverUnavailable
    | 4 => .badUserNameOrPassword
    | 5 => .notAuthorized
    | _ => .unspecifiedError

/-- A return code of MQTT 3.1.1 in a SUBACK. -/
def SubReturnCode3 (r : ReasonCode) (w : Buf) : Prop :=
  ∃ b : UInt8, w = [b] ∧ r = match b.toNat with
    | 0 => .grantedQoS0
    | 1 => .grantedQoS1
    | 2 => .grantedQoS2
    | _ => .unspecifiedError

end Spec

/-- `w` is a CONNECT after the first byte and the length. -/
def ConnectPacket.BodyOf (p : ConnectPacket) (w : Buf) : Prop :=
  ∃ fl props id will topic payload user pw,
    w = protocolOf p.protocolVersion ++ fl ++ be16 p.keepalive.toNat ++ props ++ id ++ will ++ topic ++
      payload ++ user ++ pw ∧
    p.flags.Of fl ∧ (p.properties.isSome ↔ p.protocolVersion = .v5) ∧ OptOf ConnectBlock p.properties props ∧
    TextOf p.payload.clientId id ∧
    (p.payload.willProperties.isSome ↔ p.flags.willFlag = true ∧ p.protocolVersion = .v5) ∧
    OptOf WillBlock p.payload.willProperties will ∧
    p.payload.willTopic.isSome = p.flags.willFlag ∧ OptOf TextOf p.payload.willTopic topic ∧
    p.payload.willPayload.isSome = p.flags.willFlag ∧ OptOf BinaryOf p.payload.willPayload payload ∧
    p.payload.userName.isSome = p.flags.userName ∧ OptOf TextOf p.payload.userName user ∧
    p.payload.password.isSome = p.flags.password ∧ OptOf BinaryOf p.payload.password pw

/-- `w` is an acknowledgement after the first byte and the length: the short form, used if the length is
given as 2, or the long form. -/
def AckPacket.BodyOf (n : Nat) (p : AckPacket) (w : Buf) : Prop :=
  (n = 2 ∧ w = be16 p.packetId.toNat ∧ p.reason = .success ∧ p.properties = none) ∨
  (n ≠ 2 ∧ ∃ r x q, w = be16 p.packetId.toNat ++ r ++ x ∧ ReasonOf p.reason r ∧ p.properties = some q ∧
    AckBlock q x)

/-- `w` is the packet without first byte and length, which was given as `n`, in a connection of version
`v` (which matters for CONNACK, SUBACK and UNSUBACK only). -/
def Packet.BodyOf (v : ProtocolVersion) (n : Nat) : Packet → Buf → Prop
  | .connect p, w => p.BodyOf w
  | .connAck p, w =>
    if v = .v5 then p.protocolVersion = .v5 ∧ ∃ r x q, w = UInt8.ofNat (bit p.sessionPresent) :: (r ++ x) ∧
      ReasonOf p.reasonCode r ∧ p.properties = some q ∧ ConnAckBlock q x
    else p.protocolVersion = .v3_1_1 ∧ ∃ r, w = UInt8.ofNat (bit p.sessionPresent) :: r ∧
      ReturnCode3 p.reasonCode r ∧ p.properties = none
  | .publish p, w => ∃ t i x q pl, w = t ++ i ++ x ++ pl ∧ TextOf p.topicName t ∧ p.qos ≠ .invalid ∧
      (p.packetId.isSome ↔ p.qos ≠ .atMostOnce) ∧ OptOf (fun k w => w = be16 k.toNat) p.packetId i ∧
      p.properties = some q ∧ PublishBlock q x ∧ p.payload = some pl
  | .pubAck p, w | .pubRec p, w | .pubRel p, w | .pubComp p, w => p.BodyOf n w
  | .subscribe p, w => ∃ x q es, w = be16 p.packetId.toNat ++ x ++ es ∧ p.properties = some q ∧
      SubscribeBlock q x ∧ ListOf SubscribePayload.Of p.payload es
  | .subAck p, w =>
    if v = .v5 then p.protocolVersion = .v5 ∧ ∃ x q es, w = be16 p.packetId.toNat ++ x ++ es ∧
      p.properties = some q ∧ AckBlock q x ∧ ListOf ReasonOf p.payload es
    else p.protocolVersion = .v3_1_1 ∧ ∃ es, w = be16 p.packetId.toNat ++ es ∧ p.properties = none ∧
      ListOf SubReturnCode3 p.payload es
  | .unsubscribe p, w => ∃ x q es, w = be16 p.packetId.toNat ++ x ++ es ∧ p.properties = some q ∧
      UnsubscribeBlock q x ∧ ListOf TextOf p.payload es
  | .unsubAck p, w =>
    if v = .v5 then p.protocolVersion = .v5 ∧ ∃ x q es, w = be16 p.packetId.toNat ++ x ++ es ∧
      p.properties = some q ∧ AckBlock q x ∧ ListOf ReasonOf p.payload es
    else p.protocolVersion = .v3_1_1 ∧ w = be16 p.packetId.toNat ∧ p.properties = none ∧ p.payload = []
  | .pingReq, w | .pingResp, w => w = []
  | .disconnect p, w =>
      (n = 0 ∧ w = [] ∧ p.reason = .normalDisconnection ∧ p.properties = none) ∨
      (n = 1 ∧ ReasonOf p.reason w ∧ p.properties = none) ∨
      (2 ≤ n ∧ ∃ r x q, w = r ++ x ∧ ReasonOf p.reason r ∧ p.properties = some q ∧ DisconnectBlock q x)
  | .auth p, w => ∃ r x, w = r ++ x ∧ ReasonOf p.reason r ∧ AuthBlock p.properties x

/-- `c` can be the first byte of the packet: its high half says the type, and for PUBLISH, DISCONNECT and
AUTH the low half is as it must be. (The server does not look at the low half for the others.) -/
def Packet.FirstByte (p : Packet) (c : UInt8) : Prop :=
  p.fixedHeader / 16 = c.toNat / 16 ∧ (p.fixedHeader / 16 ∈ [3, 14, 15] → p.fixedHeader = c.toNat)

/-- `w` is a PUBLISH after the first byte and the length, with its properties in any order, but each only
once (except user properties) and with numbers in their shortest form, as the standard demands. -/
def PublishPacket.ShortOf (p : PublishPacket) (w : Buf) : Prop :=
  ∃ t i q, ∃ ps : List Property, ∃ pl,
    w = t ++ i ++ (vbi (ps.flatMap Property.wire).length ++ ps.flatMap Property.wire) ++ pl ∧
    TextOf p.topicName t ∧ p.qos ≠ .invalid ∧ (p.packetId.isSome ↔ p.qos ≠ .atMostOnce) ∧
    OptOf (fun k w => w = be16 k.toNat) p.packetId i ∧ p.properties = some q ∧ q.userProperty ≠ some [] ∧
    (∀ r ∈ ps, r.Admissible) ∧ (∀ k, q.held.filter (·.number = k) = ps.filter (·.number = k)) ∧
    p.payload = some pl

/-- `w` is the packet after the first byte and the length, and the length is that of `w`; a list of
subscriptions, filters or reasons is not empty. Pings are left out. -/
def Packet.WellFormed (v : ProtocolVersion) : Packet → Buf → Prop
  | .publish p, w => p.ShortOf w
  | .pingReq, _ | .pingResp, _ => False
  | .subscribe p, w => (Packet.subscribe p).BodyOf v w.length w ∧ p.payload ≠ []
  | .unsubscribe p, w => (Packet.unsubscribe p).BodyOf v w.length w ∧ p.payload ≠ []
  | .subAck p, w => (Packet.subAck p).BodyOf v w.length w ∧ p.payload ≠ []
  | .unsubAck p, w => (Packet.unsubAck p).BodyOf v w.length w ∧ (v = .v5 → p.payload ≠ [])
  | p, w => p.BodyOf v w.length w

end Mercurio
