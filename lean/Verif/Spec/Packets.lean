import Verif.Model.Packets
import Verif.Spec.Utf8
import Verif.Spec.Wire

/-!
# Specification: admissible packets and what they read back as

`Admissible` says which values the MQTT standard allows in a field (text: UTF-8, at most 65535
bytes; binary: at most 65535 bytes; subscription identifier: below 2^28).  `received` says in which
form a value comes back: an absent property block reads back as an empty one, and an empty list of
user properties as an absent one (the wire has only one form for each).  Only the data types of the
model are used here, not its functions.
-/

namespace Mercurio

open Spec

/-- Text of an optional field. -/
def OptText (o : Option Str) : Prop := ∀ s, o = some s → TextField s

/-- Binary data of an optional field. -/
def OptBinary (o : Option Buf) : Prop := ∀ s, o = some s → BinaryField s

/-- User properties: keys and values are text. -/
def UserText (o : Option (List (Str × Str))) : Prop :=
  ∀ l, o = some l → ∀ kv ∈ l, TextField kv.1 ∧ TextField kv.2

/-- An empty list of user properties has the same wire form as an absent one. -/
def receivedUser (o : Option (List (Str × Str))) : Option (List (Str × Str)) :=
  match o with
  | some [] => none
  | o => o

/-- Which values a single property may carry. -/
def Property.Admissible : Property → Prop
  | .contentType v | .responseTopic v | .assignedClientIdentifier v | .authenticationMethod v
  | .responseInformation v | .serverReference v | .reasonString v => TextField v
  | .correlationData v | .authenticationData v => BinaryField v
  | .userProperty k v => TextField k ∧ TextField v
  | .subscriptionIdentifier v => v.toNat < 2 ^ 28
  | _ => True

/-- The bytes the standard prescribes for a property: identifier and value (MQTT 5, table 2-4). -/
def Property.wire : Property → Buf
  | .payloadFormatIndicator v => [0x01, v]
  | .messageExpiryInterval v => 0x02 :: be32 v.toNat
  | .contentType v => 0x03 :: field v
  | .responseTopic v => 0x08 :: field v
  | .correlationData v => 0x09 :: field v
  | .subscriptionIdentifier v => 0x0b :: vbi v.toNat
  | .sessionExpiryInterval v => 0x11 :: be32 v.toNat
  | .assignedClientIdentifier v => 0x12 :: field v
  | .serverKeepAlive v => 0x13 :: be16 v.toNat
  | .authenticationMethod v => 0x15 :: field v
  | .authenticationData v => 0x16 :: field v
  | .requestProblemInformation v => [0x17, v]
  | .willDelayInterval v => 0x18 :: be32 v.toNat
  | .requestResponseInformation v => [0x19, v]
  | .responseInformation v => 0x1a :: field v
  | .serverReference v => 0x1c :: field v
  | .reasonString v => 0x1f :: field v
  | .receiveMaximum v => 0x21 :: be16 v.toNat
  | .topicAliasMaximum v => 0x22 :: be16 v.toNat
  | .topicAlias v => 0x23 :: be16 v.toNat
  | .maximumQoS v => [0x24, v]
  | .retainAvailable v => [0x25, if v then 1 else 0]
  | .userProperty k v => 0x26 :: (field k ++ field v)
  | .maximumPacketSize v => 0x27 :: be32 v.toNat
  | .wildcardSubscriptionAvailable v => [0x28, if v then 1 else 0]
  | .subscriptionIdentifierAvailable v => [0x29, if v then 1 else 0]
  | .sharedSubscriptionAvailable v => [0x2a, if v then 1 else 0]

/-! ## Property blocks -/

/-- Admissible CONNECT properties. -/
def ConnectProperties.Admissible (p : ConnectProperties) : Prop :=
  UserText p.userProperty ∧ OptText p.authenticationMethod ∧ OptBinary p.authenticationData

/-- CONNECT properties as read back. -/
def ConnectProperties.received (p : ConnectProperties) : ConnectProperties :=
  { p with userProperty := receivedUser p.userProperty }

/-- Admissible will properties. -/
def WillProperties.Admissible (p : WillProperties) : Prop :=
  OptText p.contentType ∧ OptText p.responseTopic ∧ OptBinary p.correlationData
    ∧ UserText p.userProperty

/-- Will properties as read back. -/
def WillProperties.received (p : WillProperties) : WillProperties :=
  { p with userProperty := receivedUser p.userProperty }

/-- Admissible CONNACK properties. -/
def ConnAckProperties.Admissible (p : ConnAckProperties) : Prop :=
  OptText p.assignedClientId ∧ OptText p.reasonString ∧ UserText p.userProperty
    ∧ OptText p.responseInformation ∧ OptText p.serverReference ∧ OptText p.authenticationMethod
    ∧ OptBinary p.authenticationData

/-- CONNACK properties as read back. -/
def ConnAckProperties.received (p : ConnAckProperties) : ConnAckProperties :=
  { p with userProperty := receivedUser p.userProperty }

/-- Admissible PUBLISH properties. -/
def PublishProperties.Admissible (p : PublishProperties) : Prop :=
  OptText p.responseTopic ∧ OptBinary p.correlationData ∧ UserText p.userProperty
    ∧ (∀ i, p.subscriptionIdentifier = some i → i.toNat < 2 ^ 28) ∧ OptText p.contentType

/-- PUBLISH properties as read back. -/
def PublishProperties.received (p : PublishProperties) : PublishProperties :=
  { p with userProperty := receivedUser p.userProperty }

/-- Admissible PUBACK/PUBREC/PUBREL/PUBCOMP/SUBACK/UNSUBACK properties. -/
def AckProperties.Admissible (p : AckProperties) : Prop :=
  OptText p.reasonString ∧ UserText p.userProperty

/-- The same, as read back. -/
def AckProperties.received (p : AckProperties) : AckProperties :=
  { p with userProperty := receivedUser p.userProperty }

/-- Admissible SUBSCRIBE properties. -/
def SubscribeProperties.Admissible (p : SubscribeProperties) : Prop :=
  (∀ i, p.subscriptionId = some i → i.toNat < 2 ^ 28) ∧ UserText p.userProperty

/-- SUBSCRIBE properties as read back. -/
def SubscribeProperties.received (p : SubscribeProperties) : SubscribeProperties :=
  { p with userProperty := receivedUser p.userProperty }

/-- Admissible UNSUBSCRIBE properties. -/
def UnsubscribeProperties.Admissible (p : UnsubscribeProperties) : Prop := UserText p.userProperty

/-- UNSUBSCRIBE properties as read back. -/
def UnsubscribeProperties.received (p : UnsubscribeProperties) : UnsubscribeProperties :=
  { p with userProperty := receivedUser p.userProperty }

/-- Admissible DISCONNECT properties. -/
def DisconnectProperties.Admissible (p : DisconnectProperties) : Prop :=
  OptText p.reasonString ∧ UserText p.userProperty ∧ OptText p.serverReference

/-- DISCONNECT properties as read back. -/
def DisconnectProperties.received (p : DisconnectProperties) : DisconnectProperties :=
  { p with userProperty := receivedUser p.userProperty }

/-- Admissible AUTH properties. -/
def AuthProperties.Admissible (p : AuthProperties) : Prop :=
  OptText p.authMethod ∧ OptBinary p.authData ∧ OptText p.reasonString ∧ UserText p.userProperty

/-- AUTH properties as read back. -/
def AuthProperties.received (p : AuthProperties) : AuthProperties :=
  { p with userProperty := receivedUser p.userProperty }

/-! ## Packets -/

/-- QoS as the number of the standard. -/
def QoS.level : QoS → Nat
  | .atMostOnce => 0
  | .atLeastOnce => 1
  | .exactlyOnce => 2
  | .invalid => 3

/-- The first byte of each packet (MQTT 5, 2.1: type in the high four bits, flags in the low four). -/
def Packet.fixedHeader : Packet → Nat
  | .connect _ => 0x10
  | .connAck _ => 0x20
  | .publish p => 0x30 + (if p.dup then 8 else 0) + 2 * p.qos.level + (if p.retain then 1 else 0)
  | .pubAck _ => 0x40
  | .pubRec _ => 0x50
  | .pubRel _ => 0x62
  | .pubComp _ => 0x70
  | .subscribe _ => 0x82
  | .subAck _ => 0x90
  | .unsubscribe _ => 0xa2
  | .unsubAck _ => 0xb0
  | .pingReq => 0xc0
  | .pingResp => 0xd0
  | .disconnect _ => 0xe0
  | .auth _ => 0xf0

/-- A packet within the size limit of the standard: at most 2^28 - 1 bytes after the fixed header,
which itself takes at most five bytes. -/
def FitsMqtt (bytes : Buf) : Prop := bytes.length ≤ 2 ^ 28 + 4

/-- Flags and payload of a CONNECT agree: a field is present exactly if its flag says so, the will
has a legal QoS, and a CONNECT without a will says QoS 0. -/
structure ConnectPacket.Consistent (p : ConnectPacket) : Prop where
  willTopic : p.payload.willTopic.isSome = p.flags.willFlag
  willPayload : p.payload.willPayload.isSome = p.flags.willFlag
  willProps : p.payload.willProperties.isSome → p.flags.willFlag = true ∧ p.protocolVersion = .v5
  props : p.properties.isSome → p.protocolVersion = .v5
  willQos : p.flags.willQos ≠ .invalid
  noWillQos : p.flags.willFlag = false → p.flags.willQos = .atMostOnce
  userName : p.payload.userName.isSome = p.flags.userName
  password : p.payload.password.isSome = p.flags.password

/-- Admissible values in every field of a CONNECT. -/
structure ConnectPacket.Admissible (p : ConnectPacket) : Prop where
  clientId : TextField p.payload.clientId
  willTopic : OptText p.payload.willTopic
  willPayload : OptBinary p.payload.willPayload
  userName : OptText p.payload.userName
  password : OptBinary p.payload.password
  properties : ∀ q, p.properties = some q → q.Admissible ∧ q.requestResponseInformation = none
  willProperties : ∀ q, p.payload.willProperties = some q → q.Admissible

/-- A CONNECT as read back: in MQTT 5 an absent property block reads back as an empty one. -/
def ConnectPacket.received (p : ConnectPacket) : ConnectPacket :=
  if p.protocolVersion = .v5 then
    { p with
      properties := some (p.properties.getD {}).received
      payload := { p.payload with
        willProperties :=
          if p.flags.willFlag then some (p.payload.willProperties.getD {}).received else none } }
  else p

/-- Admissible values in every field of a PUBLISH: a packet id exactly for QoS 1 and 2. -/
structure PublishPacket.Admissible (p : PublishPacket) : Prop where
  topicName : TextField p.topicName
  qos : p.qos ≠ .invalid
  packetId : p.packetId.isSome ↔ p.qos ≠ .atMostOnce
  properties : ∀ q, p.properties = some q → q.Admissible

/-- A PUBLISH as read back: absent properties are an empty block, an absent payload an empty one. -/
def PublishPacket.received (p : PublishPacket) : PublishPacket :=
  { p with properties := some (p.properties.getD {}).received, payload := some (p.payload.getD []) }

/-- The number of a reason code (MQTT 5, table 2-6). -/
def ReasonCode.number : ReasonCode → Nat
  | .success => 0
  | .normalDisconnection => 0
  | .grantedQoS0 => 0
  | .grantedQoS1 => 1
  | .grantedQoS2 => 2
  | .disconnectWithWillMessage => 4
  | .noMatchingSubscribers => 16
  | .noSubscriptionExisted => 17
  | .continueAuthentication => 24
  | .reAuthenticate => 25
  | .unspecifiedError => 128
  | .malformedPacket => 129
  | .protocolError => 130
  | .implementationSpecificError => 131
  | .unsupportedProtocolVersion => 132
  | .clientIdentifierNotValid => 133
  | .badUserNameOrPassword => 134
  | .notAuthorized => 135
  | .serverUnavailable => 136
  | .serverBusy => 137
  | .banned => 138
  | .serverShuttingDown => 139
  | .badAuthenticationMethod => 140
  | .keepAliveTimeout => 141
  | .sessionTakenOver => 142
  | .topicFilterInvalid => 143
  | .topicNameInvalid => 144
  | .packetIdentifierInUse => 145
  | .packetIdentifierNotFound => 146
  | .receiveMaximumExceeded => 147
  | .topicAliasInvalid => 148
  | .packetTooLarge => 149
  | .messageRateTooHigh => 150
  | .quotaExceeded => 151
  | .administrativeAction => 152
  | .payloadFormatInvalid => 153
  | .retainNotSupported => 154
  | .qoSNotSupported => 155
  | .useAnotherServer => 156
  | .serverMoved => 157
  | .sharedSubscriptionsNotSupported => 158
  | .connectionRateExceeded => 159
  | .maximumConnectTime => 160
  | .subscriptionIdentifiersNotSupported => 161
  | .wildcardSubscriptionsNotSupported => 162

/-- A reason as read back: code 0x00 has three names, the first is used. -/
def ReasonCode.received : ReasonCode → ReasonCode
  | .normalDisconnection => .success
  | .grantedQoS0 => .success
  | r => r

/-- Admissible acknowledgement. -/
def AckPacket.Admissible (p : AckPacket) : Prop := ∀ q, p.properties = some q → q.Admissible

/-- An acknowledgement as read back: the short form (success, no properties) stays as it is,
otherwise there is a property block. -/
def AckPacket.received (p : AckPacket) : AckPacket :=
  if p.properties = none ∧ p.reason = .success then p
  else { p with reason := p.reason.received, properties := some (p.properties.getD {}).received }

/-- Subscription options the standard allows. -/
def SubscriptionOptions.Admissible (o : SubscriptionOptions) : Prop :=
  o.qos ≠ .invalid ∧ o.retainHandling ≠ .invalid

/-- Admissible SUBSCRIBE: at least one entry. -/
structure SubscribePacket.Admissible (p : SubscribePacket) : Prop where
  properties : ∀ q, p.properties = some q → q.Admissible
  nonEmpty : p.payload ≠ []
  entries : ∀ e ∈ p.payload, TextField e.topicFilter ∧ e.opts.Admissible

/-- A SUBSCRIBE as read back. -/
def SubscribePacket.received (p : SubscribePacket) : SubscribePacket :=
  { p with properties := some (p.properties.getD {}).received }

/-- Admissible UNSUBSCRIBE: at least one entry. -/
structure UnsubscribePacket.Admissible (p : UnsubscribePacket) : Prop where
  properties : ∀ q, p.properties = some q → q.Admissible
  nonEmpty : p.payload ≠ []
  entries : ∀ e ∈ p.payload, TextField e

/-- An UNSUBSCRIBE as read back. -/
def UnsubscribePacket.received (p : UnsubscribePacket) : UnsubscribePacket :=
  { p with properties := some (p.properties.getD {}).received }

/-- Admissible SUBACK: at least one reason. -/
structure SubAckPacket.Admissible (p : SubAckPacket) : Prop where
  properties : ∀ q, p.properties = some q → q.Admissible
  nonEmpty : p.payload ≠ []

/-- An MQTT 5 SUBACK as read back. -/
def SubAckPacket.received (p : SubAckPacket) : SubAckPacket :=
  { p with properties := some (p.properties.getD {}).received
           payload := p.payload.map ReasonCode.received }

/-- Admissible UNSUBACK: at least one reason. -/
structure UnsubAckPacket.Admissible (p : UnsubAckPacket) : Prop where
  properties : ∀ q, p.properties = some q → q.Admissible
  nonEmpty : p.payload ≠ []

/-- An MQTT 5 UNSUBACK as read back. -/
def UnsubAckPacket.received (p : UnsubAckPacket) : UnsubAckPacket :=
  { p with properties := some (p.properties.getD {}).received
           payload := p.payload.map ReasonCode.received }

/-- Admissible CONNACK. -/
def ConnAckPacket.Admissible (p : ConnAckPacket) : Prop := ∀ q, p.properties = some q → q.Admissible

/-- An MQTT 5 CONNACK as read back. -/
def ConnAckPacket.received (p : ConnAckPacket) : ConnAckPacket :=
  { p with reasonCode := p.reasonCode.received
           properties := some (p.properties.getD {}).received }

/-- The six return codes of MQTT 3.1.1, table 3.1; every other reason is sent as 3, server
unavailable. -/
def Spec.returnCode3 (r : ReasonCode) : ReasonCode × UInt8 :=
  if r = .success then (.success, 0)
  else if r = .unsupportedProtocolVersion then (.unsupportedProtocolVersion, 1)
  else if r = .clientIdentifierNotValid then (.clientIdentifierNotValid, 2)
  else if r = .badUserNameOrPassword then (.badUserNameOrPassword, 4)
  else if r = .notAuthorized then (.notAuthorized, 5)
  else (.serverUnavailable, 3)

/-- A SUBACK code as an MQTT 3.1.1 client reads it: the granted QoS, anything else is failure. -/
def Spec.subAckRead3 (r : ReasonCode) : ReasonCode :=
  if r = .success ∨ r = .normalDisconnection ∨ r = .grantedQoS0 then .grantedQoS0
  else if r = .grantedQoS1 then .grantedQoS1
  else if r = .grantedQoS2 then .grantedQoS2
  else .unspecifiedError

/-- The packets that survive a trip over the wire between two MQTT 5 ends: admissible fields, no
DISCONNECT properties, no AUTH, no pings. -/
def Packet.Survives : Packet → Prop
  | .connect p => p.Consistent ∧ p.Admissible
  | .connAck p => p.protocolVersion = .v5 ∧ p.Admissible
  | .publish p => p.Admissible
  | .pubAck p | .pubRec p | .pubRel p | .pubComp p => p.Admissible
  | .subscribe p => p.Admissible
  | .subAck p => p.protocolVersion = .v5 ∧ p.Admissible
  | .unsubscribe p => p.Admissible
  | .unsubAck p => p.protocolVersion = .v5 ∧ p.Admissible
  | .disconnect p => p.properties = none
  | .pingReq | .pingResp | .auth _ => False

/-- A packet as read back. -/
def Packet.received : Packet → Packet
  | .connect p => .connect p.received
  | .connAck p => .connAck p.received
  | .publish p => .publish p.received
  | .pubAck p => .pubAck p.received
  | .pubRec p => .pubRec p.received
  | .pubRel p => .pubRel p.received
  | .pubComp p => .pubComp p.received
  | .subscribe p => .subscribe p.received
  | .subAck p => .subAck p.received
  | .unsubscribe p => .unsubscribe p.received
  | .unsubAck p => .unsubAck p.received
  | .disconnect p => .disconnect { p with reason := p.reason.received }
  | .pingReq => .pingReq
  | .pingResp => .pingResp
  | .auth p => .auth p

end Mercurio
