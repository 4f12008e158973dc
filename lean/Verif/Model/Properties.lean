import Verif.Model.Codec

/-!
# MQTT 5 properties (mercurio-core/src/properties.rs) and the property blocks of the packets
-/

namespace Mercurio

/-- `Property`, mercurio-core/src/properties.rs:193-223, with the value fields of the `def_prop!`
structs (lines 57-191) inlined.  A `VariableByteInteger` value is its `u32`. -/
inductive Property where
  | payloadFormatIndicator (v : UInt8)
  | messageExpiryInterval (v : UInt32)
  | contentType (v : Str)
  | responseTopic (v : Str)
  | correlationData (v : Buf)
  | subscriptionIdentifier (v : UInt32)
  | sessionExpiryInterval (v : UInt32)
  | assignedClientIdentifier (v : Str)
  | serverKeepAlive (v : UInt16)
  | authenticationMethod (v : Str)
  | authenticationData (v : Buf)
  | requestProblemInformation (v : UInt8)
  | willDelayInterval (v : UInt32)
  | requestResponseInformation (v : UInt8)
  | responseInformation (v : Str)
  | serverReference (v : Str)
  | reasonString (v : Str)
  | receiveMaximum (v : UInt16)
  | topicAliasMaximum (v : UInt16)
  | topicAlias (v : UInt16)
  | maximumQoS (v : UInt8)
  | retainAvailable (v : Bool)
  | userProperty (key value : Str)
  | maximumPacketSize (v : UInt32)
  | wildcardSubscriptionAvailable (v : Bool)
  | subscriptionIdentifierAvailable (v : Bool)
  | sharedSubscriptionAvailable (v : Bool)
  deriving DecidableEq, Repr

namespace Property

/-- The `ID` constants of the `def_prop!` invocations, mercurio-core/src/properties.rs:57-191. -/
def id : Property → Nat
  | .payloadFormatIndicator _ => 0x01
  | .messageExpiryInterval _ => 0x02
  | .contentType _ => 0x03
  | .responseTopic _ => 0x08
  | .correlationData _ => 0x09
  | .subscriptionIdentifier _ => 0x0b
  | .sessionExpiryInterval _ => 0x11
  | .assignedClientIdentifier _ => 0x12
  | .serverKeepAlive _ => 0x13
  | .authenticationMethod _ => 0x15
  | .authenticationData _ => 0x16
  | .requestProblemInformation _ => 0x17
  | .willDelayInterval _ => 0x18
  | .requestResponseInformation _ => 0x19
  | .responseInformation _ => 0x1a
  | .serverReference _ => 0x1c
  | .reasonString _ => 0x1f
  | .receiveMaximum _ => 0x21
  | .topicAliasMaximum _ => 0x22
  | .topicAlias _ => 0x23
  | .maximumQoS _ => 0x24
  | .retainAvailable _ => 0x25
  | .userProperty _ _ => 0x26
  | .maximumPacketSize _ => 0x27
  | .wildcardSubscriptionAvailable _ => 0x28
  | .subscriptionIdentifierAvailable _ => 0x29
  | .sharedSubscriptionAvailable _ => 0x2a

/-- The value part of `def_prop!`'s `encode`, mercurio-core/src/properties.rs:31-33. -/
def encodeValue : Property → Buf
  | .payloadFormatIndicator v => encodeU8 v
  | .messageExpiryInterval v => encodeU32 v
  | .contentType v => encodeStr v
  | .responseTopic v => encodeStr v
  | .correlationData v => encodeBin v
  | .subscriptionIdentifier v => encodeVbi v.toNat
  | .sessionExpiryInterval v => encodeU32 v
  | .assignedClientIdentifier v => encodeStr v
  | .serverKeepAlive v => encodeU16 v
  | .authenticationMethod v => encodeStr v
  | .authenticationData v => encodeBin v
  | .requestProblemInformation v => encodeU8 v
  | .willDelayInterval v => encodeU32 v
  | .requestResponseInformation v => encodeU8 v
  | .responseInformation v => encodeStr v
  | .serverReference v => encodeStr v
  | .reasonString v => encodeStr v
  | .receiveMaximum v => encodeU16 v
  | .topicAliasMaximum v => encodeU16 v
  | .topicAlias v => encodeU16 v
  | .maximumQoS v => encodeU8 v
  | .retainAvailable v => encodeBool v
  | .userProperty k v => encodeStr k ++ encodeStr v
  | .maximumPacketSize v => encodeU32 v
  | .wildcardSubscriptionAvailable v => encodeBool v
  | .subscriptionIdentifierAvailable v => encodeBool v
  | .sharedSubscriptionAvailable v => encodeBool v

/-- `encode` of a property, mercurio-core/src/properties.rs:28-34. -/
def encode (p : Property) : Buf := encodeVbi p.id ++ p.encodeValue

/-- The table of `VariableByteInteger::encoded_size` (mercurio-core/src/codec.rs:79-87) without its
panic; `sizePanics` below records the panicking case. -/
def vbiLen (x : Nat) : Nat :=
  if x ≤ 127 then 1 else if x ≤ 16383 then 2 else if x ≤ 2097151 then 3 else 4

/-- The value part of `def_prop!`'s `encoded_size`, mercurio-core/src/properties.rs:41-43. -/
def valueSize : Property → Nat
  | .payloadFormatIndicator _ => 1
  | .messageExpiryInterval _ => 4
  | .contentType v => binSize v
  | .responseTopic v => binSize v
  | .correlationData v => binSize v
  | .subscriptionIdentifier v => vbiLen v.toNat
  | .sessionExpiryInterval _ => 4
  | .assignedClientIdentifier v => binSize v
  | .serverKeepAlive _ => 2
  | .authenticationMethod v => binSize v
  | .authenticationData v => binSize v
  | .requestProblemInformation _ => 1
  | .willDelayInterval _ => 4
  | .requestResponseInformation _ => 1
  | .responseInformation v => binSize v
  | .serverReference v => binSize v
  | .reasonString v => binSize v
  | .receiveMaximum _ => 2
  | .topicAliasMaximum _ => 2
  | .topicAlias _ => 2
  | .maximumQoS _ => 1
  | .retainAvailable _ => 1
  | .userProperty k v => binSize k + binSize v
  | .maximumPacketSize _ => 4
  | .wildcardSubscriptionAvailable _ => 1
  | .subscriptionIdentifierAvailable _ => 1
  | .sharedSubscriptionAvailable _ => 1

/-- `encoded_size` of a property, mercurio-core/src/properties.rs:36-46 (without the panic). -/
def size (p : Property) : Nat := vbiLen p.id + p.valueSize

/-- `encoded_size` of a property panics (`unreachable!`, mercurio-core/src/codec.rs:85) exactly for a
subscription identifier of 2^28 or more. -/
def sizePanics : Property → Bool
  | .subscriptionIdentifier v => 268435455 < v.toNat
  | _ => false

end Property

/-- `VariableByteInteger::decode` used as the value of a property (a `u32`),
mercurio-core/src/codec.rs:90-94. -/
def decodeVbi32 (m : Mode) : Dec UInt32 := do
  let n ← decodeVbi m
  return UInt32.ofNat n

/-- `decode_with_id`, mercurio-core/src/properties.rs:231-265.  Note line 247: identifier 0x19
(Request Response Information) is decoded as Request Problem Information. -/
def decodeWithId (m : Mode) (id : Nat) : Dec Property :=
  match id with
  | 0x01 => do let v ← decodeU8; return .payloadFormatIndicator v
  | 0x02 => do let v ← decodeU32; return .messageExpiryInterval v
  | 0x03 => do let v ← decodeStr; return .contentType v
  | 0x08 => do let v ← decodeStr; return .responseTopic v
  | 0x09 => do let v ← decodeBin; return .correlationData v
  | 0x0b => do let v ← decodeVbi32 m; return .subscriptionIdentifier v
  | 0x11 => do let v ← decodeU32; return .sessionExpiryInterval v
  | 0x12 => do let v ← decodeStr; return .assignedClientIdentifier v
  | 0x13 => do let v ← decodeU16; return .serverKeepAlive v
  | 0x15 => do let v ← decodeStr; return .authenticationMethod v
  | 0x16 => do let v ← decodeBin; return .authenticationData v
  | 0x17 => do let v ← decodeU8; return .requestProblemInformation v
  | 0x18 => do let v ← decodeU32; return .willDelayInterval v
  | 0x19 => do let v ← decodeU8; return .requestProblemInformation v
  | 0x1a => do let v ← decodeStr; return .responseInformation v
  | 0x1c => do let v ← decodeStr; return .serverReference v
  | 0x1f => do let v ← decodeStr; return .reasonString v
  | 0x21 => do let v ← decodeU16; return .receiveMaximum v
  | 0x22 => do let v ← decodeU16; return .topicAliasMaximum v
  | 0x23 => do let v ← decodeU16; return .topicAlias v
  | 0x24 => do let v ← decodeU8; return .maximumQoS v
  | 0x25 => do let v ← decodeBool; return .retainAvailable v
  | 0x26 => do let k ← decodeStr; let v ← decodeStr; return .userProperty k v
  | 0x27 => do let v ← decodeU32; return .maximumPacketSize v
  | 0x28 => do let v ← decodeBool; return .wildcardSubscriptionAvailable v
  | 0x29 => do let v ← decodeBool; return .subscriptionIdentifierAvailable v
  | 0x2a => do let v ← decodeBool; return .sharedSubscriptionAvailable v
  | _ => Dec.fail (.mqtt .malformedPacket)

/-- `Property::decode`, mercurio-core/src/properties.rs:267-273. -/
def decodeProperty (m : Mode) : Dec Property := do
  let id ← decodeVbi m
  decodeWithId m id

/-! ## Property blocks -/

/-- The bytes of a list of properties, in order: what a property block's `encode` appends
(`Option`/`Vec` encoders, mercurio-core/src/codec.rs:228-265). -/
def encodeProps (ps : List Property) : Buf := ps.flatMap Property.encode

/-- The `encoded_size` of a property block: the sum of the sizes of its properties
(mercurio-core/src/codec.rs:238-243, 256-264). -/
def propsSize (ps : List Property) : Nat := (ps.map Property.size).sum

/-- `encoded_size` of a block, with the panic of an oversized subscription identifier. -/
def propsSizeRes (ps : List Property) : Res Nat :=
  if ps.any Property.sizePanics then .panic else .ok (propsSize ps)

/-- The `while encoded_properties.has_remaining()` loop of every property block decoder, e.g.
mercurio-packets/src/connect.rs:148-169.  `set` is the `match`; `none` is its
`_ => return Err(MalformedPacket)` arm.
Simplification: bounded by `fuel`; callers pass the number of bytes, and every property takes at
least one byte, so the fuel is never exhausted (the exhausted case is mapped to `panic`). -/
def propLoop {P : Type} (m : Mode) (set : P → Property → Option P) : (fuel : Nat) → P → Buf → Res P
  | _, p, [] => .ok p
  | 0, _, _ :: _ => .panic
  | fuel + 1, p, b :: bs =>
    match decodeProperty m (b :: bs) with
    | .err e => .err e
    | .panic => .panic
    | .ok (prop, rest) =>
      match set p prop with
      | none => .err (.mqtt .malformedPacket)
      | some p' => propLoop m set fuel p' rest

/-- The common body of all property block decoders, e.g. mercurio-packets/src/connect.rs:135-173:
length, zero-length shortcut, length check (`buffer.remaining() as u32`), then the loop over
`buffer.take(len)`.  `short` is the error for a block longer than the buffer: `PacketIncomplete`
everywhere except CONNECT and SUBSCRIBE, where it is `MalformedPacket`. -/
def decodeBlock {P : Type} (m : Mode) (short : Err) (dflt : P) (set : P → Property → Option P) :
    Dec P := do
  let len ← decodeVbi m
  if len = 0 then return dflt
  else Dec.of fun buf =>
    if buf.length % 2 ^ 32 < len then .err short
    else
      match propLoop m set (buf.take len).length dflt (buf.take len) with
      | .err e => .err e
      | .panic => .panic
      | .ok p => .ok (p, buf.drop len)

/-- `ConnectProperties`, mercurio-packets/src/connect.rs:92-103. -/
structure ConnectProperties where
  sessionExpiryInterval : Option UInt32 := none
  receiveMaximum : Option UInt16 := none
  maximumPacketSize : Option UInt32 := none
  topicAliasMaximum : Option UInt16 := none
  requestResponseInformation : Option UInt8 := none
  requestProblemInformation : Option UInt8 := none
  userProperty : Option (List (Str × Str)) := none
  authenticationMethod : Option Str := none
  authenticationData : Option Buf := none
  deriving DecidableEq, Repr

/-- The properties `ConnectProperties::encode` writes, in order (mercurio-packets/src/connect.rs:105-116). -/
def ConnectProperties.toProps (p : ConnectProperties) : List Property :=
  p.sessionExpiryInterval.toList.map .sessionExpiryInterval
  ++ p.receiveMaximum.toList.map .receiveMaximum
  ++ p.maximumPacketSize.toList.map .maximumPacketSize
  ++ p.topicAliasMaximum.toList.map .topicAliasMaximum
  ++ p.requestResponseInformation.toList.map .requestResponseInformation
  ++ p.requestProblemInformation.toList.map .requestProblemInformation
  ++ (p.userProperty.getD []).map (fun kv => .userProperty kv.1 kv.2)
  ++ p.authenticationMethod.toList.map .authenticationMethod
  ++ p.authenticationData.toList.map .authenticationData

/-- The properties whose sizes `ConnectProperties::encoded_size` adds up, in order
(mercurio-packets/src/connect.rs:118-132). -/
def ConnectProperties.counted (p : ConnectProperties) : List Property :=
  p.sessionExpiryInterval.toList.map .sessionExpiryInterval
  ++ p.receiveMaximum.toList.map .receiveMaximum
  ++ p.maximumPacketSize.toList.map .maximumPacketSize
  ++ p.topicAliasMaximum.toList.map .topicAliasMaximum
  ++ p.requestResponseInformation.toList.map .requestResponseInformation
  ++ p.requestProblemInformation.toList.map .requestProblemInformation
  ++ (p.userProperty.getD []).map (fun kv => .userProperty kv.1 kv.2)
  ++ p.authenticationMethod.toList.map .authenticationMethod
  ++ p.authenticationData.toList.map .authenticationData

/-- The `match` of `ConnectProperties::decode` (mercurio-packets/src/connect.rs:135-173). -/
def ConnectProperties.set (p : ConnectProperties) : Property → Option ConnectProperties
  | .sessionExpiryInterval v => some { p with sessionExpiryInterval := some v }
  | .receiveMaximum v => some { p with receiveMaximum := some v }
  | .maximumPacketSize v => some { p with maximumPacketSize := some v }
  | .topicAliasMaximum v => some { p with topicAliasMaximum := some v }
  | .requestProblemInformation v => some { p with requestProblemInformation := some v }
  | .userProperty k v => some { p with userProperty := some (p.userProperty.getD [] ++ [(k, v)]) }
  | .authenticationMethod v => some { p with authenticationMethod := some v }
  | .authenticationData v => some { p with authenticationData := some v }
  | _ => none

/-- `ConnectProperties::decode` (mercurio-packets/src/connect.rs:135-173). -/
def decodeConnectProperties (m : Mode) : Dec ConnectProperties :=
  decodeBlock m (.mqtt .malformedPacket) {} ConnectProperties.set

/-- `WillProperties`, mercurio-packets/src/connect.rs:175-184. -/
structure WillProperties where
  willDelayInterval : Option UInt32 := none
  payloadFormatIndicator : Option UInt8 := none
  messageExpiryInterval : Option UInt32 := none
  contentType : Option Str := none
  responseTopic : Option Str := none
  correlationData : Option Buf := none
  userProperty : Option (List (Str × Str)) := none
  deriving DecidableEq, Repr

/-- The properties `WillProperties::encode` writes, in order (mercurio-packets/src/connect.rs:186-195). -/
def WillProperties.toProps (p : WillProperties) : List Property :=
  p.willDelayInterval.toList.map .willDelayInterval
  ++ p.payloadFormatIndicator.toList.map .payloadFormatIndicator
  ++ p.messageExpiryInterval.toList.map .messageExpiryInterval
  ++ p.contentType.toList.map .contentType
  ++ p.responseTopic.toList.map .responseTopic
  ++ p.correlationData.toList.map .correlationData
  ++ (p.userProperty.getD []).map (fun kv => .userProperty kv.1 kv.2)

/-- The properties whose sizes `WillProperties::encoded_size` adds up, in order
(mercurio-packets/src/connect.rs:197-209). -/
def WillProperties.counted (p : WillProperties) : List Property :=
  p.willDelayInterval.toList.map .willDelayInterval
  ++ p.payloadFormatIndicator.toList.map .payloadFormatIndicator
  ++ p.messageExpiryInterval.toList.map .messageExpiryInterval
  ++ p.contentType.toList.map .contentType
  ++ p.responseTopic.toList.map .responseTopic
  ++ p.correlationData.toList.map .correlationData
  ++ (p.userProperty.getD []).map (fun kv => .userProperty kv.1 kv.2)

/-- The `match` of `WillProperties::decode` (mercurio-packets/src/connect.rs:212-250). -/
def WillProperties.set (p : WillProperties) : Property → Option WillProperties
  | .willDelayInterval v => some { p with willDelayInterval := some v }
  | .payloadFormatIndicator v => some { p with payloadFormatIndicator := some v }
  | .messageExpiryInterval v => some { p with messageExpiryInterval := some v }
  | .contentType v => some { p with contentType := some v }
  | .responseTopic v => some { p with responseTopic := some v }
  | .correlationData v => some { p with correlationData := some v }
  | .userProperty k v => some { p with userProperty := some (p.userProperty.getD [] ++ [(k, v)]) }
  | _ => none

/-- `WillProperties::decode` (mercurio-packets/src/connect.rs:212-250). -/
def decodeWillProperties (m : Mode) : Dec WillProperties :=
  decodeBlock m .incomplete {} WillProperties.set

/-- `ConnAckProperties`, mercurio-packets/src/connack.rs:46-65. -/
structure ConnAckProperties where
  sessionExpiryInterval : Option UInt32 := none
  receiveMaximum : Option UInt16 := none
  maximumQos : Option UInt8 := none
  retainAvailable : Option Bool := none
  maximumPacketSize : Option UInt32 := none
  assignedClientId : Option Str := none
  topicAliasMax : Option UInt16 := none
  reasonString : Option Str := none
  userProperty : Option (List (Str × Str)) := none
  wildcardSubscriptionAvailable : Option Bool := none
  subscriptionIdentifierAvailable : Option Bool := none
  sharedSubscriptionAvailable : Option Bool := none
  serverKeepalive : Option UInt16 := none
  responseInformation : Option Str := none
  serverReference : Option Str := none
  authenticationMethod : Option Str := none
  authenticationData : Option Buf := none
  deriving DecidableEq, Repr

/-- The properties `ConnAckProperties::encode` writes, in order (mercurio-packets/src/connack.rs:67-86). -/
def ConnAckProperties.toProps (p : ConnAckProperties) : List Property :=
  p.sessionExpiryInterval.toList.map .sessionExpiryInterval
  ++ p.receiveMaximum.toList.map .receiveMaximum
  ++ p.maximumQos.toList.map .maximumQoS
  ++ p.retainAvailable.toList.map .retainAvailable
  ++ p.maximumPacketSize.toList.map .maximumPacketSize
  ++ p.assignedClientId.toList.map .assignedClientIdentifier
  ++ p.topicAliasMax.toList.map .topicAliasMaximum
  ++ p.reasonString.toList.map .reasonString
  ++ (p.userProperty.getD []).map (fun kv => .userProperty kv.1 kv.2)
  ++ p.wildcardSubscriptionAvailable.toList.map .wildcardSubscriptionAvailable
  ++ p.subscriptionIdentifierAvailable.toList.map .subscriptionIdentifierAvailable
  ++ p.sharedSubscriptionAvailable.toList.map .sharedSubscriptionAvailable
  ++ p.serverKeepalive.toList.map .serverKeepAlive
  ++ p.responseInformation.toList.map .responseInformation
  ++ p.serverReference.toList.map .serverReference
  ++ p.authenticationMethod.toList.map .authenticationMethod
  ++ p.authenticationData.toList.map .authenticationData

/-- The properties whose sizes `ConnAckProperties::encoded_size` adds up, in order
(mercurio-packets/src/connack.rs:88-110). -/
def ConnAckProperties.counted (p : ConnAckProperties) : List Property :=
  p.sessionExpiryInterval.toList.map .sessionExpiryInterval
  ++ p.receiveMaximum.toList.map .receiveMaximum
  ++ p.maximumQos.toList.map .maximumQoS
  ++ p.retainAvailable.toList.map .retainAvailable
  ++ p.maximumPacketSize.toList.map .maximumPacketSize
  ++ p.assignedClientId.toList.map .assignedClientIdentifier
  ++ p.topicAliasMax.toList.map .topicAliasMaximum
  ++ p.reasonString.toList.map .reasonString
  ++ (p.userProperty.getD []).map (fun kv => .userProperty kv.1 kv.2)
  ++ p.wildcardSubscriptionAvailable.toList.map .wildcardSubscriptionAvailable
  ++ p.subscriptionIdentifierAvailable.toList.map .subscriptionIdentifierAvailable
  ++ p.sharedSubscriptionAvailable.toList.map .sharedSubscriptionAvailable
  ++ p.serverKeepalive.toList.map .serverKeepAlive
  ++ p.responseInformation.toList.map .responseInformation
  ++ p.serverReference.toList.map .serverReference
  ++ p.authenticationMethod.toList.map .authenticationMethod
  ++ p.authenticationData.toList.map .authenticationData

/-- The `match` of `ConnAckProperties::decode` (mercurio-packets/src/connack.rs:113-166). -/
def ConnAckProperties.set (p : ConnAckProperties) : Property → Option ConnAckProperties
  | .sessionExpiryInterval v => some { p with sessionExpiryInterval := some v }
  | .receiveMaximum v => some { p with receiveMaximum := some v }
  | .maximumQoS v => some { p with maximumQos := some v }
  | .retainAvailable v => some { p with retainAvailable := some v }
  | .maximumPacketSize v => some { p with maximumPacketSize := some v }
  | .assignedClientIdentifier v => some { p with assignedClientId := some v }
  | .topicAliasMaximum v => some { p with topicAliasMax := some v }
  | .reasonString v => some { p with reasonString := some v }
  | .userProperty k v => some { p with userProperty := some (p.userProperty.getD [] ++ [(k, v)]) }
  | .wildcardSubscriptionAvailable v => some { p with wildcardSubscriptionAvailable := some v }
  | .subscriptionIdentifierAvailable v => some { p with subscriptionIdentifierAvailable := some v }
  | .sharedSubscriptionAvailable v => some { p with sharedSubscriptionAvailable := some v }
  | .serverKeepAlive v => some { p with serverKeepalive := some v }
  | .responseInformation v => some { p with responseInformation := some v }
  | .serverReference v => some { p with serverReference := some v }
  | .authenticationMethod v => some { p with authenticationMethod := some v }
  | .authenticationData v => some { p with authenticationData := some v }
  | _ => none

/-- `ConnAckProperties::decode` (mercurio-packets/src/connack.rs:113-166). -/
def decodeConnAckProperties (m : Mode) : Dec ConnAckProperties :=
  decodeBlock m .incomplete {} ConnAckProperties.set

/-- `PublishProperties`, mercurio-packets/src/publish.rs:14-24. -/
structure PublishProperties where
  payloadFormatIndicator : Option UInt8 := none
  messageExpiryInterval : Option UInt32 := none
  topicAlias : Option UInt16 := none
  responseTopic : Option Str := none
  correlationData : Option Buf := none
  userProperty : Option (List (Str × Str)) := none
  subscriptionIdentifier : Option UInt32 := none
  contentType : Option Str := none
  deriving DecidableEq, Repr

/-- The properties `PublishProperties::encode` writes, in order (mercurio-packets/src/publish.rs:26-36). -/
def PublishProperties.toProps (p : PublishProperties) : List Property :=
  p.payloadFormatIndicator.toList.map .payloadFormatIndicator
  ++ p.messageExpiryInterval.toList.map .messageExpiryInterval
  ++ p.topicAlias.toList.map .topicAlias
  ++ p.responseTopic.toList.map .responseTopic
  ++ p.correlationData.toList.map .correlationData
  ++ (p.userProperty.getD []).map (fun kv => .userProperty kv.1 kv.2)
  ++ p.subscriptionIdentifier.toList.map .subscriptionIdentifier
  ++ p.contentType.toList.map .contentType

/-- The properties whose sizes `PublishProperties::encoded_size` adds up, in order
(mercurio-packets/src/publish.rs:38-50). -/
def PublishProperties.counted (p : PublishProperties) : List Property :=
  p.payloadFormatIndicator.toList.map .payloadFormatIndicator
  ++ p.messageExpiryInterval.toList.map .messageExpiryInterval
  ++ p.topicAlias.toList.map .topicAlias
  ++ p.responseTopic.toList.map .responseTopic
  ++ p.correlationData.toList.map .correlationData
  ++ (p.userProperty.getD []).map (fun kv => .userProperty kv.1 kv.2)
  ++ p.subscriptionIdentifier.toList.map .subscriptionIdentifier
  ++ p.contentType.toList.map .contentType

/-- The `match` of `PublishProperties::decode` (mercurio-packets/src/publish.rs:53-91). -/
def PublishProperties.set (p : PublishProperties) : Property → Option PublishProperties
  | .payloadFormatIndicator v => some { p with payloadFormatIndicator := some v }
  | .messageExpiryInterval v => some { p with messageExpiryInterval := some v }
  | .topicAlias v => some { p with topicAlias := some v }
  | .responseTopic v => some { p with responseTopic := some v }
  | .correlationData v => some { p with correlationData := some v }
  | .userProperty k v => some { p with userProperty := some (p.userProperty.getD [] ++ [(k, v)]) }
  | .subscriptionIdentifier v => some { p with subscriptionIdentifier := some v }
  | .contentType v => some { p with contentType := some v }
  | _ => none

/-- `PublishProperties::decode` (mercurio-packets/src/publish.rs:53-91). -/
def decodePublishProperties (m : Mode) : Dec PublishProperties :=
  decodeBlock m .incomplete {} PublishProperties.set

/-- The identical `PubAckProperties`, `PubRecProperties`, `PubRelProperties`, `PubCompProperties`,
`SubAckProperties`, `UnsubAckProperties`: mercurio-packets/src/puback.rs:13-67, pubrec.rs:13-67,
pubrel.rs:13-67, pubcomp.rs:13-67, suback.rs:14-68, unsuback.rs:14-68 (one Lean structure stands for
the six). -/
structure AckProperties where
  reasonString : Option Str := none
  userProperty : Option (List (Str × Str)) := none
  deriving DecidableEq, Repr

/-- The properties `AckProperties::encode` writes, in order (mercurio-packets/src/puback.rs:19-23). -/
def AckProperties.toProps (p : AckProperties) : List Property :=
  p.reasonString.toList.map .reasonString
  ++ (p.userProperty.getD []).map (fun kv => .userProperty kv.1 kv.2)

/-- The properties whose sizes `AckProperties::encoded_size` adds up, in order
(mercurio-packets/src/puback.rs:25-32, pubrec.rs:25-32, pubrel.rs:25-32, pubcomp.rs:25-32, suback.rs:26-33, unsuback.rs:26-33). -/
def AckProperties.counted (p : AckProperties) : List Property :=
  p.reasonString.toList.map .reasonString
  ++ (p.userProperty.getD []).map (fun kv => .userProperty kv.1 kv.2)

/-- The `match` of `AckProperties::decode` (mercurio-packets/src/puback.rs:35-67). -/
def AckProperties.set (p : AckProperties) : Property → Option AckProperties
  | .reasonString v => some { p with reasonString := some v }
  | .userProperty k v => some { p with userProperty := some (p.userProperty.getD [] ++ [(k, v)]) }
  | _ => none

/-- `AckProperties::decode` (mercurio-packets/src/puback.rs:35-67). -/
def decodeAckProperties (m : Mode) : Dec AckProperties :=
  decodeBlock m .incomplete {} AckProperties.set

/-- `SubscribeProperties`, mercurio-packets/src/subscribe.rs:15-19. -/
structure SubscribeProperties where
  subscriptionId : Option UInt32 := none
  userProperty : Option (List (Str × Str)) := none
  deriving DecidableEq, Repr

/-- The properties `SubscribeProperties::encode` writes, in order (mercurio-packets/src/subscribe.rs:21-25). -/
def SubscribeProperties.toProps (p : SubscribeProperties) : List Property :=
  p.subscriptionId.toList.map .subscriptionIdentifier
  ++ (p.userProperty.getD []).map (fun kv => .userProperty kv.1 kv.2)

/-- The properties whose sizes `SubscribeProperties::encoded_size` adds up, in order
(mercurio-packets/src/subscribe.rs:27-34). -/
def SubscribeProperties.counted (p : SubscribeProperties) : List Property :=
  p.subscriptionId.toList.map .subscriptionIdentifier
  ++ (p.userProperty.getD []).map (fun kv => .userProperty kv.1 kv.2)

/-- The `match` of `SubscribeProperties::decode` (mercurio-packets/src/subscribe.rs:37-69). -/
def SubscribeProperties.set (p : SubscribeProperties) : Property → Option SubscribeProperties
  | .subscriptionIdentifier v => some { p with subscriptionId := some v }
  | .userProperty k v => some { p with userProperty := some (p.userProperty.getD [] ++ [(k, v)]) }
  | _ => none

/-- `SubscribeProperties::decode` (mercurio-packets/src/subscribe.rs:37-69). -/
def decodeSubscribeProperties (m : Mode) : Dec SubscribeProperties :=
  decodeBlock m (.mqtt .malformedPacket) {} SubscribeProperties.set

/-- `UnsubscribeProperties`, mercurio-packets/src/unsubscribe.rs:13-16. -/
structure UnsubscribeProperties where
  userProperty : Option (List (Str × Str)) := none
  deriving DecidableEq, Repr

/-- The properties `UnsubscribeProperties::encode` writes, in order (mercurio-packets/src/unsubscribe.rs:18-21). -/
def UnsubscribeProperties.toProps (p : UnsubscribeProperties) : List Property :=
  (p.userProperty.getD []).map (fun kv => .userProperty kv.1 kv.2)

/-- The properties whose sizes `UnsubscribeProperties::encoded_size` adds up, in order
(mercurio-packets/src/unsubscribe.rs:23-29). -/
def UnsubscribeProperties.counted (p : UnsubscribeProperties) : List Property :=
  (p.userProperty.getD []).map (fun kv => .userProperty kv.1 kv.2)

/-- The `match` of `UnsubscribeProperties::decode` (mercurio-packets/src/unsubscribe.rs:32-63). -/
def UnsubscribeProperties.set (p : UnsubscribeProperties) : Property → Option UnsubscribeProperties
  | .userProperty k v => some { p with userProperty := some (p.userProperty.getD [] ++ [(k, v)]) }
  | _ => none

/-- `UnsubscribeProperties::decode` (mercurio-packets/src/unsubscribe.rs:32-63). -/
def decodeUnsubscribeProperties (m : Mode) : Dec UnsubscribeProperties :=
  decodeBlock m .incomplete {} UnsubscribeProperties.set

/-- `DisconnectProperties`, mercurio-packets/src/disconnect.rs:13-19. -/
structure DisconnectProperties where
  sessionExpiryInterval : Option UInt32 := none
  reasonString : Option Str := none
  userProperty : Option (List (Str × Str)) := none
  serverReference : Option Str := none
  deriving DecidableEq, Repr

/-- The properties `DisconnectProperties::encode` writes, in order (mercurio-packets/src/disconnect.rs:21-27). -/
def DisconnectProperties.toProps (p : DisconnectProperties) : List Property :=
  p.sessionExpiryInterval.toList.map .sessionExpiryInterval
  ++ p.reasonString.toList.map .reasonString
  ++ (p.userProperty.getD []).map (fun kv => .userProperty kv.1 kv.2)
  ++ p.serverReference.toList.map .serverReference

/-- The properties whose sizes `DisconnectProperties::encoded_size` adds up, in order
(mercurio-packets/src/disconnect.rs:29-38). -/
def DisconnectProperties.counted (p : DisconnectProperties) : List Property :=
  p.sessionExpiryInterval.toList.map .sessionExpiryInterval
  ++ p.reasonString.toList.map .reasonString
  ++ (p.userProperty.getD []).map (fun kv => .userProperty kv.1 kv.2)
  ++ p.serverReference.toList.map .serverReference

/-- The `match` of `DisconnectProperties::decode` (mercurio-packets/src/disconnect.rs:41-75). -/
def DisconnectProperties.set (p : DisconnectProperties) : Property → Option DisconnectProperties
  | .sessionExpiryInterval v => some { p with sessionExpiryInterval := some v }
  | .reasonString v => some { p with reasonString := some v }
  | .userProperty k v => some { p with userProperty := some (p.userProperty.getD [] ++ [(k, v)]) }
  | .serverReference v => some { p with serverReference := some v }
  | _ => none

/-- `DisconnectProperties::decode` (mercurio-packets/src/disconnect.rs:41-75). -/
def decodeDisconnectProperties (m : Mode) : Dec DisconnectProperties :=
  decodeBlock m .incomplete {} DisconnectProperties.set

/-- `AuthProperties`, mercurio-packets/src/auth.rs:13-19. -/
structure AuthProperties where
  authMethod : Option Str := none
  authData : Option Buf := none
  reasonString : Option Str := none
  userProperty : Option (List (Str × Str)) := none
  deriving DecidableEq, Repr

/-- The properties `AuthProperties::encode` writes, in order (mercurio-packets/src/auth.rs:21-27). -/
def AuthProperties.toProps (p : AuthProperties) : List Property :=
  p.authMethod.toList.map .authenticationMethod
  ++ p.authData.toList.map .authenticationData
  ++ p.reasonString.toList.map .reasonString
  ++ (p.userProperty.getD []).map (fun kv => .userProperty kv.1 kv.2)

/-- The properties whose sizes `AuthProperties::encoded_size` adds up, in order
(mercurio-packets/src/auth.rs:29-38). -/
def AuthProperties.counted (p : AuthProperties) : List Property :=
  p.authMethod.toList.map .authenticationMethod
  ++ p.authData.toList.map .authenticationData
  ++ p.reasonString.toList.map .reasonString
  ++ (p.userProperty.getD []).map (fun kv => .userProperty kv.1 kv.2)

/-- The `match` of `AuthProperties::decode` (mercurio-packets/src/auth.rs:41-75). -/
def AuthProperties.set (p : AuthProperties) : Property → Option AuthProperties
  | .authenticationMethod v => some { p with authMethod := some v }
  | .authenticationData v => some { p with authData := some v }
  | .reasonString v => some { p with reasonString := some v }
  | .userProperty k v => some { p with userProperty := some (p.userProperty.getD [] ++ [(k, v)]) }
  | _ => none

/-- `AuthProperties::decode` (mercurio-packets/src/auth.rs:41-75). -/
def decodeAuthProperties (m : Mode) : Dec AuthProperties :=
  decodeBlock m .incomplete {} AuthProperties.set

end Mercurio
