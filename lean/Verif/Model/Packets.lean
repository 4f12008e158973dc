import Verif.Model.Properties

/-!
# Control packets: encoders and decoders (mercurio-packets/src)

Encoders return `Res Buf`: they cannot fail, but they panic (`unreachable!` in
`VariableByteInteger::encoded_size`) when a property block is 2^28 bytes or more.
-/

namespace Mercurio

/-! ## Shared helpers -/

/-- `usize` subtraction `a - b` on a 64-bit target: on underflow it panics in debug mode and wraps
in release mode.  Models the subtractions at mercurio-packets/src/publish.rs:161-165,
subscribe.rs:229, unsubscribe.rs:137, suback.rs:154,182, unsuback.rs:153, lib.rs:132. -/
def usizeSub (m : Mode) (a b : Nat) : Res Nat :=
  if b ≤ a then .ok (a - b)
  else match m with
    | .debug => .panic
    | .release => .ok (a + 2 ^ 64 - b)

/-- `Option<Properties>` as a list of properties: `None` encodes to nothing
(mercurio-core/src/codec.rs:228-244). -/
def optProps {P : Type} (toProps : P → List Property) : Option P → List Property
  | none => []
  | some p => toProps p

/-- `VariableByteInteger(props.encoded_size() as u32).encoded_size() + props.encoded_size()`,
e.g. mercurio-packets/src/connect.rs:396-398. -/
def blockSize (ps : List Property) : Res Nat := do
  let n ← propsSizeRes ps
  let l ← vbiSize (n % 2 ^ 32)
  return l + n

/-- `VariableByteInteger(props.encoded_size() as u32).encode(..); props.encode(..)`,
e.g. mercurio-packets/src/connect.rs:414-415: the length is that of the properties `encoded_size`
counts, the content is the properties `encode` writes. -/
def writeBlock (counted ps : List Property) : Buf :=
  encodeVbi (propsSize counted % 2 ^ 32) ++ encodeProps ps

/-- First byte, `VariableByteInteger(remaining_len as u32)`, body: the shape of every encoder, e.g.
mercurio-packets/src/connect.rs:388-404. -/
def frame (header : UInt8) (remainingLen : Nat) (body : Buf) : Buf :=
  header :: (encodeVbi (remainingLen % 2 ^ 32) ++ body)

/-- `Option<u16>`/`Option<String>`/`Option<Bytes>` encoding (mercurio-core/src/codec.rs:228-236). -/
def encodeOpt {α : Type} (enc : α → Buf) : Option α → Buf
  | none => []
  | some a => enc a

/-- `Option::encoded_size` (mercurio-core/src/codec.rs:238-243). -/
def optSize {α : Type} (size : α → Nat) : Option α → Nat
  | none => 0
  | some a => size a

/-- The `while buffer.remaining() > next_packet { payload.push(..decode(buffer)?) }` loops,
e.g. mercurio-packets/src/subscribe.rs:232-234.
Simplification: bounded by `fuel`; callers pass the buffer length and every entry takes at least one
byte, so the fuel is never exhausted (the exhausted case is mapped to `panic`). -/
def payloadLoop {α : Type} (dec : Dec α) (next : Nat) : (fuel : Nat) → Buf → Res (List α × Buf)
  | 0, buf => if buf.length > next then .panic else .ok ([], buf)
  | fuel + 1, buf =>
    if buf.length > next then
      match dec buf with
      | .err e => .err e
      | .panic => .panic
      | .ok (a, rest) =>
        match payloadLoop dec next fuel rest with
        | .err e => .err e
        | .panic => .panic
        | .ok (as, rest') => .ok (a :: as, rest')
    else .ok ([], buf)

/-- `buffer.remaining()`, without consuming. -/
def remaining : Dec Nat := fun buf => .ok (buf.length, buf)

/-- Lift a computation that does not touch the buffer. -/
def liftRes {α : Type} (r : Res α) : Dec α := fun buf =>
  match r with
  | .ok a => .ok (a, buf)
  | .err e => .err e
  | .panic => .panic

/-- Run the entry loop on the current buffer (mercurio-packets/src/subscribe.rs:230-234). -/
def payloadList {α : Type} (dec : Dec α) (next : Nat) : Dec (List α) := fun buf =>
  payloadLoop dec next buf.length buf

/-! ## CONNECT -/

/-- mercurio-packets/src/connect.rs:17-25. -/
structure ConnectFlags where
  userName : Bool := false
  password : Bool := false
  willRetain : Bool := false
  willQos : QoS := .atMostOnce
  willFlag : Bool := false
  cleanStart : Bool := false
  deriving DecidableEq, Repr

/-- `ConnectFlags::encode`, mercurio-packets/src/connect.rs:27-53. -/
def ConnectFlags.toByte (f : ConnectFlags) : UInt8 :=
  let flags : UInt8 := if f.userName then 0x80 else 0
  let flags : UInt8 := if f.password then flags ||| (0x40 : UInt8) else flags
  let flags : UInt8 := if f.willRetain then flags ||| (0x20 : UInt8) else flags
  let flags : UInt8 := if f.willFlag then (flags ||| (0x04 : UInt8)) ||| (f.willQos.toU8 <<< (3 : UInt8)) else flags
  if f.cleanStart then flags ||| (0x02 : UInt8) else flags

/-- `ConnectFlags::decode` after reading the byte, mercurio-packets/src/connect.rs:66-89
(`none` is the `MalformedPacket` error). -/
def ConnectFlags.ofByte (b : UInt8) : Option ConnectFlags :=
  if b &&& 0x01 ≠ 0 then none
  else
    let willFlag := b &&& 0x04 ≠ 0
    let willQos := if b &&& 0x04 ≠ 0 then QoS.ofU8 ((b >>> 3) &&& 0x03) else .atMostOnce
    if willQos ≠ .invalid then
      some { userName := b &&& 0x80 ≠ 0
             password := b &&& 0x40 ≠ 0
             willRetain := b &&& 0x20 ≠ 0
             cleanStart := b &&& 0x02 ≠ 0
             willFlag := willFlag
             willQos := willQos }
    else none

/-- `ConnectFlags::decode`, mercurio-packets/src/connect.rs:60-90. -/
def decodeConnectFlags : Dec ConnectFlags := do
  let b ← decodeU8
  match ConnectFlags.ofByte b with
  | some f => return f
  | none => Dec.fail (.mqtt .malformedPacket)

/-- mercurio-packets/src/connect.rs:252-260. -/
structure ConnectPayload where
  clientId : Str
  willProperties : Option WillProperties := none
  willTopic : Option Str := none
  willPayload : Option Buf := none
  userName : Option Str := none
  password : Option Buf := none
  deriving DecidableEq, Repr

/-- mercurio-packets/src/connect.rs:369-376. -/
structure ConnectPacket where
  protocolVersion : ProtocolVersion
  flags : ConnectFlags
  keepalive : UInt16
  properties : Option ConnectProperties
  payload : ConnectPayload
  deriving DecidableEq, Repr

/-- `ConnectPayload::encode_for_version`, mercurio-packets/src/connect.rs:264-289. -/
def ConnectPayload.encodeFor (p : ConnectPayload) (v : ProtocolVersion) (f : ConnectFlags) : Buf :=
  encodeStr p.clientId
  ++ (if f.willFlag then
        (if v.supportsProperties then writeBlock (optProps WillProperties.counted p.willProperties)
            (optProps WillProperties.toProps p.willProperties)
         else [])
        ++ encodeOpt encodeStr p.willTopic ++ encodeOpt encodeBin p.willPayload
      else [])
  ++ (if f.userName then encodeOpt encodeStr p.userName else [])
  ++ (if f.password then encodeOpt encodeBin p.password else [])

/-- `ConnectPayload::encoded_size_for_version`, mercurio-packets/src/connect.rs:292-321. -/
def ConnectPayload.sizeFor (p : ConnectPayload) (v : ProtocolVersion) (f : ConnectFlags) :
    Res Nat := do
  let willBlock ←
    if f.willFlag && v.supportsProperties then
      blockSize (optProps WillProperties.counted p.willProperties)
    else pure 0
  return binSize p.clientId
    + (if f.willFlag then willBlock + optSize binSize p.willTopic + optSize binSize p.willPayload
       else 0)
    + (if f.userName then optSize binSize p.userName else 0)
    + (if f.password then optSize binSize p.password else 0)

/-- `ConnectPacket::encode`, mercurio-packets/src/connect.rs:380-422. -/
def ConnectPacket.encode (p : ConnectPacket) : Res Buf := do
  let name := p.protocolVersion.name
  let props := optProps ConnectProperties.toProps p.properties
  let counted := optProps ConnectProperties.counted p.properties
  let block ← if p.protocolVersion.supportsProperties then blockSize counted else pure 0
  let payload ← p.payload.sizeFor p.protocolVersion p.flags
  let remainingLen := binSize name + 1 + 1 + 2 + block + payload
  return frame 0x10 remainingLen
    (encodeStr name ++ encodeU8 p.protocolVersion.level ++ [p.flags.toByte]
      ++ encodeU16 p.keepalive
      ++ (if p.protocolVersion.supportsProperties then writeBlock counted props else [])
      ++ p.payload.encodeFor p.protocolVersion p.flags)

/-- Run a decoder only if a flag is set, wrapping its result in `Some`
(mercurio-packets/src/connect.rs:440-463). -/
def decodeIf {α : Type} (c : Bool) (d : Dec α) : Dec (Option α) :=
  if c then do let a ← d; return some a else return none

/-- `ConnectPacket::decode`, mercurio-packets/src/connect.rs:424-473 (the announced remaining length
is read and ignored). -/
def decodeConnect (m : Mode) : Dec ConnectPacket := do
  advance1
  let _ ← decodeVbi m
  let name ← decodeStr
  let level ← decodeU8
  match ProtocolVersion.fromNameAndLevel name level with
  | none => Dec.fail (.mqtt .unsupportedProtocolVersion)
  | some version =>
    let flags ← decodeConnectFlags
    let keepalive ← decodeU16
    let properties ← decodeIf version.supportsProperties (decodeConnectProperties m)
    let clientId ← decodeStr
    let willProperties ←
      decodeIf (flags.willFlag && version.supportsProperties) (decodeWillProperties m)
    let willTopic ← decodeIf flags.willFlag decodeStr
    let willPayload ← decodeIf flags.willFlag decodeBin
    let userName ← decodeIf flags.userName decodeStr
    let password ← decodeIf flags.password decodeBin
    return { protocolVersion := version, flags, keepalive, properties,
             payload := { clientId, willProperties, willTopic, willPayload, userName, password } }

/-! ## CONNACK -/

/-- mercurio-packets/src/connack.rs:208-214 (`ConnAckFlags` has the single field
`session_present`, 16-19). -/
structure ConnAckPacket where
  protocolVersion : ProtocolVersion := .v5
  sessionPresent : Bool := false
  reasonCode : ReasonCode := .success
  properties : Option ConnAckProperties := none
  deriving DecidableEq, Repr

/-- `From<ReasonCode> for ConnAckReturnCode` and its byte, mercurio-packets/src/connack.rs:170-206. -/
def connAckReturnCode : ReasonCode → UInt8
  | .success => 0x00
  | .unsupportedProtocolVersion => 0x01
  | .clientIdentifierNotValid => 0x02
  | .serverUnavailable => 0x03
  | .badUserNameOrPassword => 0x04
  | .notAuthorized => 0x05
  | _ => 0x03

/-- `ConnAckPacket::encode`, mercurio-packets/src/connack.rs:218-253 (flags 21-30). -/
def ConnAckPacket.encode (p : ConnAckPacket) : Res Buf := do
  let props := optProps ConnAckProperties.toProps p.properties
  let counted := optProps ConnAckProperties.counted p.properties
  let flagByte : UInt8 := 1 &&& (if p.sessionPresent then 1 else 0)
  if p.protocolVersion.supportsProperties then
    let block ← blockSize counted
    return frame 0x20 (1 + 1 + block) ([flagByte] ++ encodeReason p.reasonCode ++ writeBlock counted props)
  else
    return frame 0x20 (1 + 1) ([flagByte] ++ [connAckReturnCode p.reasonCode])

/-- `ConnAckFlags::decode`, mercurio-packets/src/connack.rs:32-44 (`get_u8` unchecked). -/
def decodeConnAckFlags : Dec Bool := do
  let b ← getU8
  if 0xfe &&& b ≠ 0 then Dec.fail (.mqtt .malformedPacket)
  else return (0x01 &&& b) ≠ 0

/-- `ConnAckPacket::decode`, mercurio-packets/src/connack.rs:255-273. -/
def decodeConnAck (m : Mode) : Dec ConnAckPacket := do
  advance1
  let _ ← decodeVbi m
  let sessionPresent ← decodeConnAckFlags
  let reasonCode ← decodeReason
  let properties ← decodeConnAckProperties m
  return { protocolVersion := .v5, sessionPresent, reasonCode, properties := some properties }

/-- The return code table of `decode_v3`, mercurio-packets/src/connack.rs:285-293. -/
def connAckReasonOfReturnCode (b : UInt8) : ReasonCode :=
  match b.toNat with
  | 0 => .success
  | 1 => .unsupportedProtocolVersion
  | 2 => .clientIdentifierNotValid
  | 3 => .serverUnavailable
  | 4 => .badUserNameOrPassword
  | 5 => .notAuthorized
  | _ => .unspecifiedError

/-- `ConnAckPacket::decode_v3`, mercurio-packets/src/connack.rs:277-301. -/
def decodeConnAckV3 (m : Mode) : Dec ConnAckPacket := do
  advance1
  let _ ← decodeVbi m
  let sessionPresent ← decodeConnAckFlags
  let b ← getU8
  return { protocolVersion := .v3_1_1, sessionPresent, reasonCode := connAckReasonOfReturnCode b,
           properties := none }

/-! ## PUBLISH -/

/-- mercurio-packets/src/publish.rs:93-102. -/
structure PublishPacket where
  dup : Bool := false
  qos : QoS := .atMostOnce
  retain : Bool := false
  topicName : Str
  packetId : Option UInt16 := none
  properties : Option PublishProperties := none
  payload : Option Buf := none
  deriving DecidableEq, Repr

/-- `bool as u8`. -/
def b2u (b : Bool) : UInt8 := if b then 1 else 0

/-- The fixed header byte, mercurio-packets/src/publish.rs:111-114. -/
def PublishPacket.header (p : PublishPacket) : UInt8 :=
  (((0x30 : UInt8) ||| (b2u p.dup <<< 3)) ||| (p.qos.toU8 <<< 1)) ||| b2u p.retain

/-- `PublishPacket::encode`, mercurio-packets/src/publish.rs:106-139. -/
def PublishPacket.encode (p : PublishPacket) : Res Buf := do
  let props := optProps PublishProperties.toProps p.properties
  let counted := optProps PublishProperties.counted p.properties
  let block ← blockSize counted
  let remainingLen := binSize p.topicName + optSize (fun _ => 2) p.packetId + block
    + optSize List.length p.payload
  return frame p.header remainingLen
    (encodeStr p.topicName ++ encodeOpt encodeU16 p.packetId ++ writeBlock counted props
      ++ encodeOpt (fun b => b) p.payload)

/-- The packet identifier of `PublishPacket::decode`, present for QoS 1 and 2 only; an invalid QoS is
`MalformedPacket`.  mercurio-packets/src/publish.rs:152-156. -/
def decodePublishId : QoS → Dec (Option UInt16)
  | .atMostOnce => pure none
  | .invalid => Dec.fail (.mqtt .malformedPacket)
  | .atLeastOnce => do let i ← decodeU16; pure (some i)
  | .exactlyOnce => do let i ← decodeU16; pure (some i)

/-- `PublishPacket::decode`, mercurio-packets/src/publish.rs:141-183. -/
def decodePublish (m : Mode) : Dec PublishPacket := do
  let h ← getU8
  let dup := h &&& 0x08 ≠ 0
  let qos := QoS.ofU8 ((h &&& 0x06) >>> 1)
  let retain := h &&& 0x01 ≠ 0
  let remainingLen ← decodeVbi m
  let topicName ← decodeStr
  let packetId ← decodePublishId qos
  let properties ← decodePublishProperties m
  let block ← liftRes (blockSize properties.counted)
  let payloadLen ←
    liftRes (usizeSub m remainingLen (binSize topicName + optSize (fun _ => 2) packetId + block))
  Dec.of fun buf =>
    if buf.length < payloadLen then .err (.mqtt .malformedPacket)
    else .ok ({ dup, qos, retain, topicName, packetId, properties := some properties,
                payload := some (buf.take payloadLen) }, buf.drop payloadLen)

/-! ## PUBACK, PUBREC, PUBREL, PUBCOMP -/

/-- The identical `PubAckPacket`, `PubRecPacket`, `PubRelPacket`, `PubCompPacket`:
mercurio-packets/src/puback.rs:69-74, pubrec.rs:69-74, pubrel.rs:69-74, pubcomp.rs:69-74
(one Lean structure stands for the four). -/
structure AckPacket where
  packetId : UInt16
  reason : ReasonCode := .success
  properties : Option AckProperties := none
  deriving DecidableEq, Repr

/-- `encode` of the four packets, mercurio-packets/src/puback.rs:76-105, pubrec.rs:76-103, pubrel.rs:76-103,
pubcomp.rs:76-104; `header` is 0x40, 0x50, 0x62, 0x70. -/
def AckPacket.encode (header : UInt8) (p : AckPacket) : Res Buf := do
  let props := optProps AckProperties.toProps p.properties
  let counted := optProps AckProperties.counted p.properties
  let extra ←
    if p.properties.isSome || p.reason != .success then
      (do let block ← blockSize counted; return 1 + block)
    else pure 0
  let remainingLen := 2 + extra
  if remainingLen = 2 then
    return frame header remainingLen (encodeU16 p.packetId)
  else
    return frame header remainingLen
      (encodeU16 p.packetId ++ encodeReason p.reason ++ writeBlock counted props)

/-- `decode` of the four packets, mercurio-packets/src/puback.rs:107-131, pubrec.rs:110-134, pubrel.rs:110-134,
pubcomp.rs:106-130. -/
def decodeAck (m : Mode) : Dec AckPacket := do
  advance1
  let remainingLen ← decodeVbi m
  let packetId ← decodeU16
  if remainingLen = 2 then
    return { packetId, reason := .success, properties := none }
  else
    let reason ← decodeReason
    let properties ← decodeAckProperties m
    return { packetId, reason, properties := some properties }

/-! ## SUBSCRIBE -/

/-- mercurio-packets/src/subscribe.rs:71-80. -/
inductive RetainHandling where
  | sendRetained
  | sendRetainedIfNonExisting
  | doNotSendRetained
  | invalid
  deriving DecidableEq, Repr

/-- `retain_handling as u8`, mercurio-packets/src/subscribe.rs:74-80. -/
def RetainHandling.toU8 : RetainHandling → UInt8
  | .sendRetained => 0
  | .sendRetainedIfNonExisting => 1
  | .doNotSendRetained => 2
  | .invalid => 0xff

/-- `From<u8>`, mercurio-packets/src/subscribe.rs:82-91. -/
def RetainHandling.ofU8 (n : UInt8) : RetainHandling :=
  if n = 0 then .sendRetained
  else if n = 1 then .sendRetainedIfNonExisting
  else if n = 2 then .doNotSendRetained
  else .invalid

/-- mercurio-packets/src/subscribe.rs:93-99. -/
structure SubscriptionOptions where
  qos : QoS := .atMostOnce
  noLocal : Bool := false
  retainAsPub : Bool := false
  retainHandling : RetainHandling := .sendRetained
  deriving DecidableEq, Repr

/-- `SubscriptionOptions::encode`, mercurio-packets/src/subscribe.rs:101-116. -/
def SubscriptionOptions.toByte (o : SubscriptionOptions) : UInt8 :=
  let e := o.qos.toU8
  let e := if o.noLocal then e ||| (0x04 : UInt8) else e
  let e := if o.retainAsPub then e ||| (0x08 : UInt8) else e
  e ||| (o.retainHandling.toU8 <<< 4)

/-- `SubscriptionOptions::decode` after the byte is read, mercurio-packets/src/subscribe.rs:127-147
(`none` is `ProtocolError`). -/
def SubscriptionOptions.ofByte (b : UInt8) : Option SubscriptionOptions :=
  let qos := QoS.ofU8 (b &&& 0x03)
  let rh := RetainHandling.ofU8 (b >>> 4)
  if qos = .invalid then none
  else if rh = .invalid then none
  else some { qos, noLocal := b &&& 0x04 ≠ 0, retainAsPub := b &&& 0x08 ≠ 0, retainHandling := rh }

/-- mercurio-packets/src/subscribe.rs:150-154. -/
structure SubscribePayload where
  topicFilter : Str
  opts : SubscriptionOptions := {}
  deriving DecidableEq, Repr

/-- mercurio-packets/src/subscribe.rs:184-189. -/
structure SubscribePacket where
  packetId : UInt16
  properties : Option SubscribeProperties := none
  payload : List SubscribePayload
  deriving DecidableEq, Repr

/-- `SubscribePayload::encode`, mercurio-packets/src/subscribe.rs:156-160. -/
def SubscribePayload.encode (p : SubscribePayload) : Buf := encodeStr p.topicFilter ++ [p.opts.toByte]

/-- `SubscribePayload::decode`, mercurio-packets/src/subscribe.rs:172-182, 123-148 (`get_u8`
unchecked). -/
def decodeSubscribePayload : Dec SubscribePayload := do
  let topicFilter ← decodeStr
  let b ← getU8
  match SubscriptionOptions.ofByte b with
  | none => Dec.fail (.mqtt .protocolError)
  | some opts => return { topicFilter, opts }

/-- `SubscribePacket::encode`, mercurio-packets/src/subscribe.rs:193-214. -/
def SubscribePacket.encode (p : SubscribePacket) : Res Buf := do
  let props := optProps SubscribeProperties.toProps p.properties
  let counted := optProps SubscribeProperties.counted p.properties
  let block ← blockSize counted
  let remainingLen := 2 + block + (p.payload.map (fun e => binSize e.topicFilter + 1)).sum
  return frame 0x82 remainingLen
    (encodeU16 p.packetId ++ writeBlock counted props ++ p.payload.flatMap SubscribePayload.encode)

/-- The tail of the SUBSCRIBE/UNSUBSCRIBE/SUBACK/UNSUBACK decoders: require remaining bytes, compute
`next_packet`, run the entry loop.  mercurio-packets/src/subscribe.rs:225-234 and the same code in
unsubscribe.rs:133-142, suback.rs:150-159, unsuback.rs:149-158. -/
def decodeEntries {α : Type} (m : Mode) (bufferLen remainingLen : Nat) (dec : Dec α) :
    Dec (List α) := do
  let r ← remaining
  if r = 0 then Dec.fail (.mqtt .protocolError)
  else
    let next ← liftRes (usizeSub m bufferLen remainingLen)
    payloadList dec next

/-- `SubscribePacket::decode`, mercurio-packets/src/subscribe.rs:216-242. -/
def decodeSubscribe (m : Mode) : Dec SubscribePacket := do
  advance1
  let remainingLen ← decodeVbi m
  let bufferLen ← remaining
  let packetId ← decodeU16
  let properties ← decodeSubscribeProperties m
  let payload ← decodeEntries m bufferLen remainingLen decodeSubscribePayload
  return { packetId, properties := some properties, payload }

/-! ## SUBACK -/

/-- mercurio-packets/src/suback.rs:97-103 (`SubAckPayload` is its reason code, 70-73). -/
structure SubAckPacket where
  protocolVersion : ProtocolVersion := .v5
  packetId : UInt16
  properties : Option AckProperties := none
  payload : List ReasonCode
  deriving DecidableEq, Repr

/-- `SubAckPacket::encode`, mercurio-packets/src/suback.rs:107-138. -/
def SubAckPacket.encode (p : SubAckPacket) : Res Buf := do
  let props := optProps AckProperties.toProps p.properties
  let counted := optProps AckProperties.counted p.properties
  let block ← if p.protocolVersion.supportsProperties then blockSize counted else pure 0
  return frame 0x90 (2 + block + p.payload.length)
    (encodeU16 p.packetId
      ++ (if p.protocolVersion.supportsProperties then writeBlock counted props else [])
      ++ p.payload.flatMap encodeReason)

/-- `SubAckPacket::decode`, mercurio-packets/src/suback.rs:140-168. -/
def decodeSubAck (m : Mode) : Dec SubAckPacket := do
  advance1
  let remainingLen ← decodeVbi m
  let bufferLen ← remaining
  let packetId ← decodeU16
  let properties ← decodeAckProperties m
  let payload ← decodeEntries m bufferLen remainingLen decodeReason
  return { protocolVersion := .v5, packetId, properties := some properties, payload }

/-- The return code table of `SubAckPacket::decode_v3`, mercurio-packets/src/suback.rs:187-193. -/
def subAckReasonOfReturnCode (b : UInt8) : ReasonCode :=
  match b.toNat with
  | 0 => .grantedQoS0
  | 1 => .grantedQoS1
  | 2 => .grantedQoS2
  | _ => .unspecifiedError

/-- One return code of `SubAckPacket::decode_v3`, mercurio-packets/src/suback.rs:186-193. -/
def decodeSubAckReturnCode : Dec ReasonCode := do
  let b ← getU8
  return subAckReasonOfReturnCode b

/-- `SubAckPacket::decode_v3`, mercurio-packets/src/suback.rs:173-203. -/
def decodeSubAckV3 (m : Mode) : Dec SubAckPacket := do
  advance1
  let remainingLen ← decodeVbi m
  let bufferLen ← remaining
  let packetId ← decodeU16
  let next ← liftRes (usizeSub m bufferLen remainingLen)
  let payload ← payloadList decodeSubAckReturnCode next
  return { protocolVersion := .v3_1_1, packetId, properties := none, payload }

/-! ## UNSUBSCRIBE and UNSUBACK -/

/-- mercurio-packets/src/unsubscribe.rs:92-97 (`UnsubscribePayload` is its filter, 65-68). -/
structure UnsubscribePacket where
  packetId : UInt16
  properties : Option UnsubscribeProperties := none
  payload : List Str
  deriving DecidableEq, Repr

/-- `UnsubscribePacket::encode`, mercurio-packets/src/unsubscribe.rs:101-122. -/
def UnsubscribePacket.encode (p : UnsubscribePacket) : Res Buf := do
  let props := optProps UnsubscribeProperties.toProps p.properties
  let counted := optProps UnsubscribeProperties.counted p.properties
  let block ← blockSize counted
  return frame 0xa2 (2 + block + (p.payload.map binSize).sum)
    (encodeU16 p.packetId ++ writeBlock counted props ++ p.payload.flatMap encodeStr)

/-- `UnsubscribePacket::decode`, mercurio-packets/src/unsubscribe.rs:124-150. -/
def decodeUnsubscribe (m : Mode) : Dec UnsubscribePacket := do
  advance1
  let remainingLen ← decodeVbi m
  let bufferLen ← remaining
  let packetId ← decodeU16
  let properties ← decodeUnsubscribeProperties m
  let payload ← decodeEntries m bufferLen remainingLen decodeStr
  return { packetId, properties := some properties, payload }

/-- mercurio-packets/src/unsuback.rs:97-103. -/
structure UnsubAckPacket where
  protocolVersion : ProtocolVersion := .v5
  packetId : UInt16
  properties : Option AckProperties := none
  payload : List ReasonCode
  deriving DecidableEq, Repr

/-- `UnsubAckPacket::encode`, mercurio-packets/src/unsuback.rs:107-137. -/
def UnsubAckPacket.encode (p : UnsubAckPacket) : Res Buf := do
  let props := optProps AckProperties.toProps p.properties
  let counted := optProps AckProperties.counted p.properties
  if p.protocolVersion.supportsProperties then
    let block ← blockSize counted
    return frame 0xb0 (2 + block + p.payload.length)
      (encodeU16 p.packetId ++ writeBlock counted props ++ p.payload.flatMap encodeReason)
  else
    return frame 0xb0 2 (encodeU16 p.packetId)

/-- `UnsubAckPacket::decode`, mercurio-packets/src/unsuback.rs:139-167. -/
def decodeUnsubAck (m : Mode) : Dec UnsubAckPacket := do
  advance1
  let remainingLen ← decodeVbi m
  let bufferLen ← remaining
  let packetId ← decodeU16
  let properties ← decodeAckProperties m
  let payload ← decodeEntries m bufferLen remainingLen decodeReason
  return { protocolVersion := .v5, packetId, properties := some properties, payload }

/-- `UnsubAckPacket::decode_v3`, mercurio-packets/src/unsuback.rs:172-185. -/
def decodeUnsubAckV3 (m : Mode) : Dec UnsubAckPacket := do
  advance1
  let _ ← decodeVbi m
  let packetId ← decodeU16
  return { protocolVersion := .v3_1_1, packetId, properties := none, payload := [] }

/-! ## PINGREQ, PINGRESP, DISCONNECT, AUTH -/

/-- `PingReqPacket::encode` / `PingRespPacket::encode`, mercurio-packets/src/pingreq.rs:10-17,
pingresp.rs:10-17; `header` is 0xc0 / 0xd0. -/
def encodePing (header : UInt8) : Res Buf := .ok (header :: encodeVbi 0)

/-- `PingReqPacket::decode` / `PingRespPacket::decode`, mercurio-packets/src/pingreq.rs:19-24,
pingresp.rs:19-24: only the type byte is consumed. -/
def decodePing : Dec Unit := advance1

/-- mercurio-packets/src/disconnect.rs:77-81. -/
structure DisconnectPacket where
  reason : ReasonCode
  properties : Option DisconnectProperties := none
  deriving DecidableEq, Repr

/-- `DisconnectPacket::encode`, mercurio-packets/src/disconnect.rs:85-97: no property length is
written. -/
def DisconnectPacket.encode (p : DisconnectPacket) : Res Buf := do
  let props := optProps DisconnectProperties.toProps p.properties
  let counted := optProps DisconnectProperties.counted p.properties
  let n ← propsSizeRes counted
  return frame 0xe0 (1 + n) (encodeReason p.reason ++ encodeProps props)

/-- The reason of `DisconnectPacket::decode`: `NormalDisconnection` if nothing follows the header,
mercurio-packets/src/disconnect.rs:107-112. -/
def decodeDisconnectReason (remainingLen : Nat) : Dec ReasonCode :=
  if remainingLen < 1 then pure .normalDisconnection else decodeReason

/-- `DisconnectPacket::decode`, mercurio-packets/src/disconnect.rs:99-123. -/
def decodeDisconnect (m : Mode) : Dec DisconnectPacket := do
  let h ← getU8
  if h &&& 0x0f ≠ 0 then Dec.fail (.mqtt .malformedPacket)
  else
    let remainingLen ← decodeVbi m
    let reason ← decodeDisconnectReason remainingLen
    let properties ← decodeIf (decide (2 ≤ remainingLen)) (decodeDisconnectProperties m)
    return { reason, properties }

/-- mercurio-packets/src/auth.rs:77-81. -/
structure AuthPacket where
  reason : ReasonCode
  properties : AuthProperties := {}
  deriving DecidableEq, Repr

/-- `AuthPacket::encode`, mercurio-packets/src/auth.rs:85-97: no property length is written. -/
def AuthPacket.encode (p : AuthPacket) : Res Buf := do
  let n ← propsSizeRes p.properties.counted
  return frame 0xf0 (1 + n) (encodeReason p.reason ++ encodeProps p.properties.toProps)

/-- `AuthPacket::decode`, mercurio-packets/src/auth.rs:99-113. -/
def decodeAuth (m : Mode) : Dec AuthPacket := do
  let h ← getU8
  if h &&& 0x0f ≠ 0 then Dec.fail (.mqtt .malformedPacket)
  else
    let _ ← decodeVbi m
    let reason ← decodeReason
    let properties ← decodeAuthProperties m
    return { reason, properties }

/-! ## Control packets -/

/-- `ControlPacket`, mercurio-packets/src/lib.rs:47-64. -/
inductive Packet where
  | connect (p : ConnectPacket)
  | connAck (p : ConnAckPacket)
  | publish (p : PublishPacket)
  | pubAck (p : AckPacket)
  | pubRec (p : AckPacket)
  | pubRel (p : AckPacket)
  | pubComp (p : AckPacket)
  | subscribe (p : SubscribePacket)
  | subAck (p : SubAckPacket)
  | unsubscribe (p : UnsubscribePacket)
  | unsubAck (p : UnsubAckPacket)
  | pingReq
  | pingResp
  | disconnect (p : DisconnectPacket)
  | auth (p : AuthPacket)
  deriving DecidableEq, Repr

/-- `ControlPacket::encode`, mercurio-packets/src/lib.rs:198-219. -/
def Packet.encode : Packet → Res Buf
  | .connect p => p.encode
  | .connAck p => p.encode
  | .publish p => p.encode
  | .pubAck p => p.encode 0x40
  | .pubRec p => p.encode 0x50
  | .pubRel p => p.encode 0x62
  | .pubComp p => p.encode 0x70
  | .subscribe p => p.encode
  | .subAck p => p.encode
  | .unsubscribe p => p.encode
  | .unsubAck p => p.encode
  | .pingReq => encodePing 0xc0
  | .pingResp => encodePing 0xd0
  | .disconnect p => p.encode
  | .auth p => p.encode

/-- `ControlPacket::check`, mercurio-packets/src/lib.rs:119-137 (the buffer is not consumed). -/
def check (m : Mode) (src : Buf) : Res Unit :=
  if src.length < 2 then .err .incomplete
  else
    match decodeVbi m (src.drop 1) with
    | .err e => .err e
    | .panic => .panic
    | .ok (n, _) =>
      match vbiSize n with
      | .err e => .err e
      | .panic => .panic
      | .ok l =>
        match usizeSub m src.length (l + 1) with
        | .err e => .err e
        | .panic => .panic
        | .ok avail => if avail ≥ n then .ok () else .err .incomplete

/-- `ControlPacket::parse_with_version`, mercurio-packets/src/lib.rs:146-195, with the packet type
table of lines 85-112. -/
def parseWithVersion (m : Mode) (version : ProtocolVersion) : Dec Packet := fun src =>
  match src with
  | [] => .err .incomplete
  | b :: _ =>
    (match (b >>> 4).toNat with
      | 0x01 => do let p ← decodeConnect m; return .connect p
      | 0x02 => do
        let p ← if version.supportsProperties then decodeConnAck m else decodeConnAckV3 m
        return .connAck p
      | 0x03 => do let p ← decodePublish m; return .publish p
      | 0x04 => do let p ← decodeAck m; return .pubAck p
      | 0x05 => do let p ← decodeAck m; return .pubRec p
      | 0x06 => do let p ← decodeAck m; return .pubRel p
      | 0x07 => do let p ← decodeAck m; return .pubComp p
      | 0x08 => do let p ← decodeSubscribe m; return .subscribe p
      | 0x09 => do
        let p ← if version.supportsProperties then decodeSubAck m else decodeSubAckV3 m
        return .subAck p
      | 0x0a => do let p ← decodeUnsubscribe m; return .unsubscribe p
      | 0x0b => do
        let p ← if version.supportsProperties then decodeUnsubAck m else decodeUnsubAckV3 m
        return .unsubAck p
      | 0x0c => do decodePing; return .pingReq
      | 0x0d => do decodePing; return .pingResp
      | 0x0e => do let p ← decodeDisconnect m; return .disconnect p
      | 0x0f => do let p ← decodeAuth m; return .auth p
      | _ => Dec.fail (.mqtt .malformedPacket) : Dec Packet) src

/-- `ControlPacket::parse`, mercurio-packets/src/lib.rs:139-142: always MQTT 5. -/
def parse (m : Mode) : Dec Packet := parseWithVersion m .v5

end Mercurio
