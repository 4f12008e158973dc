import Verif.Lemmas.PropBlocks

/-!
# The encoders with their announced sizes resolved

Each property block's `encoded_size` counts exactly the properties its `encode` writes
(`counted_eq`), so every encoder can be read with one list of properties for both.
-/

namespace Mercurio

theorem ConnectPayload.encodeFor_def (p : ConnectPayload) (v : ProtocolVersion) (f : ConnectFlags) :
    ConnectPayload.encodeFor p v f =
    encodeStr p.clientId
  ++ (if f.willFlag then
        (if v.supportsProperties then encodeBlock (optProps WillProperties.toProps p.willProperties)
         else [])
        ++ encodeOpt encodeStr p.willTopic ++ encodeOpt encodeBin p.willPayload
      else [])
  ++ (if f.userName then encodeOpt encodeStr p.userName else [])
  ++ (if f.password then encodeOpt encodeBin p.password else []) := rfl

theorem ConnectPayload.sizeFor_def (p : ConnectPayload) (v : ProtocolVersion) (f : ConnectFlags) :
    ConnectPayload.sizeFor p v f = (do
      let willBlock ←
        if f.willFlag && v.supportsProperties then
          blockSize (optProps WillProperties.toProps p.willProperties)
        else pure 0
      return binSize p.clientId
        + (if f.willFlag then willBlock + optSize binSize p.willTopic + optSize binSize p.willPayload
           else 0)
        + (if f.userName then optSize binSize p.userName else 0)
        + (if f.password then optSize binSize p.password else 0) :
    Res Nat) := rfl

theorem ConnectPacket.encode_def (p : ConnectPacket) :
    ConnectPacket.encode p = (do
      let block ← if p.protocolVersion.supportsProperties then blockSize (optProps ConnectProperties.toProps p.properties) else pure 0
      let payload ← p.payload.sizeFor p.protocolVersion p.flags
      return frame 0x10 (binSize p.protocolVersion.name + 1 + 1 + 2 + block + payload)
        (encodeStr p.protocolVersion.name ++ encodeU8 p.protocolVersion.level ++ [p.flags.toByte]
          ++ encodeU16 p.keepalive
          ++ (if p.protocolVersion.supportsProperties then encodeBlock (optProps ConnectProperties.toProps p.properties) else [])
          ++ p.payload.encodeFor p.protocolVersion p.flags) : Res Buf) := rfl

theorem ConnAckPacket.encode_def (p : ConnAckPacket) :
    ConnAckPacket.encode p = (do
      if p.protocolVersion.supportsProperties then
        let block ← blockSize (optProps ConnAckProperties.toProps p.properties)
        return frame 0x20 (1 + 1 + block) ([(1 &&& (if p.sessionPresent then 1 else 0))] ++ encodeReason p.reasonCode ++ encodeBlock (optProps ConnAckProperties.toProps p.properties))
      else
        return frame 0x20 (1 + 1) ([(1 &&& (if p.sessionPresent then 1 else 0))] ++ [connAckReturnCode p.reasonCode]) : Res Buf) := rfl

theorem PublishPacket.encode_def (p : PublishPacket) :
    PublishPacket.encode p = (do
      let block ← blockSize (optProps PublishProperties.toProps p.properties)
      return frame p.header (binSize p.topicName + optSize (fun _ => 2) p.packetId + block + optSize List.length p.payload)
        (encodeStr p.topicName ++ encodeOpt encodeU16 p.packetId ++ encodeBlock (optProps PublishProperties.toProps p.properties)
          ++ encodeOpt (fun b => b) p.payload) : Res Buf) := rfl

theorem decodePublish_def (m : Mode) :
    decodePublish m = (do
      let h ← getU8
      let dup := h &&& 0x08 ≠ 0
      let qos := QoS.ofU8 ((h &&& 0x06) >>> 1)
      let retain := h &&& 0x01 ≠ 0
      let remainingLen ← decodeVbi m
      let topicName ← decodeStr
      let packetId ← decodePublishId qos
      let properties ← decodePublishProperties m
      let block ← liftRes (blockSize properties.toProps)
      let payloadLen ←
        liftRes (usizeSub m remainingLen (binSize topicName + optSize (fun _ => 2) packetId + block))
      Dec.of fun buf =>
        if buf.length < payloadLen then .err (.mqtt .malformedPacket)
        else .ok ({ dup, qos, retain, topicName, packetId, properties := some properties,
                    payload := some (buf.take payloadLen) }, buf.drop payloadLen) : Dec PublishPacket) := rfl

theorem AckPacket.encode_def (header : UInt8) (p : AckPacket) :
    AckPacket.encode header p = (do
      let extra ←
        if p.properties.isSome || p.reason != .success then
          (do let block ← blockSize (optProps AckProperties.toProps p.properties); return 1 + block)
        else pure 0
      if (2 + extra) = 2 then
        return frame header (2 + extra) (encodeU16 p.packetId)
      else
        return frame header (2 + extra)
          (encodeU16 p.packetId ++ encodeReason p.reason ++ encodeBlock (optProps AckProperties.toProps p.properties)) : Res Buf) := rfl

theorem SubscribePacket.encode_def (p : SubscribePacket) :
    SubscribePacket.encode p = (do
      let block ← blockSize (optProps SubscribeProperties.toProps p.properties)
      return frame 0x82 (2 + block + (p.payload.map (fun e => binSize e.topicFilter + 1)).sum)
        (encodeU16 p.packetId ++ encodeBlock (optProps SubscribeProperties.toProps p.properties) ++ p.payload.flatMap SubscribePayload.encode) : Res Buf) := rfl

theorem SubAckPacket.encode_def (p : SubAckPacket) :
    SubAckPacket.encode p = (do
      let block ← if p.protocolVersion.supportsProperties then blockSize (optProps AckProperties.toProps p.properties) else pure 0
      return frame 0x90 (2 + block + p.payload.length)
        (encodeU16 p.packetId
          ++ (if p.protocolVersion.supportsProperties then encodeBlock (optProps AckProperties.toProps p.properties) else [])
          ++ p.payload.flatMap encodeReason) : Res Buf) := rfl

theorem UnsubscribePacket.encode_def (p : UnsubscribePacket) :
    UnsubscribePacket.encode p = (do
      let block ← blockSize (optProps UnsubscribeProperties.toProps p.properties)
      return frame 0xa2 (2 + block + (p.payload.map binSize).sum)
        (encodeU16 p.packetId ++ encodeBlock (optProps UnsubscribeProperties.toProps p.properties) ++ p.payload.flatMap encodeStr) : Res Buf) := rfl

theorem UnsubAckPacket.encode_def (p : UnsubAckPacket) :
    UnsubAckPacket.encode p = (do
      if p.protocolVersion.supportsProperties then
        let block ← blockSize (optProps AckProperties.toProps p.properties)
        return frame 0xb0 (2 + block + p.payload.length)
          (encodeU16 p.packetId ++ encodeBlock (optProps AckProperties.toProps p.properties) ++ p.payload.flatMap encodeReason)
      else
        return frame 0xb0 2 (encodeU16 p.packetId) : Res Buf) := rfl

theorem DisconnectPacket.encode_def (p : DisconnectPacket) :
    DisconnectPacket.encode p = (do
      let n ← propsSizeRes (optProps DisconnectProperties.toProps p.properties)
      return frame 0xe0 (1 + n) (encodeReason p.reason ++ encodeProps (optProps DisconnectProperties.toProps p.properties)) : Res Buf) := rfl

theorem AuthPacket.encode_def (p : AuthPacket) :
    AuthPacket.encode p = (do
      let n ← propsSizeRes p.properties.toProps
      return frame 0xf0 (1 + n) (encodeReason p.reason ++ encodeProps p.properties.toProps) : Res Buf) := rfl

end Mercurio
