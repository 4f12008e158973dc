import Verif.Model.Client
import Verif.Spec.Packets

/-! # Specification: what a client is sent and what its options may hold -/

namespace Mercurio

open Spec

/-- Packets a server can send to a client of the given version such that they survive the wire:
admissible fields, the wire format of the client's version, no DISCONNECT properties.  (CONNECT,
SUBSCRIBE, UNSUBSCRIBE and PINGREQ are never sent to a client, AUTH does not survive.) -/
def Packet.SurvivesTo (v : ProtocolVersion) : Packet → Prop
  | .connAck p => (p.protocolVersion = .v5 ↔ v = .v5) ∧ (v = .v5 → p.Admissible)
  | .publish p => p.Admissible
  | .pubAck p | .pubRec p | .pubRel p | .pubComp p => p.Admissible
  | .subAck p => (p.protocolVersion = .v5 ↔ v = .v5) ∧ (v = .v5 → p.Admissible)
  | .unsubAck p => (p.protocolVersion = .v5 ↔ v = .v5) ∧ (v = .v5 → p.Admissible)
  | .pingResp => True
  | .disconnect p => p.properties = none
  | _ => False

/-- What a client of the given version reads them as. -/
def Packet.receivedBy (v : ProtocolVersion) : Packet → Packet
  | .connAck p => if v = .v5 then .connAck p.received else
      .connAck { protocolVersion := .v3_1_1, sessionPresent := p.sessionPresent
                 reasonCode := (returnCode3 p.reasonCode).1, properties := none }
  | .subAck p => if v = .v5 then .subAck p.received else
      .subAck { protocolVersion := .v3_1_1, packetId := p.packetId, properties := none
                payload := p.payload.map subAckRead3 }
  | .unsubAck p => if v = .v5 then .unsubAck p.received else
      .unsubAck { protocolVersion := .v3_1_1, packetId := p.packetId, properties := none, payload := [] }
  | p => p.received

/-- Packets sent one after the other to a client, and their bytes. -/
inductive SentTo (v : ProtocolVersion) : List Packet → Buf → Prop
  | nil : SentTo v [] []
  | cons {p : Packet} {bytes : Buf} {ps : List Packet} {bs : Buf} : p.SurvivesTo v →
      p.encode = .ok bytes → FitsMqtt bytes → SentTo v ps bs → SentTo v (p :: ps) (bytes ++ bs)

/-- The same, arriving in chunks that never cut a packet: each read returns one or more whole
packets, and less than 4 GiB. -/
inductive WholePackets (v : ProtocolVersion) : List Packet → List Buf → Prop
  | nil : WholePackets v [] []
  | cons {ps qs : List Packet} {c : Buf} {cs : List Buf} : SentTo v ps c → ps ≠ [] →
      c.length < 2 ^ 32 → WholePackets v qs cs → WholePackets v (ps ++ qs) (c :: cs)

/-- Options whose texts and binary values MQTT can carry. -/
structure ConnectOptions.Admissible (o : ConnectOptions) : Prop where
  clientId : OptText o.clientId
  username : OptText o.username
  password : OptBinary o.password
  will : ∀ w, o.will = some w → TextField w.topic ∧ BinaryField w.payload ∧ w.qos ≠ .invalid

/-- A CONNECT says what the options say. -/
structure ConnectPacket.Says (p : ConnectPacket) (o : ConnectOptions) : Prop where
  version : p.protocolVersion = o.protocolVersion
  /-- no client id is an empty one -/
  clientId : p.payload.clientId = o.clientId.getD []
  cleanStart : p.flags.cleanStart = o.cleanStart
  keepAlive : p.keepalive = o.keepAlive
  userName : p.payload.userName = o.username
  password : p.payload.password = o.password
  /-- without a will, no bit says anything about one (MQTT-3.1.2-11, 3.1.2-13, 3.1.2-15) -/
  noWill : o.will = none → p.flags.willFlag = false ∧ p.flags.willQos = .atMostOnce ∧ p.flags.willRetain = false ∧
    p.payload.willTopic = none ∧ p.payload.willPayload = none
  will : ∀ w, o.will = some w → p.flags.willFlag = true ∧ p.payload.willTopic = some w.topic ∧
    p.payload.willPayload = some w.payload ∧ p.flags.willQos = w.qos ∧ p.flags.willRetain = w.retain

/-- The packet identifier the client chose for a packet of its own (not for an acknowledgement). -/
def Packet.ownId : Packet → Option UInt16
  | .publish p => p.packetId
  | .subscribe p => some p.packetId
  | .unsubscribe p => some p.packetId
  | _ => none

/-- The message event a PUBLISH stands for. -/
def PublishPacket.event (p : PublishPacket) : ClientEvent :=
  .message p.topicName (p.payload.getD []) p.qos p.retain

end Mercurio
