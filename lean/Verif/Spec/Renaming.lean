import Verif.Spec.Log

/-!
# Specification for identifiers

Replacing client identifiers and packet identifiers in packets and events, and nothing else.
-/

namespace Mercurio.Spec

open Mercurio

/-- New names for client identifiers and for packet identifiers: different ones stay different, and no identifier at all
remains no identifier. -/
structure Renaming where
  client : Str → Str
  packet : UInt16 → UInt16
  client_inj : ∀ a b, client a = client b → a = b
  client_empty : client [] = []
  packet_inj : ∀ a b, packet a = packet b → a = b

variable (g : Renaming)

/-- The packet with its identifiers renamed: the client identifier in a CONNECT, the assigned one in a CONNACK, and
packet identifiers. -/
def renamePacket : Packet → Packet
  | .connect p => .connect { p with payload := { p.payload with clientId := g.client p.payload.clientId } }
  | .connAck p => .connAck { p with properties := p.properties.map fun q =>
      { q with assignedClientId := q.assignedClientId.map g.client } }
  | .publish p => .publish { p with packetId := p.packetId.map g.packet }
  | .pubAck p => .pubAck { p with packetId := g.packet p.packetId }
  | .pubRec p => .pubRec { p with packetId := g.packet p.packetId }
  | .pubRel p => .pubRel { p with packetId := g.packet p.packetId }
  | .pubComp p => .pubComp { p with packetId := g.packet p.packetId }
  | .subscribe p => .subscribe { p with packetId := g.packet p.packetId }
  | .subAck p => .subAck { p with packetId := g.packet p.packetId }
  | .unsubscribe p => .unsubscribe { p with packetId := g.packet p.packetId }
  | .unsubAck p => .unsubAck { p with packetId := g.packet p.packetId }
  | p => p

/-- The event with the identifiers in its packet renamed, and the identifier that the server would generate. -/
def renameEvent : Event → Event
  | .first c p uuid w => .first c (renamePacket g p) (g.client uuid) w
  | .recv c p => .recv c (renamePacket g p)
  | e => e

/-- What is sent, with the identifiers renamed. -/
def renameOut (o : Out) : Out := { o with sent := o.sent.map (renamePacket g) }

end Mercurio.Spec
