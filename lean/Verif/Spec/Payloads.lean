import Verif.Spec.Log

/-!
# Specification for payloads

Replacing the payloads in packets and events, and nothing else.
-/

namespace Mercurio.Spec

open Mercurio

/-- The packet with its payload replaced: the payload of a PUBLISH, the payload of the will in a CONNECT.  Other packets
have none. -/
def recodePacket (f : Buf → Buf) : Packet → Packet
  | .publish p => .publish { p with payload := p.payload.map f }
  | .connect p => .connect { p with payload := { p.payload with willPayload := p.payload.willPayload.map f } }
  | p => p

/-- The event with the payload in its packet replaced. -/
def recodeEvent (f : Buf → Buf) : Event → Event
  | .first c p uuid w => .first c (recodePacket f p) uuid w
  | .recv c p => .recv c (recodePacket f p)
  | e => e

/-- What is sent, with the payloads replaced. -/
def recodeOut (f : Buf → Buf) (o : Out) : Out := { o with sent := o.sent.map (recodePacket f) }

/-- A replacement that never makes a payload empty or an empty one non-empty. -/
def KeepsEmpty (f : Buf → Buf) : Prop := ∀ b, f b = [] ↔ b = []

/-- A payload of which only is known whether it is empty. -/
def blank (b : Buf) : Buf := if b = [] then [] else [0]

/-- Two histories are the same but for payloads; only, where one has an empty payload (or none) the other has, too. -/
def SameButPayloads (es es' : List (Event × Ending)) : Prop :=
  es.map (fun x => (recodeEvent blank x.1, x.2)) = es'.map (fun x => (recodeEvent blank x.1, x.2))

/-- The line is not written if the level is set to `info`. -/
def onlyDebug (l : LogLine) : Bool := decide (l.level = .debug)

/-- The payload in a packet: that of a PUBLISH, or that of the will in a CONNECT. -/
def payloadOf : Packet → Option Buf
  | .publish p => p.payload
  | .connect p => p.payload.willPayload
  | _ => none

/-- The packet a client sends at an event. -/
def packetIn : Event → Option Packet
  | .first _ p _ _ => some p
  | .recv _ p => some p
  | _ => none

end Mercurio.Spec
