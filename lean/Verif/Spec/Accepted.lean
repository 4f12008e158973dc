import Verif.Spec.Packets

/-!
# Specification: legal field values

What MQTT 5 says about the fields of a packet one may act on: text is UTF-8, QoS is 0, 1 or 2, there is
a packet identifier exactly where one is needed, and so on.  Unlike `Packet.Survives` this covers all
packets.
-/

namespace Mercurio

open Spec

/-- All fields of the packet have legal values. -/
def Packet.Legal : Packet → Prop
  | .connect p => p.Consistent ∧ p.Admissible ∧ (p.protocolVersion = .v5 → p.properties.isSome)
  | .connAck p => p.Admissible
  | .publish p => p.Admissible
  | .pubAck p | .pubRec p | .pubRel p | .pubComp p => p.Admissible
  | .subscribe p => (∀ q, p.properties = some q → q.Admissible) ∧
      ∀ e ∈ p.payload, TextField e.topicFilter ∧ e.opts.Admissible
  | .subAck p => ∀ q, p.properties = some q → q.Admissible
  | .unsubscribe p => (∀ q, p.properties = some q → q.Admissible) ∧ ∀ e ∈ p.payload, TextField e
  | .unsubAck p => ∀ q, p.properties = some q → q.Admissible
  | .pingReq | .pingResp => True
  | .disconnect p => ∀ q, p.properties = some q → q.Admissible
  | .auth p => p.properties.Admissible

end Mercurio
