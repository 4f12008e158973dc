import Verif.Model.Server

/-!
# Specification: what the server takes no notice of
-/

namespace Mercurio.Spec

/-- A packet without its MQTT 5 properties, subscription options, and the reason codes of the client's
acknowledgements and of its DISCONNECT.  (AUTH packets are left alone.) -/
def bare : Packet → Packet
  | .connect p => .connect
      { p with properties := none, payload := { p.payload with willProperties := none } }
  | .publish p => .publish { p with properties := none }
  | .pubAck p => .pubAck { packetId := p.packetId }
  | .pubRec p => .pubRec { packetId := p.packetId }
  | .pubRel p => .pubRel { packetId := p.packetId }
  | .pubComp p => .pubComp { packetId := p.packetId }
  | .subscribe p => .subscribe
      { p with properties := none, payload := p.payload.map fun s => { topicFilter := s.topicFilter } }
  | .unsubscribe p => .unsubscribe { p with properties := none }
  | .disconnect _ => .disconnect { reason := .normalDisconnection }
  | p => p

/-- A history in which every packet of a client is bare. -/
def bareEvent : Event → Event
  | .first c p uuid written => .first c (bare p) uuid written
  | .recv c p => .recv c (bare p)
  | e => e

/-- What the server does during a history: for every event the packets it sends, and the connections
that are open afterwards. -/
def behaviour (cfg : AuthConfig) (srv : Server) : List Event → List (Out × List Nat)
  | [] => []
  | e :: es =>
    let r := srv.step cfg e
    (r.2, r.1.conns.keys) :: behaviour cfg r.1 es

end Mercurio.Spec
