import Verif.Spec.System

/-!
# Specification: what remains to be done on a connection

The things that happen by themselves on the connection of a client, without any new call of its application except
`recv`.
-/

namespace Mercurio

open Spec

/-- Something that happens on the connection of client `c` alone and brings on its way what is there already: one of
the two sides reads, acts on a packet or sends the next message of a subscription, or the application takes the next
event from its client. -/
def SysEvent.Own (c : Nat) : SysEvent → Prop
  | .serverRead d _ => d = c
  | .serverTurn d u _ => d = c ∧ TextField u
  | .deliver d _ => d = c
  | .clientRead d _ => d = c
  | .clientTurn d ok => d = c ∧ ok = true
  | .app d i => d = c ∧ i = .recv
  | _ => False

/-- The server is done with client `c` for now: it has read and acted on everything the client wrote, and has no
message to send for any of its subscriptions. -/
def System.ServerDone (cfg : AuthConfig) (σ : System) (c : Nat) : Prop :=
  σ.QuietUp c ∧ ∀ f, (σ.net.server.step cfg (.deliver c f)).2 = {}

/-- `sent` consists of packets that one read of the client can take in whole (4096 bytes,
mercurio-client/src/connection.rs:89). -/
def SmallPackets (v : ProtocolVersion) (sent : Buf) : Prop :=
  ∃ qs, SentTo v qs sent ∧ ∀ q ∈ qs, ∀ b, q.encode = .ok b → b.length ≤ 4096

end Mercurio
