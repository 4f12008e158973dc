import Verif.Spec.Renaming
import Verif.Spec.Topic

/-!
# Specification for topics

Replacing the levels of topics and filters in packets and events, and nothing else.
-/

namespace Mercurio.Spec

open Mercurio

/-- New names for topic levels: different ones stay different, a new name has as many bytes as the old one, and the
characters that mean something in a topic ('/', '+', '#' and NUL) are in the new name if and only if they are in the old
one.  A topic or filter is renamed level by level. -/
structure LevelNames where
  level : Str → Str
  topic : Str → Str
  inj : ∀ a b, level a = level b → a = b
  length : ∀ l, (level l).length = l.length
  keeps : ∀ l, ∀ b ∈ [0x2f, 0x2b, 0x23, 0], b ∈ level l ↔ b ∈ l
  levelwise : ∀ t ls, IsLevels t ls → IsLevels (topic t) (ls.map level)

variable (n : LevelNames)

/-- The packet with its topics renamed: that of a PUBLISH, that of a will, and the filters of SUBSCRIBE and UNSUBSCRIBE. -/
def relevelPacket : Packet → Packet
  | .connect p => .connect { p with payload := { p.payload with willTopic := p.payload.willTopic.map n.topic } }
  | .publish p => .publish { p with topicName := n.topic p.topicName }
  | .subscribe p => .subscribe { p with payload := p.payload.map fun x => { x with topicFilter := n.topic x.topicFilter } }
  | .unsubscribe p => .unsubscribe { p with payload := p.payload.map n.topic }
  | p => p

/-- The event with the topics renamed. -/
def relevelEvent : Event → Event
  | .first c p uuid w => .first c (relevelPacket n p) uuid w
  | .recv c p => .recv c (relevelPacket n p)
  | .deliver c f => .deliver c (n.topic f)
  | e => e

/-- What is sent, with the topics renamed. -/
def relevelOut (o : Out) : Out := { o with sent := o.sent.map (relevelPacket n) }

end Mercurio.Spec
