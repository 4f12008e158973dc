import Verif.Spec.Plain

/-!
# Groups of clients that do not listen to the others
-/

namespace Mercurio.Spec

open Mercurio

/-- The event is one of the connections in the group `A`, or a restart. -/
def Among (A : Nat → Prop) : Event → Prop
  | .first c _ _ _ => A c
  | .recv c _ => A c
  | .deliver c _ => A c
  | .close c => A c
  | .abort c => A c
  | .restart => True

/-- The names a CONNECT stands for: the client identifier, and the one assigned if it is empty. -/
def keysOf (p : ConnectPacket) (uuid : Str) : List Str :=
  if p.payload.clientId = [] then [[], uuid] else [p.payload.clientId]

/-- The clients in the group and the others have different names. -/
def OwnNames (A : Nat → Prop) (es : List Event) : Prop :=
  ∀ c p u x d q v y, A c → ¬ A d → .first c (.connect p) u x ∈ es → .first d (.connect q) v y ∈ es →
    ∀ k ∈ keysOf p u, k ∉ keysOf q v

/-- The filters that the group subscribes to. -/
def FilterOf (A : Nat → Prop) (es : List Event) (f : Str) : Prop :=
  ∃ c p, A c ∧ .recv c (.subscribe p) ∈ es ∧ f ∈ p.payload.map (·.topicFilter)

/-- Nothing that others publish, or announce as will, matches a filter of the group. -/
structure Unheard (A : Nat → Prop) (es : List Event) : Prop where
  publish : ∀ f d q, FilterOf A es f → ¬ A d → .recv d (.publish q) ∈ es → ¬ Matches f q.topicName
  will : ∀ f d q u x w, FilterOf A es f → ¬ A d → .first d (.connect q) u x ∈ es → willIn q = some w → ¬ Matches f w.topic

end Mercurio.Spec
