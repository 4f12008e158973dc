import Verif.Model.Storage

/-!
# Specification of storage and of retained messages

What the storage should answer, read off the list of operations performed so far: always "the last
operation that concerns this key".  No map of the model is used; only the types of the operations
and messages are shared.
-/

namespace Mercurio.Spec

open Mercurio

/-- The last element satisfying a condition. -/
def lastWith {α : Type} (p : α → Bool) (l : List α) : Option α := l.reverse.find? p

/-- The operation stores or deletes the session of client `c`. -/
def onSession (c : Str) : StorageOp → Bool
  | .saveSession c' _ => c' = c
  | .deleteSession c' => c' = c
  | _ => false

/-- The session stored for `c` after the operations. -/
def sessionOf (c : Str) (ops : List StorageOp) : Option SessionState :=
  match lastWith (onSession c) ops with
  | some (.saveSession _ s) => some s
  | _ => none

/-- The operation stores or deletes the will of client `c`. -/
def onWill (c : Str) : StorageOp → Bool
  | .storeWill c' _ => c' = c
  | .deleteWill c' => c' = c
  | _ => false

/-- The will stored for `c` after the operations. -/
def willOf (c : Str) (ops : List StorageOp) : Option StoredWill :=
  match lastWith (onWill c) ops with
  | some (.storeWill _ w) => some w
  | _ => none

/-- The operation stores or removes the in-flight message `id` of client `c`. -/
def onInflight (c : Str) (id : UInt16) : StorageOp → Bool
  | .storeInflight c' id' _ => c' = c ∧ id' = id
  | .removeInflight c' id' => c' = c ∧ id' = id
  | _ => false

/-- The in-flight message `id` stored for `c` after the operations. -/
def inflightOf (c : Str) (id : UInt16) (ops : List StorageOp) : Option Inflight :=
  match lastWith (onInflight c id) ops with
  | some (.storeInflight _ _ m) => some m
  | _ => none

/-- The operation stores or clears the retained message of `topic`. -/
def onRetained (topic : Str) : StorageOp → Bool
  | .storeRetained t _ => t = topic
  | .clearAllRetained => true
  | _ => false

/-- The message stored under `topic` after the operations. -/
def storedRetained (topic : Str) (ops : List StorageOp) : Option Message :=
  match lastWith (onRetained topic) ops with
  | some (.storeRetained _ m) => m
  | _ => none

/-- The message has a payload of at least one byte. -/
def hasPayload (m : Message) : Bool :=
  match m.payload with
  | some (_ :: _) => true
  | _ => false

/-- The retained message of a topic, given all publications so far (topic and message, in order):
the last publication to the topic with the retain flag, unless that one had an empty payload. -/
def retainedOf (topic : Str) (pubs : List (Str × Message)) : Option Message :=
  match lastWith (fun p => p.1 = topic ∧ p.2.retain = true) pubs with
  | some (_, m) => if hasPayload m then some m else none
  | none => none

/-! ## Comparing two storage back ends -/

/-- An operation as the server issues it: records carry the key they are stored under, and no
filter in a stored list contains a comma; the list is not the single empty string. -/
def Regular : StorageOp → Prop
  | .saveSession c s =>
    s.clientId = c ∧ (∀ f ∈ s.subscriptions, (0x2c : UInt8) ∉ f) ∧ s.subscriptions ≠ [[]]
  | .storeRetained t (some m) => m.topic = t
  | .storeInflight _ id m => m.packetId = id
  | _ => True

/-- The same answer, up to the order of lists and the packet id of retained messages. -/
def SameAnswer : StorageOut → StorageOut → Prop
  | .names a, .names b => a.Perm b
  | .messages a, .messages b =>
    (a.map fun m => { m with packetId := none }).Perm (b.map fun m => { m with packetId := none })
  | .inflights a, .inflights b => a.Perm b
  | a, b => a = b

end Mercurio.Spec
