import Verif.Model.Storage

/-!
# Concurrent broker operations

`Broker::publish` and `Broker::subscribe` each consist of two steps that other tasks can run in
between (mercurio-server/src/broker.rs:31-69: the storage call is awaited, the topic tree has its
own lock).  This file models any number of such operations, by any number of tasks, interleaved
step by step.
-/

namespace Mercurio.Race

open Mercurio

/-- A running or finished `subscribe` call: filter, receiver, and the retained messages once read
(mercurio-server/src/broker.rs:31-42). -/
structure Sub where
  filter : Str
  receiver : Receiver
  retained : Option (List Message)

/-- A running or finished `publish` call: arguments and whether the tree step has been taken
(mercurio-server/src/broker.rs:45-69). -/
structure Pub where
  topic : Str
  message : Message
  routed : Bool

/-- State shared by all tasks, and their local states by call number
(mercurio-server/src/broker.rs:15-19). -/
structure State where
  tree : TopicTree Message
  store : MemoryStore
  subs : Map Nat Sub
  pubs : Map Nat Pub

/-- One atomic step of one call. -/
inductive Event where
  /-- call `q` is `subscribe(filter)` and takes its first step, broker.rs:35 -/
  | subTree (q : Nat) (filter : Str)
  /-- call `q` reads the retained messages, broker.rs:36-40 -/
  | subRead (q : Nat)
  /-- call `p` is `publish(topic, message)` and takes its storage step, broker.rs:47-64 -/
  | pubStore (p : Nat) (topic : Str) (message : Message)
  /-- call `p` sends to the subscribers, broker.rs:67 -/
  | pubRoute (p : Nat)

/-- A broker with empty storage and no calls (mercurio-server/src/broker.rs:22-27). -/
def init : State := ⟨TopicTree.new, MemoryStore.new, [], []⟩

/-- One step; `none` if the call is not at that point (mercurio-server/src/broker.rs:31-69). -/
def step (s : State) : Event → Option State
  | .subTree q f =>
    match s.subs.get q with
    | some _ => none
    | none =>
      let r := TopicTree.subscribe s.tree f
      some { s with tree := r.1, subs := s.subs.insert q ⟨f, r.2, none⟩ }
  | .subRead q =>
    match s.subs.get q with
    | some ⟨f, r, none⟩ =>
      some { s with subs := s.subs.insert q ⟨f, r, some (s.store.getRetained f)⟩ }
    | _ => none
  | .pubStore p t m =>
    match s.pubs.get p with
    | some _ => none
    | none =>
      some { s with store := Broker.publishStore s.store t m, pubs := s.pubs.insert p ⟨t, m, false⟩ }
  | .pubRoute p =>
    match s.pubs.get p with
    | some ⟨t, m, false⟩ =>
      some { s with tree := TopicTree.publish s.tree t m, pubs := s.pubs.insert p ⟨t, m, true⟩ }
    | _ => none

/-- A whole interleaving; `none` if it is not possible. -/
def run (s : State) : List Event → Option State
  | [] => some s
  | e :: es => match step s e with
    | none => none
    | some s' => run s' es

end Mercurio.Race
