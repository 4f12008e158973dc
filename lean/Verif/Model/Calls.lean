import Verif.Model.Race
import Verif.Model.Walk

/-!
# Concurrent calls of the broker, step by step

`Broker::subscribe` and `Broker::publish` (mercurio-server/src/broker.rs:31-69) at the granularity of
Model/Walk: a `publish` takes its storage step, gets the read lock of the topic tree, walks through it
node by node and returns; a `subscribe` takes the write lock of the tree for its tree step and then reads
the retained messages.  Model/Race takes the walk as one step, Model/Walk leaves out the storage; this file
has both, for any number of calls of any number of tasks.
-/

namespace Mercurio.Calls

open Mercurio

/-- State shared by all tasks and their local states: the topic tree with the running walks (by task) and
the receivers (by number of the `subscribe` call), the storage, the `subscribe` calls with their filter and
the retained messages once read, and the messages whose `publish` has taken its storage step but not
begun its walk (mercurio-server/src/broker.rs:15-19, 31-69). -/
structure State where
  walk : Walk.State Message
  store : MemoryStore
  reads : Map Nat (Str × Option (List Message))
  stored : Map Nat (Str × Message)

/-- One atomic step of one call. -/
inductive Event where
  /-- call `q` is `subscribe(filter)` and takes its tree step, broker.rs:35 -/
  | subTree (q : Nat) (filter : Str)
  /-- call `q` reads the retained messages, broker.rs:36-40 -/
  | subRead (q : Nat)
  /-- `task` calls `publish(topic, message)`: the storage step, broker.rs:47-64 -/
  | store (task : Nat) (topic : Str) (message : Message)
  /-- `task` begins its walk, broker.rs:67 and topic_tree.rs:83-93 -/
  | begin (task : Nat) (topic : Str) (message : Message)
  /-- the next step of the walk, topic_tree.rs:95-124 -/
  | work (task : Nat)
  /-- `publish` returns, topic_tree.rs:124-125 and broker.rs:68 -/
  | finish (task : Nat)

/-- A broker with empty storage and no calls (mercurio-server/src/broker.rs:22-27). -/
def init : State := ⟨Walk.init, MemoryStore.new, [], []⟩

/-- A step of the topic tree (mercurio-server/src/topic_tree.rs:64-125). -/
def State.tree (s : State) (e : Walk.Event Message) : Option State :=
  match Walk.step s.walk e with
  | some w => some { s with walk := w }
  | none => none

/-- One step; `none` if it is not possible in this state (mercurio-server/src/broker.rs:31-69). -/
def step (s : State) : Event → Option State
  | .subTree q f => { s with reads := s.reads.insert q (f, none) }.tree (.subscribe q f)
  | .subRead q =>
    match s.reads.get q with
    | some (f, none) => some { s with reads := s.reads.insert q (f, some (s.store.getRetained f)) }
    | _ => none
  | .store k t m =>
    if (s.stored.get k).isNone ∧ (s.walk.calls.get k).isNone then
      some { s with store := Broker.publishStore s.store t m, stored := s.stored.insert k (t, m) }
    else none
  | .begin k t m =>
    if s.stored.get k = some (t, m) then { s with stored := s.stored.erase k }.tree (.begin k t m) else none
  | .work k => s.tree (.work k)
  | .finish k => s.tree (.finish k)

/-- A whole interleaving; `none` if it is not possible. -/
def run (s : State) : List Event → Option State
  | [] => some s
  | e :: es => match step s e with
    | none => none
    | some s' => run s' es

end Mercurio.Calls
