import Verif.Model.Topic

/-!
# Concurrent publications

`TopicTree::publish` (mercurio-server/src/topic_tree.rs:82-125) holds only the read lock of the tree, so
any number of tasks can be inside it at the same time, each sending to one channel after the other.
`TopicTree::subscribe` (lines 64-76) takes the write lock: it runs while no task is inside `publish`.
This file models any number of such calls, interleaved step by step; a step is one lookup or one
`channel.send` (which tokio makes atomic).
Simplification: the children of a node are looked up in one step, before the sends of the same turn of
the loop; nothing can change them in between, because that takes the write lock.
-/

namespace Mercurio.Walk

open Mercurio

variable {T : Type}

/-- What a running `publish` has still to do: handle a stack entry, or send to a node (given by its
path), mercurio-server/src/topic_tree.rs:95-124. -/
inductive Act where
  | visit (path rest : List Str)
  | send (path : List Str)
  deriving DecidableEq, Repr

/-- A running `publish` call: the value and what is left to do, next first
(mercurio-server/src/topic_tree.rs:82-93). -/
structure Call (T : Type) where
  value : T
  todo : List Act

/-- The tree, the receivers by number of the `subscribe` call, and the running `publish` calls by task
(mercurio-server/src/topic_tree.rs:27-40). -/
structure State (T : Type) where
  tree : TopicTree T
  subs : Map Nat Receiver
  calls : Map Nat (Call T)

/-- One atomic step. -/
inductive Event (T : Type) where
  /-- call `q` is `subscribe(filter)`, mercurio-server/src/topic_tree.rs:64-76 -/
  | subscribe (q : Nat) (filter : Str)
  /-- `task` calls `publish(topic, value)` and gets the read lock, lines 83-93 -/
  | begin (task : Nat) (topic : Str) (value : T)
  /-- the next step of `task` inside `publish`, lines 95-124 -/
  | work (task : Nat)
  /-- `publish` of `task` returns, lines 124-125 -/
  | finish (task : Nat)

/-- An empty tree, no calls (mercurio-server/src/topic_tree.rs:51-59). -/
def init : State T := ⟨TopicTree.new, [], []⟩

/-- `[act]` if the child exists, mercurio-server/src/topic_tree.rs:100, 108, 113, 118. -/
def ifChild (n : TopicNode T) (level : Str) (a : Act) : List Act :=
  match n.child level with
  | some _ => [a]
  | none => []

/-- One turn of the loop for the stack entry `(n, rest)`: what it adds to what is to be done,
mercurio-server/src/topic_tree.rs:95-124 (`+` is pushed last, so it is popped first). -/
def turn (n : TopicNode T) (path : List Str) : List Str → List Act
  | [] => .send path :: ifChild n [0x23] (.send (path ++ [[0x23]]))
  | level :: rest =>
    ifChild n [0x23] (.send (path ++ [[0x23]])) ++
    ifChild n [0x2b] (.visit (path ++ [[0x2b]]) rest) ++
    ifChild n level (.visit (path ++ [level]) rest)

/-- One action in the tree: the tree after it and what it adds to what is to be done
(mercurio-server/src/topic_tree.rs:95-124). -/
def act (t : TopicTree T) (v : T) : Act → TopicTree T × List Act
  | .send path => (TopicNode.send t path v, [])
  | .visit path rest =>
    match TopicNode.find t path with
    | some n => (t, turn n path rest)
    | none => (t, [])

/-- One step; `none` if it is not possible in this state (mercurio-server/src/topic_tree.rs:64-125). -/
def step (s : State T) : Event T → Option (State T)
  | .subscribe q f =>
    if s.calls.isEmpty ∧ (s.subs.get q).isNone then
      let r := TopicTree.subscribe s.tree f
      some { s with tree := r.1, subs := s.subs.insert q r.2 }
    else none
  | .begin task topic v =>
    match s.calls.get task with
    | some _ => none
    | none => some { s with calls := s.calls.insert task ⟨v, [.visit [] (splitLevels topic)]⟩ }
  | .work task =>
    match s.calls.get task with
    | some ⟨v, a :: as⟩ =>
      let r := act s.tree v a
      some { s with tree := r.1, calls := s.calls.insert task ⟨v, r.2 ++ as⟩ }
    | _ => none
  | .finish task =>
    match s.calls.get task with
    | some ⟨_, []⟩ => some { s with calls := s.calls.erase task }
    | _ => none

/-- A whole interleaving; `none` if it is not possible. -/
def run (s : State T) : List (Event T) → Option (State T)
  | [] => some s
  | e :: es => match step s e with
    | none => none
    | some s' => run s' es

end Mercurio.Walk
