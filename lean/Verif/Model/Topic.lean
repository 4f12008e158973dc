import Verif.Model.Basic

/-!
# Topic names, topic filters and the topic tree

Models mercurio-core/src/topic.rs (validators), mercurio-server/src/topic_tree.rs (live routing)
and the `topic_matches_filter` helper of the two storage back ends.
-/

namespace Mercurio

deriving instance DecidableEq for Except

/-- `s.split(c)` for a one-byte separator, e.g. `topic.split('/')`
(mercurio-core/src/topic.rs:125, mercurio-server/src/topic_tree.rs:68 and 91,
mercurio-storage/src/memory.rs:215, mercurio-storage/src/sqlite.rs:176).
Simplification: works on the UTF-8 bytes; an ASCII byte occurs in a UTF-8 string only as that ASCII
character, so splitting bytes and splitting characters give the same pieces. -/
def splitOn (c : UInt8) : Str → List Str
  | [] => [[]]
  | b :: bs =>
    if b = c then [] :: splitOn c bs
    else match splitOn c bs with
      | [] => [[b]]
      | l :: ls => (b :: l) :: ls

/-- `topic.split('/')` (mercurio-server/src/topic_tree.rs:68 and 91). -/
def splitLevels (s : Str) : List Str := splitOn 0x2f s

/-- `TopicValidationError`, mercurio-core/src/topic.rs:16-29. -/
inductive TopicError where
  | empty
  | tooLong
  | containsNullChar
  | wildcardInPublishTopic
  | invalidSingleLevelWildcard
  | invalidMultiLevelWildcard
  deriving DecidableEq, Repr

/-- `MAX_TOPIC_LENGTH`, mercurio-core/src/topic.rs:12. -/
def maxTopicLength : Nat := 65535

/-- `validate_common`, mercurio-core/src/topic.rs:151-168. -/
def validateCommon (topic : Str) : Except TopicError Unit :=
  if topic.isEmpty then .error .empty
  else if topic.length > maxTopicLength then .error .tooLong
  else if topic.contains 0 then .error .containsNullChar
  else .ok ()

/-- `validate_publish_topic`, mercurio-core/src/topic.rs:86-95. -/
def validatePublishTopic (topic : Str) : Except TopicError Unit :=
  match validateCommon topic with
  | .error e => .error e
  | .ok () =>
    if topic.contains 0x2b || topic.contains 0x23 then .error .wildcardInPublishTopic
    else .ok ()

/-- The loop over the levels of a filter, mercurio-core/src/topic.rs:127-145.
`i != levels.len() - 1` (not the last level) is written as `rest ≠ []`. -/
def validateFilterLevels : List Str → Except TopicError Unit
  | [] => .ok ()
  | level :: rest =>
    if level.contains 0x2b && level != [0x2b] then .error .invalidSingleLevelWildcard
    else if level.contains 0x23 then
      if level != [0x23] then .error .invalidMultiLevelWildcard
      else if rest ≠ [] then .error .invalidMultiLevelWildcard
      else validateFilterLevels rest
    else validateFilterLevels rest

/-- `validate_subscribe_filter`, mercurio-core/src/topic.rs:122-148. -/
def validateSubscribeFilter (filter : Str) : Except TopicError Unit :=
  match validateCommon filter with
  | .error e => .error e
  | .ok () => validateFilterLevels (splitLevels filter)

/-- The loop of `topic_matches_filter`, mercurio-storage/src/memory.rs:219-237 (and, identical,
mercurio-storage/src/sqlite.rs:460-478).  The two indices are represented by the parts not yet
looked at; both are advanced together in the code. -/
def matchLoop : List Str → List Str → Bool
  | topic, [] => topic.isEmpty
  | topic, part :: filter =>
    if part = [0x23] then true
    else match topic with
      | [] => false
      | t :: topic => if part ≠ [0x2b] ∧ part ≠ t then false else matchLoop topic filter

/-- `topic_matches_filter`, mercurio-storage/src/memory.rs:214-238 and
mercurio-storage/src/sqlite.rs:455-479. -/
def topicMatchesFilter (topic : Str) (filterParts : List Str) : Bool :=
  matchLoop (splitLevels topic) filterParts

/-- A `HashMap<K, V>` as a list of entries (used for the maps of
mercurio-server/src/topic_tree.rs:12, mercurio-storage/src/memory.rs:20-34,
mercurio-server/src/session_manager.rs and mercurio-server/src/session.rs).
Simplification: iteration order is the list order; Rust's order is unspecified, so no property
depends on it. -/
abbrev Map (K V : Type) := List (K × V)

namespace Map

variable {K V : Type} [DecidableEq K]

/-- `HashMap::get` (std). -/
def get (m : Map K V) (k : K) : Option V :=
  match m with
  | [] => none
  | (k', v) :: m => if k' = k then some v else get m k

/-- `HashMap::remove` (std). -/
def erase (m : Map K V) (k : K) : Map K V := m.filter fun e => e.1 ≠ k

/-- `HashMap::insert` (std). -/
def insert (m : Map K V) (k : K) (v : V) : Map K V := (k, v) :: erase m k

/-- `HashMap::keys` (std). -/
def keys (m : Map K V) : List K := m.map Prod.fst

end Map

/-- `TopicNode<T>`, mercurio-server/src/topic_tree.rs:10-13.
`sent` is the list of all messages ever sent on the broadcast channel of the node, oldest first.
Simplification: tokio keeps only the last 16 of them and drops a message when there is no
receiver at all; a receiver (see `Receiver`) is a position in this list, and both effects
are computed from the positions (a receiver created later starts at the end of the list). -/
inductive TopicNode (T : Type) where
  | mk (sent : List T) (children : List (Str × TopicNode T))

namespace TopicNode

variable {T : Type}

/-- The field `channel`, mercurio-server/src/topic_tree.rs:11. -/
def sent : TopicNode T → List T
  | mk s _ => s

/-- The field `children`, mercurio-server/src/topic_tree.rs:12. -/
def children : TopicNode T → Map Str (TopicNode T)
  | mk _ c => c

/-- `TopicNode::new`, mercurio-server/src/topic_tree.rs:16-24. -/
def new : TopicNode T := mk [] []

/-- `node.children.get(level)`, mercurio-server/src/topic_tree.rs:108, 113, 118. -/
def child (n : TopicNode T) (level : Str) : Option (TopicNode T) := n.children.get level

/-- The node reached from `n` along a path of levels.  A `&TopicNode` reference of
mercurio-server/src/topic_tree.rs:82-125 is represented by the path of its node from the root. -/
def find (n : TopicNode T) : List Str → Option (TopicNode T)
  | [] => some n
  | l :: ls => match n.child l with
    | none => none
    | some c => c.find ls

/-- The node creation loop of `subscribe`, mercurio-server/src/topic_tree.rs:66-73
(`entry(level).or_insert_with(TopicNode::new)` for every level). -/
def ensure (n : TopicNode T) : List Str → TopicNode T
  | [] => n
  | l :: ls =>
    mk n.sent (n.children.insert l (((n.child l).getD new).ensure ls))

/-- `channel.send(value)` on the node with the given path
(mercurio-server/src/topic_tree.rs:97, 101, 119). -/
def send (n : TopicNode T) (path : List Str) (v : T) : TopicNode T :=
  match path with
  | [] => mk (n.sent ++ [v]) n.children
  | l :: ls => match n.child l with
    | none => n
    | some c => mk n.sent (n.children.insert l (c.send ls v))

/-- One stack entry of `publish`: the node, its path, and the topic levels still to be matched.
Models `(&TopicNode<T>, usize)`, mercurio-server/src/topic_tree.rs:87; the depth is represented by
the levels that remain. -/
structure Frame (T : Type) where
  node : TopicNode T
  path : List Str
  rest : List Str

/-- The `while let Some(..) = stack.pop()` loop of `publish`,
mercurio-server/src/topic_tree.rs:95-124: the paths of the nodes sent to, in order.
The head of the list is the top of the stack.  `fuel` bounds the number of iterations and is never
exhausted (`publishLoop_eq`). -/
def publishLoop : Nat → List (Frame T) → List (List Str)
  | 0, _ => []
  | _ + 1, [] => []
  | fuel + 1, f :: stack =>
    match f.rest with
    | [] =>
      let here := [f.path]
      let hash := match f.node.child [0x23] with
        | some _ => [f.path ++ [[0x23]]]
        | none => []
      here ++ hash ++ publishLoop fuel stack
    | level :: rest =>
      let stack := match f.node.child level with
        | some c => ⟨c, f.path ++ [level], rest⟩ :: stack
        | none => stack
      let stack := match f.node.child [0x2b] with
        | some c => ⟨c, f.path ++ [[0x2b]], rest⟩ :: stack
        | none => stack
      let hash := match f.node.child [0x23] with
        | some _ => [f.path ++ [[0x23]]]
        | none => []
      hash ++ publishLoop fuel stack

/-- The nodes a publication is sent to, in order (mercurio-server/src/topic_tree.rs:82-125). -/
def targets (root : TopicNode T) (topic : Str) : List (List Str) :=
  let levels := splitLevels topic
  publishLoop (3 ^ levels.length + 1) [⟨root, [], levels⟩]

end TopicNode

/-- `TopicTree<T>`: its root node (mercurio-server/src/topic_tree.rs:27-40).  The `RwLock` makes
`subscribe` and `publish` atomic with respect to each other. -/
abbrev TopicTree (T : Type) := TopicNode T

/-- A `broadcast::Receiver`: which channel it listens to and how many of that channel's messages
lie before its read position (mercurio-server/src/topic_tree.rs:64-76; tokio's `subscribe` starts
at the channel's tail). -/
structure Receiver where
  path : List Str
  next : Nat
  deriving DecidableEq, Repr

namespace TopicTree

variable {T : Type}

/-- `TopicTree::new`, mercurio-server/src/topic_tree.rs:51-59. -/
def new : TopicTree T := TopicNode.new

/-- `subscribe`, mercurio-server/src/topic_tree.rs:64-76. -/
def subscribe (t : TopicTree T) (filter : Str) : TopicTree T × Receiver :=
  let levels := splitLevels filter
  let t' := TopicNode.ensure t levels
  (t', ⟨levels, ((t'.find levels).map fun n => n.sent.length).getD 0⟩)

/-- `publish`, mercurio-server/src/topic_tree.rs:82-125. -/
def publish (t : TopicTree T) (topic : Str) (v : T) : TopicTree T :=
  (TopicNode.targets t topic).foldl (fun t p => TopicNode.send t p v) t

end TopicTree

/-- `broadcast::channel(16)`, mercurio-server/src/topic_tree.rs:18. -/
def channelCapacity : Nat := 16

/-- Outcome of one `recv` on a broadcast receiver (tokio::sync::broadcast). -/
inductive Recv (T : Type) where
  | value (v : T)
  | lagged (n : Nat)
  | empty
  deriving DecidableEq, Repr

/-- `Receiver::recv` of tokio's broadcast channel, used through the stream of
mercurio-server/src/session.rs:405-417 and 213-222: a receiver more than 16 messages behind gets
`Lagged(n)` and is moved to the oldest message still kept; otherwise it gets the next message.
Simplification: an external library, modelled from its documentation. -/
def Receiver.recv {T : Type} (sent : List T) (next : Nat) : Recv T × Nat :=
  if next + channelCapacity < sent.length then
    (.lagged (sent.length - channelCapacity - next), sent.length - channelCapacity)
  else match sent[next]? with
    | some v => (.value v, next + 1)
    | none => (.empty, next)

end Mercurio
