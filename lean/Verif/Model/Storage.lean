import Verif.Model.Topic

/-!
# Storage back ends

Models mercurio-storage/src/memory.rs and mercurio-storage/src/sqlite.rs.  Both are functions
`step : Store → StorageOp → Store × StorageOut`, one case per trait method.
Simplification: operations do not fail (a poisoned lock or a database error is not modelled);
every operation is atomic (each takes one lock).
-/

namespace Mercurio

/-- `SessionState`, mercurio-storage/src/lib.rs:39-43. -/
structure SessionState where
  clientId : Str
  subscriptions : List Str
  cleanStart : Bool
  deriving DecidableEq, Repr

/-- `StoredWillMessage`, mercurio-storage/src/lib.rs:47-52; the server's `WillMessage` has the same fields, and the
conversions copy them (mercurio-server/src/session.rs:45-52, 72-92). -/
structure StoredWill where
  topic : Str
  payload : Buf
  qos : QoS
  retain : Bool
  deriving DecidableEq, Repr

/-- `InflightMessage`, mercurio-storage/src/lib.rs:56-62. -/
structure Inflight where
  packetId : UInt16
  topic : Str
  payload : Option Buf
  qos : QoS
  dup : Bool
  deriving DecidableEq, Repr

/-- The methods of the storage traits, mercurio-storage/src/lib.rs:69-150. -/
inductive StorageOp where
  | saveSession (clientId : Str) (s : SessionState)
  | loadSession (clientId : Str)
  | deleteSession (clientId : Str)
  | listSessions
  | storeRetained (topic : Str) (m : Option Message)
  | getRetained (filter : Str)
  | clearAllRetained
  | storeWill (clientId : Str) (w : StoredWill)
  | getWill (clientId : Str)
  | deleteWill (clientId : Str)
  | storeInflight (clientId : Str) (packetId : UInt16) (m : Inflight)
  | getInflight (clientId : Str) (packetId : UInt16)
  | removeInflight (clientId : Str) (packetId : UInt16)
  | getAllInflight (clientId : Str)
  deriving DecidableEq, Repr

/-- What a storage method returns (inside `Ok`), mercurio-storage/src/lib.rs:69-150. -/
inductive StorageOut where
  | unit
  | session (s : Option SessionState)
  | names (l : List Str)
  | messages (l : List Message)
  | will (w : Option StoredWill)
  | inflight (m : Option Inflight)
  | inflights (l : List Inflight)
  deriving DecidableEq, Repr

/-! ## In-memory store -/

/-- `MemoryStore`, mercurio-storage/src/memory.rs:23-28. -/
structure MemoryStore where
  sessions : Map Str SessionState
  retained : Map Str Message
  wills : Map Str StoredWill
  inflight : Map Str (Map UInt16 Inflight)
  deriving DecidableEq, Repr

namespace MemoryStore

/-- `MemoryStore::new`, mercurio-storage/src/memory.rs:32-34. -/
def new : MemoryStore := ⟨[], [], [], []⟩

/-- `save_session`, mercurio-storage/src/memory.rs:39-46. -/
def saveSession (s : MemoryStore) (c : Str) (v : SessionState) : MemoryStore :=
  { s with sessions := s.sessions.insert c v }

/-- `load_session`, mercurio-storage/src/memory.rs:48-54. -/
def loadSession (s : MemoryStore) (c : Str) : Option SessionState := s.sessions.get c

/-- `delete_session`, mercurio-storage/src/memory.rs:56-63. -/
def deleteSession (s : MemoryStore) (c : Str) : MemoryStore :=
  { s with sessions := s.sessions.erase c }

/-- `list_sessions`, mercurio-storage/src/memory.rs:65-71. -/
def listSessions (s : MemoryStore) : List Str := s.sessions.keys

/-- `store_retained`, mercurio-storage/src/memory.rs:76-92. -/
def storeRetained (s : MemoryStore) (topic : Str) (m : Option Message) : MemoryStore :=
  match m with
  | some msg => { s with retained := s.retained.insert topic msg }
  | none => { s with retained := s.retained.erase topic }

/-- `get_retained`, mercurio-storage/src/memory.rs:94-112. -/
def getRetained (s : MemoryStore) (filter : Str) : List Message :=
  let parts := splitLevels filter
  (s.retained.filter fun e => topicMatchesFilter e.1 parts).map fun e =>
    { e.2 with retain := true }

/-- `clear_all_retained`, mercurio-storage/src/memory.rs:114-121. -/
def clearAllRetained (s : MemoryStore) : MemoryStore := { s with retained := [] }

/-- `store_will`, mercurio-storage/src/memory.rs:126-133. -/
def storeWill (s : MemoryStore) (c : Str) (w : StoredWill) : MemoryStore :=
  { s with wills := s.wills.insert c w }

/-- `get_will`, mercurio-storage/src/memory.rs:135-141. -/
def getWill (s : MemoryStore) (c : Str) : Option StoredWill := s.wills.get c

/-- `delete_will`, mercurio-storage/src/memory.rs:143-150. -/
def deleteWill (s : MemoryStore) (c : Str) : MemoryStore := { s with wills := s.wills.erase c }

/-- `store_inflight`, mercurio-storage/src/memory.rs:155-171. -/
def storeInflight (s : MemoryStore) (c : Str) (id : UInt16) (m : Inflight) : MemoryStore :=
  let msgs := (s.inflight.get c).getD []
  { s with inflight := s.inflight.insert c (Map.insert msgs id m) }

/-- `get_inflight`, mercurio-storage/src/memory.rs:173-186. -/
def getInflight (s : MemoryStore) (c : Str) (id : UInt16) : Option Inflight :=
  match s.inflight.get c with
  | some msgs => Map.get msgs id
  | none => none

/-- `remove_inflight`, mercurio-storage/src/memory.rs:188-198. -/
def removeInflight (s : MemoryStore) (c : Str) (id : UInt16) : MemoryStore :=
  match s.inflight.get c with
  | some msgs => { s with inflight := s.inflight.insert c (Map.erase msgs id) }
  | none => s

/-- `get_all_inflight`, mercurio-storage/src/memory.rs:200-210. -/
def getAllInflight (s : MemoryStore) (c : Str) : List Inflight :=
  match s.inflight.get c with
  | some msgs => msgs.map Prod.snd
  | none => []

/-- Dispatch on the trait methods (mercurio-storage/src/memory.rs:37-211). -/
def step (s : MemoryStore) : StorageOp → MemoryStore × StorageOut
  | .saveSession c v => (s.saveSession c v, .unit)
  | .loadSession c => (s, .session (s.loadSession c))
  | .deleteSession c => (s.deleteSession c, .unit)
  | .listSessions => (s, .names s.listSessions)
  | .storeRetained t m => (s.storeRetained t m, .unit)
  | .getRetained f => (s, .messages (s.getRetained f))
  | .clearAllRetained => (s.clearAllRetained, .unit)
  | .storeWill c w => (s.storeWill c w, .unit)
  | .getWill c => (s, .will (s.getWill c))
  | .deleteWill c => (s.deleteWill c, .unit)
  | .storeInflight c id m => (s.storeInflight c id m, .unit)
  | .getInflight c id => (s, .inflight (s.getInflight c id))
  | .removeInflight c id => (s.removeInflight c id, .unit)
  | .getAllInflight c => (s, .inflights (s.getAllInflight c))

/-- The store after a sequence of operations (mercurio-storage/src/memory.rs:37-211). -/
def run (s : MemoryStore) (ops : List StorageOp) : MemoryStore :=
  ops.foldl (fun s op => (s.step op).1) s

end MemoryStore

/-! ## SQLite store -/

/-- `qos_to_int`, mercurio-storage/src/sqlite.rs:118-125. -/
def qosToInt : QoS → Int
  | .atMostOnce => 0
  | .atLeastOnce => 1
  | .exactlyOnce => 2
  | .invalid => -1

/-- `int_to_qos`, mercurio-storage/src/sqlite.rs:127-134. -/
def intToQos (n : Int) : QoS :=
  if n = 0 then .atMostOnce
  else if n = 1 then .atLeastOnce
  else if n = 2 then .exactlyOnce
  else .invalid

/-- A row of `retained_messages` without its key (mercurio-storage/src/sqlite.rs:68-73). -/
structure RetainedRow where
  payload : Option Buf
  qos : Int
  dup : Bool
  deriving DecidableEq, Repr

/-- A row of `will_messages` without its key (mercurio-storage/src/sqlite.rs:75-81). -/
structure WillRow where
  topic : Str
  payload : Buf
  qos : Int
  retain : Bool
  deriving DecidableEq, Repr

/-- A row of `inflight_messages` without its key (mercurio-storage/src/sqlite.rs:83-91). -/
structure InflightRow where
  topic : Str
  payload : Option Buf
  qos : Int
  dup : Bool
  deriving DecidableEq, Repr

/-- `SqliteStore`: the tables, each as a map from its primary key
(mercurio-storage/src/sqlite.rs:61-96).  Simplification: SQLite itself is external; `INSERT OR
REPLACE`, `DELETE` and `SELECT` on a table with a primary key are map insertion, removal and
lookup, column values come back as they were bound, and row order is unspecified. -/
structure SqliteStore where
  sessions : Map Str (Str × Bool)
  retained : Map Str RetainedRow
  wills : Map Str WillRow
  inflight : Map (Str × UInt16) InflightRow
  deriving DecidableEq, Repr

namespace SqliteStore

/-- A fresh database, mercurio-storage/src/sqlite.rs:34-96. -/
def new : SqliteStore := ⟨[], [], [], []⟩

/-- `subscriptions.join(",")`, mercurio-storage/src/sqlite.rs:141. -/
def joinSubs (subs : List Str) : Str := [0x2c].intercalate subs

/-- mercurio-storage/src/sqlite.rs:172-176. -/
def splitSubs (s : Str) : List Str := if s.isEmpty then [] else splitOn 0x2c s

/-- `save_session`, mercurio-storage/src/sqlite.rs:139-153. -/
def saveSession (s : SqliteStore) (c : Str) (v : SessionState) : SqliteStore :=
  { s with sessions := s.sessions.insert c (joinSubs v.subscriptions, v.cleanStart) }

/-- `load_session`, mercurio-storage/src/sqlite.rs:155-181. -/
def loadSession (s : SqliteStore) (c : Str) : Option SessionState :=
  (s.sessions.get c).map fun row => ⟨c, splitSubs row.1, row.2⟩

/-- `delete_session`, mercurio-storage/src/sqlite.rs:183-194. -/
def deleteSession (s : SqliteStore) (c : Str) : SqliteStore :=
  { s with sessions := s.sessions.erase c }

/-- `list_sessions`, mercurio-storage/src/sqlite.rs:196-208. -/
def listSessions (s : SqliteStore) : List Str := s.sessions.keys

/-- `store_retained`, mercurio-storage/src/sqlite.rs:213-236. -/
def storeRetained (s : SqliteStore) (topic : Str) (m : Option Message) : SqliteStore :=
  match m with
  | some msg => { s with retained := s.retained.insert topic ⟨msg.payload, qosToInt msg.qos, msg.dup⟩ }
  | none => { s with retained := s.retained.erase topic }

/-- `get_retained`, mercurio-storage/src/sqlite.rs:238-272. -/
def getRetained (s : SqliteStore) (filter : Str) : List Message :=
  let parts := splitLevels filter
  (s.retained.filter fun e => topicMatchesFilter e.1 parts).map fun e =>
    ⟨none, e.1, e.2.dup, intToQos e.2.qos, true, e.2.payload⟩

/-- `clear_all_retained`, mercurio-storage/src/sqlite.rs:274-280. -/
def clearAllRetained (s : SqliteStore) : SqliteStore := { s with retained := [] }

/-- `store_will`, mercurio-storage/src/sqlite.rs:285-301. -/
def storeWill (s : SqliteStore) (c : Str) (w : StoredWill) : SqliteStore :=
  { s with wills := s.wills.insert c ⟨w.topic, w.payload, qosToInt w.qos, w.retain⟩ }

/-- `get_will`, mercurio-storage/src/sqlite.rs:303-331. -/
def getWill (s : SqliteStore) (c : Str) : Option StoredWill :=
  (s.wills.get c).map fun r => ⟨r.topic, r.payload, intToQos r.qos, r.retain⟩

/-- `delete_will`, mercurio-storage/src/sqlite.rs:333-344. -/
def deleteWill (s : SqliteStore) (c : Str) : SqliteStore := { s with wills := s.wills.erase c }

/-- `store_inflight`, mercurio-storage/src/sqlite.rs:349-371. -/
def storeInflight (s : SqliteStore) (c : Str) (id : UInt16) (m : Inflight) : SqliteStore :=
  { s with inflight := s.inflight.insert (c, id) ⟨m.topic, m.payload, qosToInt m.qos, m.dup⟩ }

/-- Columns of a row read back, mercurio-storage/src/sqlite.rs:397-403 and 438-444. -/
def inflightOfRow (id : UInt16) (r : InflightRow) : Inflight :=
  ⟨id, r.topic, r.payload, intToQos r.qos, r.dup⟩

/-- `get_inflight`, mercurio-storage/src/sqlite.rs:373-406. -/
def getInflight (s : SqliteStore) (c : Str) (id : UInt16) : Option Inflight :=
  (s.inflight.get (c, id)).map (inflightOfRow id)

/-- `remove_inflight`, mercurio-storage/src/sqlite.rs:408-419. -/
def removeInflight (s : SqliteStore) (c : Str) (id : UInt16) : SqliteStore :=
  { s with inflight := s.inflight.erase (c, id) }

/-- `get_all_inflight`, mercurio-storage/src/sqlite.rs:421-452. -/
def getAllInflight (s : SqliteStore) (c : Str) : List Inflight :=
  (s.inflight.filter fun e => e.1.1 = c).map fun e => inflightOfRow e.1.2 e.2

/-- Dispatch on the trait methods (mercurio-storage/src/sqlite.rs:137-453). -/
def step (s : SqliteStore) : StorageOp → SqliteStore × StorageOut
  | .saveSession c v => (s.saveSession c v, .unit)
  | .loadSession c => (s, .session (s.loadSession c))
  | .deleteSession c => (s.deleteSession c, .unit)
  | .listSessions => (s, .names s.listSessions)
  | .storeRetained t m => (s.storeRetained t m, .unit)
  | .getRetained f => (s, .messages (s.getRetained f))
  | .clearAllRetained => (s.clearAllRetained, .unit)
  | .storeWill c w => (s.storeWill c w, .unit)
  | .getWill c => (s, .will (s.getWill c))
  | .deleteWill c => (s.deleteWill c, .unit)
  | .storeInflight c id m => (s.storeInflight c id m, .unit)
  | .getInflight c id => (s, .inflight (s.getInflight c id))
  | .removeInflight c id => (s.removeInflight c id, .unit)
  | .getAllInflight c => (s, .inflights (s.getAllInflight c))

/-- The store after a sequence of operations (mercurio-storage/src/sqlite.rs:137-453). -/
def run (s : SqliteStore) (ops : List StorageOp) : SqliteStore :=
  ops.foldl (fun s op => (s.step op).1) s

end SqliteStore

/-! ## The broker -/

/-- `Broker<S>` over the in-memory store: the topic tree and the storage
(mercurio-server/src/broker.rs:15-19). -/
structure Broker where
  tree : TopicTree Message
  store : MemoryStore

namespace Broker

/-- `message.payload.as_ref().is_none_or(|p| p.is_empty())`, mercurio-server/src/broker.rs:48. -/
def noPayload (m : Message) : Bool :=
  match m.payload with
  | none => true
  | some p => p.isEmpty

/-- The retained-store step of `publish`, mercurio-server/src/broker.rs:47-64. -/
def publishStore (s : MemoryStore) (topic : Str) (m : Message) : MemoryStore :=
  if m.retain then
    if noPayload m then s.storeRetained topic none
    else s.storeRetained topic (some { m with retain := false })
  else s

/-- `publish`, mercurio-server/src/broker.rs:45-69.
Simplification: both steps at once; `Verif.Model.Race` takes them apart. -/
def publish (b : Broker) (topic : Str) (m : Message) : Broker :=
  ⟨TopicTree.publish b.tree topic m, publishStore b.store topic m⟩

/-- `subscribe`, mercurio-server/src/broker.rs:31-42.
Simplification: both steps at once; `Verif.Model.Race` takes them apart. -/
def subscribe (b : Broker) (filter : Str) : Broker × Receiver × List Message :=
  let s := TopicTree.subscribe b.tree filter
  (⟨s.1, b.store⟩, s.2, b.store.getRetained filter)

end Broker

end Mercurio
