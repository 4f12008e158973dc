import Verif.Spec.Relevel
import Verif.Lemmas.Renaming
import Verif.Lemmas.Topic

/-!
# The server with other topics
-/

namespace Mercurio

open Spec

/-! ## Topics -/

variable (n : LevelNames)

namespace Spec.LevelNames

theorem split (t : Str) : splitLevels (n.topic t) = (splitLevels t).map n.level :=
  ((isLevels_iff _ _).mp (n.levelwise t _ (isLevels_split t))).symm

theorem topic_inj (a b : Str) (h : n.topic a = n.topic b) : a = b := by
  have h1 := congrArg splitLevels h
  rw [n.split, n.split] at h1
  have h2 : splitLevels a = splitLevels b := (List.map_inj_right (fun x y h => n.inj x y h)).mp h1
  rw [(isLevels_split a).joined, (isLevels_split b).joined, h2]

theorem single (b : UInt8) (hb : b ∈ [0x2f, 0x2b, 0x23, 0]) : n.level [b] = [b] := by
  have h1 := n.length [b]
  have h2 : b ∈ n.level [b] := (n.keeps [b] b hb).mpr (List.mem_singleton.mpr rfl)
  cases h : n.level [b] with
  | nil => rw [h] at h2; simp at h2
  | cons x xs =>
    rw [h] at h1 h2
    have : xs = [] := by cases xs with
      | nil => rfl
      | cons _ _ => simp at h1
    subst this
    rw [List.mem_singleton.mp h2]

theorem plus : n.level [0x2b] = [0x2b] := n.single _ (by decide)
theorem hash : n.level [0x23] = [0x23] := n.single _ (by decide)

theorem level_eq (l : Str) {b : UInt8} (hb : n.level [b] = [b]) : n.level l = [b] ↔ l = [b] :=
  ⟨fun h => n.inj _ _ (h.trans hb.symm), fun h => by rw [h, hb]⟩

theorem contains (l : Str) (b : UInt8) (hb : b ∈ [0x2f, 0x2b, 0x23, 0]) : (n.level l).contains b = l.contains b := by
  rw [Bool.eq_iff_iff, List.contains_iff_mem, List.contains_iff_mem]
  exact n.keeps l b hb

end Spec.LevelNames

theorem length_join (f : Str → Str) (hf : ∀ l, (f l).length = l.length) (ls : List Str) :
    (([slash].intercalate (ls.map f)).length) = ([slash].intercalate ls).length := by
  induction ls with
  | nil => rfl
  | cons l ls ih =>
    by_cases h : ls = []
    · subst h; simp only [List.map_cons, List.map_nil, join_one, hf]
    · rw [List.map_cons, join_cons _ _ _ (by simpa using h), join_cons _ _ _ h]
      simp only [List.length_append, hf, ih]

theorem mem_join (b : UInt8) (hb : b ≠ slash) (ls : List Str) : b ∈ [slash].intercalate ls ↔ ∃ l ∈ ls, b ∈ l := by
  induction ls with
  | nil => simp [List.intercalate]
  | cons l ls ih =>
    by_cases h : ls = []
    · subst h; simp [join_one]
    · rw [join_cons _ _ _ h]
      simp only [List.mem_append, List.mem_singleton, hb, or_false, ih]
      constructor
      · rintro (h1 | ⟨x, h1, h2⟩)
        · exact ⟨l, List.mem_cons_self, h1⟩
        · exact ⟨x, List.mem_cons_of_mem _ h1, h2⟩
      · rintro ⟨x, h1, h2⟩
        rcases List.mem_cons.mp h1 with rfl | h1
        · exact .inl h2
        · exact .inr ⟨x, h1, h2⟩

theorem topic_length (t : Str) : (n.topic t).length = t.length := by
  rw [(isLevels_split (n.topic t)).joined, n.split, length_join _ n.length, ← (isLevels_split t).joined]

theorem topic_contains (t : Str) (b : UInt8) (hb : b ∈ [0x2b, 0x23, 0]) : (n.topic t).contains b = t.contains b := by
  have hs : b ≠ slash := by
    simp only [List.mem_cons, List.not_mem_nil, or_false] at hb
    rcases hb with h | h | h <;> subst h <;> decide
  rw [Bool.eq_iff_iff, List.contains_iff_mem, List.contains_iff_mem]
  rw [(isLevels_split (n.topic t)).joined, (isLevels_split t).joined, mem_join b hs, mem_join b hs, ← (isLevels_split t).joined,
    n.split]
  constructor
  · rintro ⟨x, h1, h2⟩
    obtain ⟨l, h3, rfl⟩ := List.mem_map.mp h1
    exact ⟨l, h3, (n.keeps l b (List.mem_cons_of_mem _ hb)).mp h2⟩
  · rintro ⟨l, h1, h2⟩
    exact ⟨n.level l, List.mem_map_of_mem h1, (n.keeps l b (List.mem_cons_of_mem _ hb)).mpr h2⟩

theorem topic_isEmpty (t : Str) : (n.topic t).isEmpty = t.isEmpty := by
  rw [Bool.eq_iff_iff, List.isEmpty_iff_length_eq_zero, List.isEmpty_iff_length_eq_zero, topic_length]

theorem topic_validateCommon (t : Str) : validateCommon (n.topic t) = validateCommon t := by
  unfold validateCommon
  rw [topic_isEmpty, topic_length, topic_contains n t 0 (by decide)]

theorem topic_validatePublish (t : Str) : validatePublishTopic (n.topic t) = validatePublishTopic t := by
  unfold validatePublishTopic
  rw [topic_validateCommon, topic_contains n t 0x2b (by decide), topic_contains n t 0x23 (by decide)]

theorem level_validate (ls : List Str) : validateFilterLevels (ls.map n.level) = validateFilterLevels ls := by
  induction ls with
  | nil => rfl
  | cons l ls ih =>
    have h1 : (n.level l != [0x2b]) = (l != [0x2b]) := by
      rw [Bool.eq_iff_iff, bne_iff_ne, bne_iff_ne]; exact not_congr (n.level_eq l n.plus)
    have h2 : (n.level l != [0x23]) = (l != [0x23]) := by
      rw [Bool.eq_iff_iff, bne_iff_ne, bne_iff_ne]; exact not_congr (n.level_eq l n.hash)
    have h3 : (ls.map n.level ≠ []) ↔ (ls ≠ []) := not_congr List.map_eq_nil_iff
    simp only [List.map_cons, validateFilterLevels, n.contains l 0x2b (by decide), n.contains l 0x23 (by decide), h1, h2, h3, ih]

theorem topic_validateFilter (t : Str) : validateSubscribeFilter (n.topic t) = validateSubscribeFilter t := by
  unfold validateSubscribeFilter
  rw [topic_validateCommon, n.split, level_validate]

theorem level_matchLoop (fs : List Str) : ∀ ts, matchLoop (ts.map n.level) (fs.map n.level) = matchLoop ts fs := by
  induction fs with
  | nil => intro ts; cases ts <;> rfl
  | cons f fs ih =>
    intro ts
    cases ts with
    | nil => simp only [List.map_cons, List.map_nil, matchLoop, n.level_eq f n.hash]
    | cons t ts =>
      have h2 : n.level f = n.level t ↔ f = t := ⟨n.inj _ _, congrArg _⟩
      simp only [List.map_cons, matchLoop, n.level_eq f n.hash, ne_eq, n.level_eq f n.plus, h2, ih]

theorem topic_matches (t f : Str) :
    topicMatchesFilter (n.topic t) (splitLevels (n.topic f)) = topicMatchesFilter t (splitLevels f) := by
  unfold topicMatchesFilter
  rw [n.split, n.split, level_matchLoop]

/-! ## Topic tree -/

namespace TopicNode

variable {T U : Type} (g : T → U)

mutual
/-- A node with other levels below it and other messages. -/
def relevel : TopicNode T → TopicNode U
  | mk s c => mk (s.map g) (relevelAll c)
/-- Nodes with other levels and other messages. -/
def relevelAll : List (Str × TopicNode T) → List (Str × TopicNode U)
  | [] => []
  | e :: cs => relevelOne e :: relevelAll cs
/-- A node with another level and other messages. -/
def relevelOne : Str × TopicNode T → Str × TopicNode U
  | (k, m) => (n.level k, relevel m)
end

theorem relevelAll_eq (c : List (Str × TopicNode T)) : relevelAll n g c = Map.onBoth n.level (relevel n g) c := by
  induction c with
  | nil => simp [relevelAll, Map.onBoth]
  | cons e c ih =>
    obtain ⟨k, m⟩ := e
    simp only [relevelAll, relevelOne, ih, Map.onBoth, List.map_cons]

theorem relevel_sent (m : TopicNode T) : (m.relevel n g).sent = m.sent.map g := by
  cases m; simp [relevel, sent]

theorem relevel_children (m : TopicNode T) : (m.relevel n g).children = Map.onBoth n.level (relevel n g) m.children := by
  cases m; simp only [relevel, children, relevelAll_eq]

theorem relevel_mk (s : List T) (c : Map Str (TopicNode T)) :
    relevel n g (mk s c) = mk (s.map g) (Map.onBoth n.level (relevel n g) c) := by
  simp only [relevel, relevelAll_eq]

theorem relevel_child (m : TopicNode T) (l : Str) :
    (m.relevel n g).child (n.level l) = (m.child l).map (relevel n g) := by
  unfold child
  rw [relevel_children, onBoth_get n.inj]

theorem relevel_plus (m : TopicNode T) : (m.relevel n g).child [0x2b] = (m.child [0x2b]).map (relevel n g) := by
  have := relevel_child n g m [0x2b]
  rwa [n.plus] at this

theorem relevel_hash (m : TopicNode T) : (m.relevel n g).child [0x23] = (m.child [0x23]).map (relevel n g) := by
  have := relevel_child n g m [0x23]
  rwa [n.hash] at this

theorem relevel_new : relevel n g (new : TopicNode T) = new := by simp [new, relevel, relevelAll]

theorem relevel_find (ls : List Str) : ∀ m : TopicNode T,
    (m.relevel n g).find (ls.map n.level) = (m.find ls).map (relevel n g) := by
  induction ls with
  | nil => intro m; simp [find]
  | cons l ls ih =>
    intro m
    simp only [List.map_cons, find, relevel_child]
    cases m.child l with
    | none => rfl
    | some c => exact ih c

theorem relevel_ensure (ls : List Str) : ∀ m : TopicNode T,
    (m.relevel n g).ensure (ls.map n.level) = (m.ensure ls).relevel n g := by
  induction ls with
  | nil => intro m; simp [ensure]
  | cons l ls ih =>
    intro m
    simp only [List.map_cons, ensure, relevel_child, relevel_sent, relevel_children, relevel_mk, ← onBoth_insert n.inj]
    congr 2
    cases m.child l with
    | none => simp only [Option.map_none, Option.getD_none, ← ih, relevel_new]
    | some c => exact ih c

theorem relevel_send (ls : List Str) (v : T) : ∀ m : TopicNode T,
    (m.relevel n g).send (ls.map n.level) (g v) = (m.send ls v).relevel n g := by
  induction ls with
  | nil => intro m; simp only [List.map_nil, send, relevel_sent, relevel_children, relevel_mk, List.map_append, List.map_cons]
  | cons l ls ih =>
    intro m
    simp only [List.map_cons, send, relevel_child]
    cases m.child l with
    | none => rfl
    | some c => simp only [Option.map_some, ih, relevel_sent, relevel_children, relevel_mk, onBoth_insert n.inj]

/-- A stack entry with other levels and other messages. -/
def Frame.relevel (f : Frame T) : Frame U := ⟨f.node.relevel n g, f.path.map n.level, f.rest.map n.level⟩

theorem relevel_publishLoop (fuel : Nat) : ∀ stack : List (Frame T),
    publishLoop fuel (stack.map (Frame.relevel n g)) = (publishLoop fuel stack).map (List.map n.level) := by
  induction fuel with
  | zero => intro stack; cases stack <;> simp [publishLoop]
  | succ fuel ih =>
    intro stack
    cases stack with
    | nil => simp [publishLoop]
    | cons f stack =>
      obtain ⟨m, path, rest⟩ := f
      simp only [List.map_cons, Frame.relevel]
      cases rest with
      | nil =>
        simp only [List.map_nil, publishLoop, relevel_hash]
        have := ih stack
        cases m.child [0x23] <;> simp [this, n.hash]
      | cons level rest =>
        simp only [List.map_cons, publishLoop, relevel_child, relevel_plus, relevel_hash]
        cases h1 : m.child level with
        | none =>
          cases h2 : m.child [0x2b] with
          | none => cases m.child [0x23] <;> simp [ih, n.hash]
          | some b =>
            have := ih (⟨b, path ++ [[0x2b]], rest⟩ :: stack)
            simp only [List.map_cons, Frame.relevel, List.map_append, n.plus, List.map_nil] at this
            cases m.child [0x23] <;> simp [this, n.hash]
        | some a =>
          cases h2 : m.child [0x2b] with
          | none =>
            have := ih (⟨a, path ++ [level], rest⟩ :: stack)
            simp only [List.map_cons, Frame.relevel, List.map_append, List.map_nil] at this
            cases m.child [0x23] <;> simp [this, n.hash]
          | some b =>
            have := ih (⟨b, path ++ [[0x2b]], rest⟩ :: ⟨a, path ++ [level], rest⟩ :: stack)
            simp only [List.map_cons, Frame.relevel, List.map_append, n.plus, List.map_nil] at this
            cases m.child [0x23] <;> simp [this, n.hash]

theorem relevel_targets (m : TopicNode T) (topic : Str) :
    targets (m.relevel n g) (n.topic topic) = (targets m topic).map (List.map n.level) := by
  unfold targets
  simp only [n.split, List.length_map]
  exact relevel_publishLoop n g _ [⟨m, [], splitLevels topic⟩]

theorem relevel_publish (t : TopicNode T) (topic : Str) (v : T) :
    TopicTree.publish (t.relevel n g) (n.topic topic) (g v) = (TopicTree.publish t topic v).relevel n g := by
  unfold TopicTree.publish
  rw [relevel_targets]
  generalize targets t topic = ps
  induction ps generalizing t with
  | nil => rfl
  | cons p ps ih => simp only [List.map_cons, List.foldl_cons, relevel_send, ih]

/-- A receiver of another channel. -/
def _root_.Mercurio.Receiver.relevel (r : Receiver) : Receiver := { r with path := r.path.map n.level }

theorem relevel_subscribe (t : TopicNode T) (filter : Str) :
    TopicTree.subscribe (t.relevel n g) (n.topic filter) =
      ((TopicTree.subscribe t filter).1.relevel n g, (TopicTree.subscribe t filter).2.relevel n) := by
  simp only [TopicTree.subscribe, n.split, relevel_ensure, relevel_find, Option.map_map, Receiver.relevel]
  refine Prod.ext rfl ?_
  have : (fun m : TopicNode U => m.sent.length) ∘ relevel n g = fun m => m.sent.length := by
    funext m
    simp [relevel_sent]
  simp only [this]

end TopicNode

/-! ## Other topics -/

/-- A message on another topic. -/
def Message.relevel (m : Message) : Message := { m with topic := n.topic m.topic }
/-- A PUBLISH on another topic. -/
def PublishPacket.relevel (p : PublishPacket) : PublishPacket := { p with topicName := n.topic p.topicName }
/-- A CONNECT with another topic of the will. -/
def ConnectPacket.relevel (p : ConnectPacket) : ConnectPacket :=
  { p with payload := { p.payload with willTopic := p.payload.willTopic.map n.topic } }
/-- A will with another topic. -/
def StoredWill.relevel (w : StoredWill) : StoredWill := { w with topic := n.topic w.topic }
/-- A stored message with another topic. -/
def Inflight.relevel (i : Inflight) : Inflight := { i with topic := n.topic i.topic }
/-- A stored session with other topics. -/
def SessionState.relevel (s : SessionState) : SessionState := { s with subscriptions := s.subscriptions.map n.topic }
/-- A stream with other topics. -/
def SubStream.relevel (s : SubStream) : SubStream := ⟨s.retained.map (Message.relevel n), s.rx.relevel n⟩
/-- A session with other topics. -/
def Session.relevel (s : Session) : Session where
  connect := s.connect.relevel n
  clientId := s.clientId
  subscriptions := s.subscriptions.onBoth n.topic (SubStream.relevel n)
  unacked := s.unacked.onValues (PublishPacket.relevel n)
  pubrecs := s.pubrecs
  will := s.will.map (StoredWill.relevel n)
  authMethod := s.authMethod
/-- A storage with other topics. -/
def MemoryStore.relevel (s : MemoryStore) : MemoryStore where
  sessions := s.sessions.onValues (SessionState.relevel n)
  retained := s.retained.onBoth n.topic (Message.relevel n)
  wills := s.wills.onValues (StoredWill.relevel n)
  inflight := s.inflight.onValues (Map.onValues (Inflight.relevel n))
/-- A call with another topic. -/
def Call.relevel : Call → Call
  | .publish src t m => .publish src (n.topic t) (m.relevel n)
  | .subscribe t => .subscribe (n.topic t)
  | .restart => .restart
/-- A broker with other topics. -/
def Broker.relevel (b : Broker) : Broker := ⟨TopicNode.relevel n (Message.relevel n) b.tree, b.store.relevel n⟩
/-- A world with other topics. -/
def World.relevel (w : World) : World := ⟨w.broker.relevel n, w.log.map (Call.relevel n)⟩
/-- A server with other topics. -/
def Server.relevel (srv : Server) : Server where
  world := srv.world.relevel n
  heap := srv.heap.onValues (Session.relevel n)
  fresh := srv.fresh
  sessions := srv.sessions
  conns := srv.conns

/-! ## Storage -/

namespace MemoryStore

theorem relevel_saveSession (s : MemoryStore) (c : Str) (v : SessionState) :
    (s.relevel n).saveSession c (v.relevel n) = (s.saveSession c v).relevel n := by
  simp only [saveSession, relevel, onValues_insert]

theorem relevel_loadSession (s : MemoryStore) (c : Str) :
    (s.relevel n).loadSession c = (s.loadSession c).map (SessionState.relevel n) := onValues_get _ _ _

theorem relevel_deleteSession (s : MemoryStore) (c : Str) :
    (s.relevel n).deleteSession c = (s.deleteSession c).relevel n := by
  simp only [deleteSession, relevel, onValues_erase]

theorem relevel_storeRetained (s : MemoryStore) (t : Str) (m : Option Message) :
    (s.relevel n).storeRetained (n.topic t) (m.map (Message.relevel n)) = (s.storeRetained t m).relevel n := by
  cases m with
  | none => simp only [storeRetained, Option.map_none, relevel, onBoth_erase n.topic_inj]
  | some m => simp only [storeRetained, Option.map_some, relevel, onBoth_insert n.topic_inj]

theorem relevel_getRetained (s : MemoryStore) (filter : Str) :
    (s.relevel n).getRetained (n.topic filter) = (s.getRetained filter).map (Message.relevel n) := by
  simp only [getRetained, relevel, Map.onBoth, List.filter_map, List.map_map]
  have : ((fun e : Str × Message => topicMatchesFilter e.1 (splitLevels (n.topic filter))) ∘
      fun e : Str × Message => (n.topic e.1, e.2.relevel n)) = fun e => topicMatchesFilter e.1 (splitLevels filter) := by
    funext e
    exact topic_matches n e.1 filter
  rw [this]
  rfl

theorem relevel_storeWill (s : MemoryStore) (c : Str) (w : StoredWill) :
    (s.relevel n).storeWill c (w.relevel n) = (s.storeWill c w).relevel n := by
  simp only [storeWill, relevel, onValues_insert]

theorem relevel_getWill (s : MemoryStore) (c : Str) :
    (s.relevel n).getWill c = (s.getWill c).map (StoredWill.relevel n) := onValues_get _ _ _

theorem relevel_deleteWill (s : MemoryStore) (c : Str) : (s.relevel n).deleteWill c = (s.deleteWill c).relevel n := by
  simp only [deleteWill, relevel, onValues_erase]

theorem relevel_storeInflight (s : MemoryStore) (c : Str) (id : UInt16) (m : Inflight) :
    (s.relevel n).storeInflight c id (m.relevel n) = (s.storeInflight c id m).relevel n := by
  simp only [storeInflight, relevel, onValues_get]
  have : ((s.inflight.get c).map (Map.onValues (Inflight.relevel n))).getD [] =
      Map.onValues (Inflight.relevel n) ((s.inflight.get c).getD []) := by
    cases s.inflight.get c <;> rfl
  rw [this, onValues_insert, onValues_insert]

theorem relevel_removeInflight (s : MemoryStore) (c : Str) (id : UInt16) :
    (s.relevel n).removeInflight c id = (s.removeInflight c id).relevel n := by
  simp only [removeInflight, relevel, onValues_get]
  cases s.inflight.get c with
  | none => rfl
  | some msgs => simp only [Option.map_some, onValues_erase, onValues_insert]

theorem relevel_getAllInflight (s : MemoryStore) (c : Str) :
    (s.relevel n).getAllInflight c = (s.getAllInflight c).map (Inflight.relevel n) := by
  simp only [getAllInflight, relevel, onValues_get]
  cases s.inflight.get c with
  | none => rfl
  | some msgs => simp [Map.onValues]

end MemoryStore

/-! ## Broker -/

variable {n}

theorem relevel_publishStore (s : MemoryStore) (t : Str) (m : Message) :
    Broker.publishStore (s.relevel n) (n.topic t) (m.relevel n) = (Broker.publishStore s t m).relevel n := by
  have hn : Broker.noPayload (m.relevel n) = Broker.noPayload m := rfl
  unfold Broker.publishStore
  rw [hn]
  show (if m.retain = true then _ else _) = _
  split
  · split
    · exact MemoryStore.relevel_storeRetained n s t none
    · exact MemoryStore.relevel_storeRetained n s t (some { m with retain := false })
  · rfl

theorem relevel_publish (w : World) (src : Source) (t : Str) (m : Message) :
    (w.relevel n).publish src (n.topic t) (m.relevel n) = (w.publish src t m).relevel n := by
  simp only [World.publish, World.relevel, Broker.relevel, Broker.publish, relevel_publishStore,
    TopicNode.relevel_publish, List.map_append, List.map_cons, List.map_nil, Call.relevel]

theorem relevel_subscribe (w : World) (t : Str) :
    (w.relevel n).subscribe (n.topic t) = ((w.subscribe t).1.relevel n, (w.subscribe t).2.1.relevel n,
      (w.subscribe t).2.2.map (Message.relevel n)) := by
  simp only [World.subscribe, World.relevel, Broker.relevel, Broker.subscribe, TopicNode.relevel_subscribe,
    MemoryStore.relevel_getRetained, List.map_append, List.map_cons, List.map_nil, Call.relevel]

theorem relevel_restart (w : World) : (w.relevel n).restart = w.restart.relevel n := by
  simp only [World.restart, World.relevel, Broker.relevel, TopicTree.new, TopicNode.relevel_new, List.map_append, List.map_cons,
    List.map_nil, Call.relevel]

/-! ## Sessions -/

theorem relevel_channelOf (t : TopicTree Message) (r : Receiver) :
    channelOf (TopicNode.relevel n (Message.relevel n) t) (r.relevel n) = (channelOf t r).map (Message.relevel n) := by
  unfold channelOf Receiver.relevel
  simp only [TopicNode.relevel_find]
  cases TopicNode.find t r.path with
  | none => rfl
  | some m => simp [TopicNode.relevel_sent]

theorem relevel_liveNext (sent : List Message) (k : Nat) :
    liveNext (sent.map (Message.relevel n)) k = (liveNext sent k).map fun r => (r.1.relevel n, r.2) := by
  unfold liveNext
  rw [map_recv]
  cases h : Receiver.recv sent k with
  | mk a k =>
    cases a with
    | value v => rfl
    | empty => rfl
    | lagged j =>
      simp only
      rw [map_recv]
      cases Receiver.recv sent k with
      | mk a' k' => cases a' <;> rfl

theorem relevel_poll (t : TopicTree Message) (s : SubStream) :
    (s.relevel n).poll (TopicNode.relevel n (Message.relevel n) t) =
      (s.poll t).map fun r => (r.1.relevel n, r.2.relevel n) := by
  obtain ⟨l, rx⟩ := s
  unfold SubStream.poll SubStream.relevel
  cases l with
  | cons m rest => rfl
  | nil =>
    simp only [List.map_nil, relevel_channelOf]
    have : (rx.relevel n).next = rx.next := rfl
    rw [this, relevel_liveNext]
    simp only [Option.map_map]
    rfl

theorem relevel_willOfConnect (p : ConnectPacket) :
    willOfConnect (p.relevel n) = (willOfConnect p).map (StoredWill.relevel n) := by
  unfold willOfConnect
  show (if p.flags.willFlag = true then match p.payload.willTopic.map n.topic with | none => _ | some t => _ else _) = _
  split
  · cases p.payload.willTopic <;> rfl
  · rfl

namespace Session

theorem relevel_new (p : ConnectPacket) : Session.new (p.relevel n) = (Session.new p).relevel n := by
  unfold Session.new
  rw [relevel_willOfConnect]
  rfl

theorem relevel_setConnect (s : Session) (p : ConnectPacket) :
    (s.relevel n).setConnect (p.relevel n) = (s.setConnect p).relevel n := by
  unfold setConnect
  rw [relevel_willOfConnect]
  rfl

theorem relevel_addSubscription (s : Session) (w : World) (t : Str) :
    (s.relevel n).addSubscription (w.relevel n) (n.topic t) =
      ((s.addSubscription w t).1.relevel n, (s.addSubscription w t).2.relevel n) := by
  simp only [addSubscription, relevel_subscribe]
  refine Prod.ext ?_ rfl
  simp only [relevel]
  rw [← onBoth_insert n.topic_inj]
  rfl

theorem relevel_restore (fs : List Str) : ∀ (s : Session) (w : World),
    (s.relevel n).restoreSubscriptions (w.relevel n) (fs.map n.topic) =
      ((s.restoreSubscriptions w fs).1.relevel n, (s.restoreSubscriptions w fs).2.relevel n) := by
  induction fs with
  | nil => intro s w; rfl
  | cons t fs ih => intro s w; simp only [List.map_cons, restoreSubscriptions, relevel_addSubscription, ih]

theorem relevel_subscribeLoop (fs : List Str) : ∀ (s : Session) (w : World),
    (s.relevel n).subscribeLoop (w.relevel n) (fs.map n.topic) =
      ((s.subscribeLoop w fs).1.relevel n, (s.subscribeLoop w fs).2.1.relevel n, (s.subscribeLoop w fs).2.2) := by
  induction fs with
  | nil => intro s w; rfl
  | cons t fs ih =>
    intro s w
    simp only [List.map_cons, subscribeLoop, topic_validateFilter]
    split
    · simp only [ih]
    · simp only [relevel_addSubscription, ih]

theorem relevel_unsubscribeLoop (fs : List Str) : ∀ subs : Map Str SubStream,
    unsubscribeLoop (subs.onBoth n.topic (SubStream.relevel n)) (fs.map n.topic) =
      ((unsubscribeLoop subs fs).1.onBoth n.topic (SubStream.relevel n), (unsubscribeLoop subs fs).2) := by
  induction fs with
  | nil => intro s; rfl
  | cons t fs ih =>
    intro subs
    simp only [List.map_cons, unsubscribeLoop, onBoth_erase n.topic_inj, ih, onBoth_get n.topic_inj, Option.isSome_map]

theorem relevel_begin (s : Session) (uuid : Str) (resume : Bool) :
    (s.relevel n).begin uuid resume = ((s.begin uuid resume).1.relevel n, (s.begin uuid resume).2) := by
  have h : (s.relevel n).connect.payload.clientId = s.connect.payload.clientId := rfl
  have hv : (s.relevel n).connect.protocolVersion = s.connect.protocolVersion := rfl
  unfold begin
  rw [h, hv]
  split <;> rfl

theorem relevel_notePublish (s : Session) (p : PublishPacket) :
    (s.relevel n).notePublish (p.relevel n) = (s.notePublish p).relevel n := by
  obtain ⟨d, q, r, t, i, pr, pl⟩ := p
  unfold notePublish PublishPacket.relevel
  cases q <;> cases i <;> try rfl
  simp only [relevel]
  rw [← onValues_insert]
  rfl

theorem relevel_publishResponse (p : PublishPacket) :
    publishResponse (p.relevel n) = publishResponse p ∧
    (publishResponse p).map (Option.map (relevelPacket n)) = publishResponse p := by
  obtain ⟨d, q, r, t, i, pr, pl⟩ := p
  cases q <;> cases i <;> exact ⟨rfl, rfl⟩

/-- What a handler leaves behind, with other topics. -/
def _root_.Mercurio.Handled.relevel (n : LevelNames) (h : Handled) : Handled :=
  ⟨h.session.relevel n, h.world.relevel n, h.result.map (Option.map (relevelPacket n))⟩

theorem relevel_processIncoming (s : Session) (w : World) (m : Option AuthManager) (c : Nat) (p : Packet) :
    (s.relevel n).processIncoming (w.relevel n) m c (relevelPacket n p) = (s.processIncoming w m c p).relevel n := by
  cases p with
  | publish p =>
    simp only [relevelPacket, processIncoming, handlePublish, topic_validatePublish]
    have h1 : messageOf { p with topicName := n.topic p.topicName } = (messageOf p).relevel n := rfl
    have h2 := relevel_notePublish (n := n) s p
    have h3 := relevel_publishResponse (n := n) p
    split
    · rfl
    · rw [h1, relevel_publish]
      simp only [Handled.relevel, ← h2, h3.2]
      exact congrArg (fun x => (⟨_, _, x⟩ : Handled)) h3.1
  | subscribe p =>
    have h : (p.payload.map fun x => ({ x with topicFilter := n.topic x.topicFilter } : SubscribePayload)).map (·.topicFilter) =
        (p.payload.map (·.topicFilter)).map n.topic := by simp only [List.map_map]; rfl
    simp only [relevelPacket, processIncoming, handleSubscribe]
    rw [h, relevel_subscribeLoop]
    rfl
  | unsubscribe p =>
    simp only [relevelPacket, processIncoming, handleUnsubscribe]
    have : (s.relevel n).subscriptions = s.subscriptions.onBoth n.topic (SubStream.relevel n) := rfl
    rw [this, relevel_unsubscribeLoop]
    rfl
  | auth p =>
    simp only [relevelPacket, processIncoming, handleAuth]
    have ha : (s.relevel n).authMethod = s.authMethod := rfl
    rw [ha]
    cases m with
    | none => rfl
    | some a =>
      have key : ∀ r : Option Str × Except Err (Option Packet), r.2.map (Option.map (relevelPacket n)) = r.2 →
          (⟨{ s.relevel n with authMethod := r.1 }, w.relevel n, r.2⟩ : Handled) =
            Handled.relevel n ⟨{ s with authMethod := r.1 }, w, r.2⟩ := by
        intro r hr
        simp only [Handled.relevel, hr]
        rfl
      refine key _ ?_
      split
      · unfold authStart
        split
        · rfl
        · split
          · split <;> rfl
          · rfl
      · unfold authContinue
        split
        · rfl
        · rfl
        · split <;> rfl
      · rfl
  | pubAck p =>
    simp only [relevelPacket, processIncoming, handlePubAck, Handled.relevel, relevel, onValues_erase]
    rfl
  | pubRec p =>
    simp only [relevelPacket, processIncoming, handlePubRec, Handled.relevel, relevel, onValues_erase]
    rfl
  | _ => rfl

theorem relevel_noteOutgoing (s : Session) (p : PublishPacket) :
    (s.relevel n).noteOutgoing (p.relevel n) = (s.noteOutgoing p).map (Session.relevel n) := by
  obtain ⟨d, q, r, t, i, pr, pl⟩ := p
  unfold noteOutgoing PublishPacket.relevel
  cases i with
  | none => rfl
  | some id =>
    cases q <;> try rfl
    all_goals
      simp only [relevel, Option.map_some]
      rw [← onValues_insert]
      rfl

/-- What goes out, with other topics. -/
def Outgoing.relevel (n : LevelNames) : Outgoing → Outgoing
  | .idle => .idle
  | .packet s p => .packet (s.relevel n) (p.relevel n)
  | .panicked s => .panicked (s.relevel n)

theorem relevel_processOutgoing (s : Session) (t : TopicTree Message) (filter : Str) :
    (s.relevel n).processOutgoing (TopicNode.relevel n (Message.relevel n) t) (n.topic filter) =
      (s.processOutgoing t filter).relevel n := by
  unfold processOutgoing
  have h : (s.relevel n).subscriptions = s.subscriptions.onBoth n.topic (SubStream.relevel n) := rfl
  rw [h, onBoth_get n.topic_inj]
  cases s.subscriptions.get filter with
  | none => rfl
  | some st =>
    simp only [Option.map_some, relevel_poll]
    cases st.poll t with
    | none => rfl
    | some r =>
      obtain ⟨m, st'⟩ := r
      simp only [Option.map_some]
      have h1 : outgoingPacket (n.topic filter) (m.relevel n) = (outgoingPacket filter m).relevel n := rfl
      have h2 : { s.relevel n with subscriptions :=
          (s.subscriptions.onBoth n.topic (SubStream.relevel n)).insert (n.topic filter) (st'.relevel n) } =
          ({ s with subscriptions := s.subscriptions.insert filter st' } : Session).relevel n := by
        simp only [relevel, onBoth_insert n.topic_inj]
      rw [h1, h2, relevel_noteOutgoing]
      cases ({ s with subscriptions := s.subscriptions.insert filter st' } : Session).noteOutgoing (outgoingPacket filter m) <;> rfl

end Session

/-! ## Server -/

namespace Server

theorem relevel_put (srv : Server) (r : Nat) (s : Session) :
    (srv.relevel n).put r (s.relevel n) = (srv.put r s).relevel n := by
  simp only [put, relevel, onValues_insert]

theorem relevel_mapStore (srv : Server) {h k : MemoryStore → MemoryStore} (hk : ∀ s, k (s.relevel n) = (h s).relevel n) :
    (srv.relevel n).mapStore k = (srv.mapStore h).relevel n := by
  simp only [mapStore, World.mapStore, relevel, World.relevel, Broker.relevel, hk]

/-- What is found, with other topics. -/
def Found.relevel (n : LevelNames) (x : Found) : Found :=
  ⟨x.resume, x.subscriptions.map n.topic, x.will.map (StoredWill.relevel n), x.inflight.map (Inflight.relevel n)⟩

theorem relevel_lookup (srv : Server) (cid : Str) (clean : Bool) :
    (srv.relevel n).find cid clean = (srv.find cid clean).relevel n := by
  unfold find
  split
  · rfl
  · show (if (srv.sessions.get cid).isSome = true then _ else _) = _
    split
    · rfl
    · have h1 : (srv.relevel n).store = srv.store.relevel n := rfl
      rw [h1, MemoryStore.relevel_loadSession]
      cases srv.store.loadSession cid with
      | none => rfl
      | some st =>
        simp only [Option.map_some, MemoryStore.relevel_getWill, MemoryStore.relevel_getAllInflight]
        rfl

theorem relevel_discard (srv : Server) (cid : Str) (clean : Bool) :
    (srv.relevel n).discard cid clean = (srv.discard cid clean).relevel n := by
  unfold Server.discard
  split
  · exact relevel_mapStore { srv with sessions := srv.sessions.erase cid } (n := n)
      (h := fun s => (s.deleteSession cid).deleteWill cid)
      (k := fun s => (s.deleteSession cid).deleteWill cid)
      (fun s => by simp only [MemoryStore.relevel_deleteSession, MemoryStore.relevel_deleteWill])
  · rfl

theorem relevel_enter (srv : Server) (p : ConnectPacket) :
    (srv.relevel n).enter (p.relevel n) =
      ((srv.enter p).1.relevel n, (srv.enter p).2.1, (srv.enter p).2.2.relevel n) := by
  unfold enter
  have hc : (p.relevel n).payload.clientId = p.payload.clientId := rfl
  have hh : ∀ r, (srv.relevel n).heap.get r = (srv.heap.get r).map (Session.relevel n) := fun r => onValues_get _ _ _
  have hs : (srv.relevel n).sessions = srv.sessions := rfl
  have hfr : (srv.relevel n).fresh = srv.fresh := rfl
  rw [hc, hs, hfr, Session.relevel_new]
  cases srv.sessions.get p.payload.clientId with
  | none => rfl
  | some r =>
    simp only [hh]
    cases srv.heap.get r with
    | none => rfl
    | some s =>
      simp only [Option.map_some, Session.relevel_setConnect]

theorem relevel_saveStart (s : Session) (subs : List Str) (st : MemoryStore) :
    saveStart (s.relevel n) (subs.map n.topic) (st.relevel n) = (saveStart s subs st).relevel n := by
  have h : (st.relevel n).saveSession s.clientId (stateOf s.clientId (subs.map n.topic)) =
      (st.saveSession s.clientId (stateOf s.clientId subs)).relevel n :=
    MemoryStore.relevel_saveSession n st s.clientId (stateOf s.clientId subs)
  unfold saveStart
  show (match s.will.map (StoredWill.relevel n) with
    | some w => ((st.relevel n).saveSession s.clientId (stateOf s.clientId (subs.map n.topic))).storeWill s.clientId w
    | none => (st.relevel n).saveSession s.clientId (stateOf s.clientId (subs.map n.topic))) = _
  rw [h]
  cases s.will with
  | none => rfl
  | some w => exact MemoryStore.relevel_storeWill n _ _ _

theorem relevel_restoreWill (s : Session) (w : Option StoredWill) :
    restoreWill (s.relevel n) (w.map (StoredWill.relevel n)) = (restoreWill s w).relevel n := by
  cases w <;> rfl

theorem relevel_start (srv : Server) (c : Nat) (p : ConnectPacket) (uuid : Str) (w : Bool) :
    (srv.relevel n).start c (p.relevel n) uuid w =
      ((srv.start c p uuid w).1.relevel n, relevelOut n (srv.start c p uuid w).2) := by
  unfold start
  have hc : (p.relevel n).payload.clientId = p.payload.clientId := rfl
  have hfl : (p.relevel n).flags = p.flags := rfl
  simp only [hc, hfl, relevel_lookup, relevel_discard, relevel_enter, Session.relevel_begin, Found.relevel]
  generalize (srv.discard p.payload.clientId p.flags.cleanStart).enter p = e
  generalize srv.find p.payload.clientId p.flags.cleanStart = found
  generalize e.2.2.begin uuid found.resume = b
  cases w with
  | false =>
    simp only [Bool.false_eq_true, if_false]
    exact Prod.ext (relevel_put _ _ _) rfl
  | true =>
    simp only [if_true]
    refine Prod.ext ?_ ?_
    · have h1 : (e.1.relevel n).mapStore (saveStart (b.1.relevel n) (found.subscriptions.map n.topic)) =
          (e.1.mapStore (saveStart b.1 found.subscriptions)).relevel n :=
        relevel_mapStore e.1 (fun s => relevel_saveStart _ _ _)
      simp only [h1]
      generalize e.1.mapStore (saveStart b.1 found.subscriptions) = srv'
      have h2 := Session.relevel_restore (n := n) found.subscriptions b.1 srv'.world
      have h3 : (srv'.relevel n).world = srv'.world.relevel n := rfl
      rw [h3, h2]
      simp only [relevel_restoreWill]
      exact relevel_put (n := n) ⟨_, srv'.heap, srv'.fresh, srv'.sessions, srv'.conns.insert c ⟨e.2.1, p.payload.clientId⟩⟩ _ _
    · simp only [relevelOut, List.map_cons, List.map_map]
      rfl

theorem relevel_finish (srv : Server) (c r : Nat) (s : Session) :
    (srv.relevel n).finish c r (s.relevel n) = (srv.finish c r s).relevel n := by
  unfold finish
  show (match s.will.map (StoredWill.relevel n) with | none => _ | some w => _) = _
  cases s.will with
  | none => exact relevel_put { srv with conns := srv.conns.erase c } r s
  | some w =>
    have h2 : (srv.relevel n).world.publish (.will c) (n.topic w.topic) (willMessage (w.relevel n)) =
        (srv.world.publish (.will c) w.topic (willMessage w)).relevel n :=
      relevel_publish srv.world (.will c) w.topic (willMessage w)
    show mapStore (put { srv.relevel n with conns := _, world := (srv.relevel n).world.publish (.will c) (n.topic w.topic) _ } _ _) _ = _
    rw [h2]
    have h3 := relevel_put (n := n) { srv with conns := srv.conns.erase c, world := srv.world.publish (.will c) w.topic (willMessage w) }
      r { s with will := none }
    exact (congrArg (fun x => mapStore x fun st => st.deleteWill s.clientId) h3).trans
      (relevel_mapStore _ (fun st => MemoryStore.relevel_deleteWill n st _))

theorem relevel_onConn (srv : Server) (c : Nat) (k h : Nat → Session → Server × Out)
    (hh : ∀ r s, h r (s.relevel n) = ((k r s).1.relevel n, relevelOut n (k r s).2)) :
    (srv.relevel n).onConn c h = ((srv.onConn c k).1.relevel n, relevelOut n (srv.onConn c k).2) := by
  unfold onConn
  have hc : (srv.relevel n).conns.get c = srv.conns.get c := rfl
  rw [hc]
  cases srv.conns.get c with
  | none => rfl
  | some k =>
    have hg : (srv.relevel n).heap.get k.session = (srv.heap.get k.session).map (Session.relevel n) := onValues_get _ _ _
    simp only [hg]
    cases srv.heap.get k.session with
    | none => rfl
    | some s => exact hh _ _

theorem relevel_saveAfter (s : Session) (p : Packet) (st : MemoryStore) :
    saveAfter (s.relevel n) (relevelPacket n p) (st.relevel n) = (saveAfter s p st).relevel n := by
  have hk : (s.relevel n).filters = s.filters.map n.topic := by
    simp only [Session.filters, Session.relevel, Map.keys, Map.onBoth, List.map_map]
    rfl
  cases p <;> simp only [saveAfter, relevelPacket, hk]
  case pubAck a => exact MemoryStore.relevel_removeInflight n st _ _
  case pubComp a => exact MemoryStore.relevel_removeInflight n st _ _
  case subscribe a => exact MemoryStore.relevel_saveSession n st s.clientId (stateOf s.clientId s.filters)
  case unsubscribe a => exact MemoryStore.relevel_saveSession n st s.clientId (stateOf s.clientId s.filters)

theorem relevel_recv (cfg : AuthConfig) (srv : Server) (c r : Nat) (s : Session) (p : Packet) :
    (srv.relevel n).recv cfg c r (s.relevel n) (relevelPacket n p) =
      ((srv.recv cfg c r s p).1.relevel n, relevelOut n (srv.recv cfg c r s p).2) := by
  have key : ∀ p : Packet,
      (match ((s.relevel n).processIncoming (srv.relevel n).world cfg.manager c (relevelPacket n p)).result with
      | .error _ => (finish { srv.relevel n with world := ((s.relevel n).processIncoming (srv.relevel n).world cfg.manager c
          (relevelPacket n p)).world } c r ((s.relevel n).processIncoming (srv.relevel n).world cfg.manager c (relevelPacket n p)).session, {})
      | .ok res => (put (mapStore { srv.relevel n with world := ((s.relevel n).processIncoming (srv.relevel n).world cfg.manager c
          (relevelPacket n p)).world } (saveAfter ((s.relevel n).processIncoming (srv.relevel n).world cfg.manager c
            (relevelPacket n p)).session (relevelPacket n p))) r
          ((s.relevel n).processIncoming (srv.relevel n).world cfg.manager c (relevelPacket n p)).session,
          { sent := res.toList }) : Server × Out) =
      ((match (s.processIncoming srv.world cfg.manager c p).result with
      | .error _ => (finish { srv with world := (s.processIncoming srv.world cfg.manager c p).world } c r
          (s.processIncoming srv.world cfg.manager c p).session, {})
      | .ok res => (put (mapStore { srv with world := (s.processIncoming srv.world cfg.manager c p).world }
          (saveAfter (s.processIncoming srv.world cfg.manager c p).session p)) r
          (s.processIncoming srv.world cfg.manager c p).session, { sent := res.toList }) : Server × Out).1.relevel n,
       relevelOut n (match (s.processIncoming srv.world cfg.manager c p).result with
      | .error _ => (finish { srv with world := (s.processIncoming srv.world cfg.manager c p).world } c r
          (s.processIncoming srv.world cfg.manager c p).session, {})
      | .ok res => (put (mapStore { srv with world := (s.processIncoming srv.world cfg.manager c p).world }
          (saveAfter (s.processIncoming srv.world cfg.manager c p).session p)) r
          (s.processIncoming srv.world cfg.manager c p).session, { sent := res.toList }) : Server × Out).2) := by
    intro p
    have hw : (srv.relevel n).world = srv.world.relevel n := rfl
    rw [hw, Session.relevel_processIncoming]
    generalize hh : s.processIncoming srv.world cfg.manager c p = h
    simp only [Handled.relevel]
    cases hr : h.result with
    | error e => exact Prod.ext (relevel_finish { srv with world := h.world } c r h.session) rfl
    | ok res =>
      refine Prod.ext ?_ ?_
      · have h1 : mapStore { srv.relevel n with world := h.world.relevel n } (saveAfter (h.session.relevel n) (relevelPacket n p)) =
            (mapStore { srv with world := h.world } (saveAfter h.session p)).relevel n :=
          relevel_mapStore { srv with world := h.world } (fun st => relevel_saveAfter _ _ _)
        simp only [h1]
        exact relevel_put _ _ _
      · cases res with
        | none => rfl
        | some q => rfl
  cases p with
  | disconnect p =>
    have h1 : ({ s.relevel n with will := none } : Session) = Session.relevel n { s with will := none } := rfl
    have h2 : ((srv.relevel n).mapStore fun st => st.deleteWill s.clientId) =
        (srv.mapStore fun st => st.deleteWill s.clientId).relevel n :=
      relevel_mapStore srv (fun st => MemoryStore.relevel_deleteWill n st _)
    refine Prod.ext ?_ rfl
    show (((srv.relevel n).mapStore fun st => st.deleteWill s.clientId).finish c r { s.relevel n with will := none }) = _
    rw [h1, h2]
    exact relevel_finish _ _ _ _
  | connect p => exact key (.connect p)
  | connAck p => exact key (.connAck p)
  | publish p => exact key (.publish p)
  | pubAck p => exact key (.pubAck p)
  | pubRec p => exact key (.pubRec p)
  | pubRel p => exact key (.pubRel p)
  | pubComp p => exact key (.pubComp p)
  | subscribe p => exact key (.subscribe p)
  | subAck p => exact key (.subAck p)
  | unsubscribe p => exact key (.unsubscribe p)
  | unsubAck p => exact key (.unsubAck p)
  | pingReq => exact key .pingReq
  | pingResp => exact key .pingResp
  | auth p => exact key (.auth p)

theorem relevel_saveOutgoing (s : Session) (p : PublishPacket) (st : MemoryStore) :
    saveOutgoing (s.relevel n) (p.relevel n) (st.relevel n) = (saveOutgoing s p st).relevel n := by
  obtain ⟨d, q, r, t, i, pr, pl⟩ := p
  unfold saveOutgoing PublishPacket.relevel
  cases i with
  | none => rfl
  | some id =>
    cases q <;> try rfl
    all_goals exact MemoryStore.relevel_storeInflight n st _ _ ⟨id, t, pl, _, d⟩

theorem relevel_deliver (srv : Server) (c r : Nat) (s : Session) (t : Str) :
    (srv.relevel n).deliver c r (s.relevel n) (n.topic t) =
      ((srv.deliver c r s t).1.relevel n, relevelOut n (srv.deliver c r s t).2) := by
  unfold deliver
  have hw : (srv.relevel n).world.broker.tree = TopicNode.relevel n (Message.relevel n) srv.world.broker.tree := rfl
  rw [hw, Session.relevel_processOutgoing]
  cases s.processOutgoing srv.world.broker.tree t with
  | idle => rfl
  | packet s' p =>
    refine Prod.ext ?_ rfl
    simp only [Session.Outgoing.relevel]
    rw [relevel_mapStore srv (fun st => relevel_saveOutgoing s' p st)]
    exact relevel_put _ _ _
  | panicked s' =>
    refine Prod.ext ?_ rfl
    exact relevel_put { srv with conns := srv.conns.erase c } r s'

/-- One step with other topics. -/
theorem relevel_step (cfg : AuthConfig) (srv : Server) (e : Event) :
    (srv.relevel n).step cfg (relevelEvent n e) = ((srv.step cfg e).1.relevel n, relevelOut n (srv.step cfg e).2) := by
  have hc : ∀ c, ((srv.relevel n).conns.get c).isSome = (srv.conns.get c).isSome := fun c => rfl
  cases e with
  | first c p uuid w =>
    cases p with
    | connect p =>
      simp only [relevelEvent, relevelPacket, step, hc]
      split
      · rfl
      · unfold connect
        have ha : authenticated cfg (p.relevel n) = authenticated cfg p := rfl
        show (if (cfg.requireAuth && !authenticated cfg (p.relevel n)) = true then _ else (srv.relevel n).start c (p.relevel n) uuid w) = _
        rw [ha]
        split
        · rfl
        · exact relevel_start srv c p uuid w
    | _ => simp only [relevelEvent, relevelPacket, step, hc]; split <;> rfl
  | recv c p =>
    exact relevel_onConn srv c (fun r s => srv.recv cfg c r s p)
      (fun r s => (srv.relevel n).recv cfg c r s (relevelPacket n p)) (fun r s => relevel_recv cfg srv c r s p)
  | deliver c t =>
    exact relevel_onConn srv c (fun r s => srv.deliver c r s t)
      (fun r s => (srv.relevel n).deliver c r s (n.topic t)) (fun r s => relevel_deliver srv c r s t)
  | close c =>
    exact relevel_onConn srv c (fun r s => (srv.finish c r s, {}))
      (fun r s => ((srv.relevel n).finish c r s, {})) (fun r s => Prod.ext (relevel_finish srv c r s) rfl)
  | abort c => rfl
  | restart =>
    refine Prod.ext ?_ rfl
    simp only [relevelEvent, step, relevel, relevel_restart]
    rfl

theorem relevel_init : Server.init.relevel n = Server.init := by
  simp only [init, relevel, World.relevel, Broker.relevel, TopicTree.new, TopicNode.relevel_new]
  rfl

end Server

end Mercurio
