import Verif.Spec.Payloads
import Verif.Lemmas.Passwords

/-!
# The server with other payloads
-/

namespace Mercurio

open Spec

/-! ## Maps -/

/-- A map with its values replaced. -/
def Map.onValues {K V W : Type} (g : V → W) (m : Map K V) : Map K W := m.map fun e => (e.1, g e.2)

section
variable {K V W : Type} [DecidableEq K] (g : V → W)

theorem onValues_get (m : Map K V) (k : K) : Map.get (m.onValues g) k = (m.get k).map g := by
  induction m with
  | nil => rfl
  | cons e m ih =>
    simp only [Map.onValues, List.map_cons, Map.get] at ih ⊢
    split
    · rfl
    · exact ih

theorem onValues_erase (m : Map K V) (k : K) : Map.erase (m.onValues g) k = (m.erase k).onValues g := by
  unfold Map.erase Map.onValues
  rw [List.filter_map]
  rfl

theorem onValues_insert (m : Map K V) (k : K) (v : V) : Map.insert (m.onValues g) k (g v) = (m.insert k v).onValues g := by
  unfold Map.insert
  rw [onValues_erase]
  rfl

theorem onValues_keys (m : Map K V) : Map.keys (m.onValues g) = m.keys := by
  unfold Map.keys Map.onValues
  rw [List.map_map]
  rfl
end

/-! ## Topic tree -/

namespace TopicNode

variable {T U : Type} (g : T → U)

mutual
/-- A node with all messages replaced. -/
def map : TopicNode T → TopicNode U
  | mk s c => mk (s.map g) (mapAll c)
/-- Nodes with all messages replaced. -/
def mapAll : List (Str × TopicNode T) → List (Str × TopicNode U)
  | [] => []
  | e :: cs => mapOne e :: mapAll cs
/-- A node with all messages replaced. -/
def mapOne : Str × TopicNode T → Str × TopicNode U
  | (k, n) => (k, map n)
end

theorem mapAll_eq (c : List (Str × TopicNode T)) : mapAll g c = Map.onValues (map g) c := by
  induction c with
  | nil => simp [mapAll, Map.onValues]
  | cons e c ih =>
    obtain ⟨k, n⟩ := e
    simp only [mapAll, mapOne, ih, Map.onValues, List.map_cons]

theorem map_sent (n : TopicNode T) : (n.map g).sent = n.sent.map g := by
  cases n; simp [map, sent]

theorem map_children (n : TopicNode T) : (n.map g).children = Map.onValues (map g) n.children := by
  cases n; simp only [map, children, mapAll_eq]

theorem map_mk (s : List T) (c : Map Str (TopicNode T)) : map g (mk s c) = mk (s.map g) (Map.onValues (map g) c) := by
  simp only [map, mapAll_eq]

theorem map_child (n : TopicNode T) (l : Str) : (n.map g).child l = (n.child l).map (map g) := by
  unfold child
  rw [map_children, onValues_get]

theorem map_new : map g (new : TopicNode T) = new := by simp [new, map, mapAll]

theorem map_find (ls : List Str) : ∀ n : TopicNode T, (n.map g).find ls = (n.find ls).map (map g) := by
  induction ls with
  | nil => intro n; simp [find]
  | cons l ls ih =>
    intro n
    simp only [find, map_child]
    cases n.child l with
    | none => rfl
    | some c => exact ih c

theorem map_ensure (ls : List Str) : ∀ n : TopicNode T, (n.map g).ensure ls = (n.ensure ls).map g := by
  induction ls with
  | nil => intro n; simp [ensure]
  | cons l ls ih =>
    intro n
    simp only [ensure, map_child, map_sent, map_children, map_mk, ← onValues_insert]
    congr 2
    cases n.child l with
    | none => simp only [Option.map_none, Option.getD_none, ← ih, map_new]
    | some c => exact ih c

theorem map_send (ls : List Str) (v : T) : ∀ n : TopicNode T, (n.map g).send ls (g v) = (n.send ls v).map g := by
  induction ls with
  | nil => intro n; simp only [send, map_sent, map_children, map_mk, List.map_append, List.map_cons, List.map_nil]
  | cons l ls ih =>
    intro n
    simp only [send, map_child]
    cases n.child l with
    | none => rfl
    | some c => simp only [Option.map_some, ih, map_sent, map_children, map_mk, onValues_insert]

/-- A stack entry with all messages replaced. -/
def Frame.map (f : Frame T) : Frame U := ⟨f.node.map g, f.path, f.rest⟩

theorem map_publishLoop (fuel : Nat) : ∀ stack : List (Frame T),
    publishLoop fuel (stack.map (Frame.map g)) = publishLoop fuel stack := by
  induction fuel with
  | zero => intro stack; cases stack <;> simp [publishLoop]
  | succ fuel ih =>
    intro stack
    cases stack with
    | nil => simp [publishLoop]
    | cons f stack =>
      obtain ⟨n, path, rest⟩ := f
      simp only [List.map_cons, Frame.map]
      cases rest with
      | nil =>
        simp only [publishLoop, map_child]
        have := ih stack
        cases n.child [0x23] <;> simp [this]
      | cons level rest =>
        simp only [publishLoop, map_child]
        cases h1 : n.child level with
        | none =>
          cases h2 : n.child [0x2b] with
          | none => cases n.child [0x23] <;> simp [ih]
          | some b =>
            have := ih (⟨b, path ++ [[0x2b]], rest⟩ :: stack)
            simp only [List.map_cons, Frame.map] at this
            cases n.child [0x23] <;> simp [this]
        | some a =>
          cases h2 : n.child [0x2b] with
          | none =>
            have := ih (⟨a, path ++ [level], rest⟩ :: stack)
            simp only [List.map_cons, Frame.map] at this
            cases n.child [0x23] <;> simp [this]
          | some b =>
            have := ih (⟨b, path ++ [[0x2b]], rest⟩ :: ⟨a, path ++ [level], rest⟩ :: stack)
            simp only [List.map_cons, Frame.map] at this
            cases n.child [0x23] <;> simp [this]

theorem map_targets (n : TopicNode T) (topic : Str) : targets (n.map g) topic = targets n topic :=
  map_publishLoop g _ [⟨n, [], splitLevels topic⟩]

theorem map_publish (t : TopicNode T) (topic : Str) (v : T) :
    TopicTree.publish (t.map g) topic (g v) = (TopicTree.publish t topic v).map g := by
  unfold TopicTree.publish
  rw [map_targets]
  generalize targets t topic = ps
  induction ps generalizing t with
  | nil => rfl
  | cons p ps ih => simp only [List.foldl_cons, map_send, ih]

theorem map_subscribe (t : TopicNode T) (filter : Str) :
    TopicTree.subscribe (t.map g) filter = ((TopicTree.subscribe t filter).1.map g, (TopicTree.subscribe t filter).2) := by
  simp only [TopicTree.subscribe, map_ensure, map_find, Option.map_map]
  refine Prod.ext rfl ?_
  have : (fun n : TopicNode U => n.sent.length) ∘ map g = fun n => n.sent.length := by
    funext n
    simp [map_sent]
  simp only [this]

end TopicNode

theorem map_recv {T U : Type} (g : T → U) (sent : List T) (next : Nat) :
    Receiver.recv (sent.map g) next = ((match (Receiver.recv sent next).1 with
      | .value v => .value (g v)
      | .lagged n => .lagged n
      | .empty => .empty), (Receiver.recv sent next).2) := by
  unfold Receiver.recv
  rw [List.length_map, List.getElem?_map]
  split
  · rfl
  · cases sent[next]? <;> rfl

/-! ## Replacing payloads -/

variable (f : Buf → Buf)

/-- A message with another payload. -/
def Message.recode (m : Message) : Message := { m with payload := m.payload.map f }
/-- A PUBLISH with another payload. -/
def PublishPacket.recode (p : PublishPacket) : PublishPacket := { p with payload := p.payload.map f }
/-- A CONNECT with another payload of the will. -/
def ConnectPacket.recode (p : ConnectPacket) : ConnectPacket :=
  { p with payload := { p.payload with willPayload := p.payload.willPayload.map f } }
/-- A will with another payload. -/
def StoredWill.recode (w : StoredWill) : StoredWill := { w with payload := f w.payload }
/-- A stored message with another payload. -/
def Inflight.recode (i : Inflight) : Inflight := { i with payload := i.payload.map f }
/-- A stream with other payloads. -/
def SubStream.recode (s : SubStream) : SubStream := { s with retained := s.retained.map (Message.recode f) }
/-- A session with other payloads. -/
def Session.recode (s : Session) : Session where
  connect := s.connect.recode f
  clientId := s.clientId
  subscriptions := s.subscriptions.onValues (SubStream.recode f)
  unacked := s.unacked.onValues (PublishPacket.recode f)
  pubrecs := s.pubrecs
  will := s.will.map (StoredWill.recode f)
  authMethod := s.authMethod
/-- A storage with other payloads. -/
def MemoryStore.recode (s : MemoryStore) : MemoryStore where
  sessions := s.sessions
  retained := s.retained.onValues (Message.recode f)
  wills := s.wills.onValues (StoredWill.recode f)
  inflight := s.inflight.onValues (Map.onValues (Inflight.recode f))
/-- A call with another payload. -/
def Call.recode : Call → Call
  | .publish src t m => .publish src t (m.recode f)
  | c => c
/-- A broker with other payloads. -/
def Broker.recode (b : Broker) : Broker := ⟨TopicNode.map (Message.recode f) b.tree, b.store.recode f⟩
/-- A world with other payloads. -/
def World.recode (w : World) : World := ⟨w.broker.recode f, w.log.map (Call.recode f)⟩
/-- A server with other payloads. -/
def Server.recode (srv : Server) : Server where
  world := srv.world.recode f
  heap := srv.heap.onValues (Session.recode f)
  fresh := srv.fresh
  sessions := srv.sessions
  conns := srv.conns

/-! ## Storage -/

namespace MemoryStore

theorem recode_saveSession (s : MemoryStore) (c : Str) (v : SessionState) :
    (s.recode f).saveSession c v = (s.saveSession c v).recode f := rfl

theorem recode_deleteSession (s : MemoryStore) (c : Str) :
    (s.recode f).deleteSession c = (s.deleteSession c).recode f := rfl

theorem recode_storeRetained (s : MemoryStore) (t : Str) (m : Option Message) :
    (s.recode f).storeRetained t (m.map (Message.recode f)) = (s.storeRetained t m).recode f := by
  cases m with
  | none => simp only [storeRetained, Option.map_none, recode, onValues_erase]
  | some m => simp only [storeRetained, Option.map_some, recode, onValues_insert]

theorem recode_getRetained (s : MemoryStore) (filter : Str) :
    (s.recode f).getRetained filter = (s.getRetained filter).map (Message.recode f) := by
  simp only [getRetained, recode, Map.onValues, List.filter_map, List.map_map]
  rfl

theorem recode_storeWill (s : MemoryStore) (c : Str) (w : StoredWill) :
    (s.recode f).storeWill c (w.recode f) = (s.storeWill c w).recode f := by
  simp only [storeWill, recode, onValues_insert]

theorem recode_getWill (s : MemoryStore) (c : Str) :
    (s.recode f).getWill c = (s.getWill c).map (StoredWill.recode f) := onValues_get _ _ _

theorem recode_deleteWill (s : MemoryStore) (c : Str) : (s.recode f).deleteWill c = (s.deleteWill c).recode f := by
  simp only [deleteWill, recode, onValues_erase]

theorem recode_storeInflight (s : MemoryStore) (c : Str) (id : UInt16) (m : Inflight) :
    (s.recode f).storeInflight c id (m.recode f) = (s.storeInflight c id m).recode f := by
  simp only [storeInflight, recode, onValues_get]
  have : ((s.inflight.get c).map (Map.onValues (Inflight.recode f))).getD [] =
      Map.onValues (Inflight.recode f) ((s.inflight.get c).getD []) := by
    cases s.inflight.get c <;> rfl
  rw [this, onValues_insert, onValues_insert]

theorem recode_removeInflight (s : MemoryStore) (c : Str) (id : UInt16) :
    (s.recode f).removeInflight c id = (s.removeInflight c id).recode f := by
  simp only [removeInflight, recode, onValues_get]
  cases s.inflight.get c with
  | none => rfl
  | some msgs => simp only [Option.map_some, onValues_erase, onValues_insert]

theorem recode_getAllInflight (s : MemoryStore) (c : Str) :
    (s.recode f).getAllInflight c = (s.getAllInflight c).map (Inflight.recode f) := by
  simp only [getAllInflight, recode, onValues_get]
  cases s.inflight.get c with
  | none => rfl
  | some msgs => simp [Map.onValues]

end MemoryStore

/-! ## Broker -/

variable {f} (hf : KeepsEmpty f)
include hf

theorem recode_publishStore (s : MemoryStore) (t : Str) (m : Message) :
    Broker.publishStore (s.recode f) t (m.recode f) = (Broker.publishStore s t m).recode f := by
  have hn : Broker.noPayload (m.recode f) = Broker.noPayload m := by
    unfold Broker.noPayload Message.recode
    cases m.payload with
    | none => rfl
    | some p =>
      simp only [Option.map_some]
      rw [Bool.eq_iff_iff]
      simp [hf p]
  unfold Broker.publishStore
  rw [hn]
  show (if m.retain = true then _ else _) = _
  split
  · split
    · exact MemoryStore.recode_storeRetained f s t none
    · exact MemoryStore.recode_storeRetained f s t (some { m with retain := false })
  · rfl

theorem recode_publish (w : World) (src : Source) (t : Str) (m : Message) :
    (w.recode f).publish src t (m.recode f) = (w.publish src t m).recode f := by
  simp only [World.publish, World.recode, Broker.recode, Broker.publish, recode_publishStore hf,
    TopicNode.map_publish, List.map_append, List.map_cons, List.map_nil, Call.recode]

omit hf

theorem recode_subscribe (w : World) (t : Str) :
    (w.recode f).subscribe t = ((w.subscribe t).1.recode f, (w.subscribe t).2.1,
      (w.subscribe t).2.2.map (Message.recode f)) := by
  simp only [World.subscribe, World.recode, Broker.recode, Broker.subscribe, TopicNode.map_subscribe,
    MemoryStore.recode_getRetained, List.map_append, List.map_cons, List.map_nil, Call.recode]

theorem recode_restart (w : World) : (w.recode f).restart = w.restart.recode f := by
  simp only [World.restart, World.recode, Broker.recode, TopicTree.new, TopicNode.map_new, List.map_append, List.map_cons,
    List.map_nil, Call.recode]

/-! ## Sessions -/

theorem recode_channelOf (t : TopicTree Message) (r : Receiver) :
    channelOf (TopicNode.map (Message.recode f) t) r = (channelOf t r).map (Message.recode f) := by
  unfold channelOf
  rw [TopicNode.map_find]
  cases TopicNode.find t r.path with
  | none => rfl
  | some n => simp [TopicNode.map_sent]

theorem recode_liveNext (sent : List Message) (n : Nat) :
    liveNext (sent.map (Message.recode f)) n = (liveNext sent n).map fun r => (r.1.recode f, r.2) := by
  unfold liveNext
  rw [map_recv]
  cases h : Receiver.recv sent n with
  | mk a k =>
    cases a with
    | value v => rfl
    | empty => rfl
    | lagged j =>
      simp only
      rw [map_recv]
      cases Receiver.recv sent k with
      | mk a' k' => cases a' <;> rfl

theorem recode_poll (t : TopicTree Message) (s : SubStream) :
    (s.recode f).poll (TopicNode.map (Message.recode f) t) =
      (s.poll t).map fun r => (r.1.recode f, r.2.recode f) := by
  obtain ⟨l, rx⟩ := s
  unfold SubStream.poll SubStream.recode
  cases l with
  | cons m rest => rfl
  | nil =>
    simp only [List.map_nil, recode_channelOf, recode_liveNext, Option.map_map]
    rfl

namespace Session

theorem recode_addSubscription (s : Session) (w : World) (t : Str) :
    (s.recode f).addSubscription (w.recode f) t =
      ((s.addSubscription w t).1.recode f, (s.addSubscription w t).2.recode f) := by
  simp only [addSubscription, recode_subscribe]
  refine Prod.ext ?_ rfl
  simp only [recode]
  rw [← onValues_insert]
  rfl

theorem recode_restore (fs : List Str) : ∀ (s : Session) (w : World),
    (s.recode f).restoreSubscriptions (w.recode f) fs =
      ((s.restoreSubscriptions w fs).1.recode f, (s.restoreSubscriptions w fs).2.recode f) := by
  induction fs with
  | nil => intro s w; rfl
  | cons t fs ih => intro s w; simp only [restoreSubscriptions, recode_addSubscription, ih]

theorem recode_subscribeLoop (fs : List Str) : ∀ (s : Session) (w : World),
    (s.recode f).subscribeLoop (w.recode f) fs =
      ((s.subscribeLoop w fs).1.recode f, (s.subscribeLoop w fs).2.1.recode f, (s.subscribeLoop w fs).2.2) := by
  induction fs with
  | nil => intro s w; rfl
  | cons t fs ih =>
    intro s w
    simp only [subscribeLoop]
    split
    · simp only [ih]
    · simp only [recode_addSubscription, ih]

theorem recode_unsubscribeLoop (fs : List Str) : ∀ subs : Map Str SubStream,
    unsubscribeLoop (subs.onValues (SubStream.recode f)) fs =
      ((unsubscribeLoop subs fs).1.onValues (SubStream.recode f), (unsubscribeLoop subs fs).2) := by
  induction fs with
  | nil => intro s; rfl
  | cons t fs ih =>
    intro subs
    simp only [unsubscribeLoop, onValues_erase, ih, onValues_get, Option.isSome_map]

theorem recode_begin (s : Session) (uuid : Str) (resume : Bool) :
    (s.recode f).begin uuid resume = ((s.begin uuid resume).1.recode f, (s.begin uuid resume).2) := by
  have h : (s.recode f).connect.payload.clientId = s.connect.payload.clientId := rfl
  unfold begin
  rw [h]
  split <;> rfl

theorem recode_notePublish (s : Session) (p : PublishPacket) :
    (s.recode f).notePublish (p.recode f) = (s.notePublish p).recode f := by
  obtain ⟨d, q, r, t, i, pr, pl⟩ := p
  unfold notePublish PublishPacket.recode
  cases q <;> cases i <;> try rfl
  simp only [recode]
  rw [← onValues_insert]
  rfl

include hf in
theorem recode_willOfConnect (p : ConnectPacket) :
    willOfConnect (p.recode f) = (willOfConnect p).map (StoredWill.recode f) := by
  unfold willOfConnect
  show (if p.flags.willFlag = true then _ else _) = _
  split
  · show (match p.payload.willTopic with | none => none | some t => _) = _
    cases p.payload.willTopic with
    | none => rfl
    | some t =>
      have : (p.payload.willPayload.map f).getD [] = f (p.payload.willPayload.getD []) := by
        cases p.payload.willPayload with
        | none => exact ((hf []).mpr rfl).symm
        | some b => rfl
      simp only [Option.map_some, StoredWill.recode, ← this]
      rfl
  · rfl

include hf in
theorem recode_new (p : ConnectPacket) : Session.new (p.recode f) = (Session.new p).recode f := by
  unfold Session.new recode
  rw [recode_willOfConnect hf]
  rfl

include hf in
theorem recode_setConnect (s : Session) (p : ConnectPacket) :
    (s.recode f).setConnect (p.recode f) = (s.setConnect p).recode f := by
  unfold setConnect recode
  rw [recode_willOfConnect hf]
  rfl

theorem publishResponse_plain {p : PublishPacket} {q : Packet} (h : publishResponse p = .ok (some q)) : recodePacket f q = q := by
  unfold publishResponse at h
  split at h <;> cases h <;> rfl

/-- What a handler leaves behind, with other payloads. -/
def _root_.Mercurio.Handled.recode (f : Buf → Buf) (h : Handled) : Handled :=
  ⟨h.session.recode f, h.world.recode f, h.result⟩

include hf in
theorem recode_processIncoming (s : Session) (w : World) (m : Option AuthManager) (c : Nat) (p : Packet) :
    (s.recode f).processIncoming (w.recode f) m c (recodePacket f p) = (s.processIncoming w m c p).recode f := by
  cases p with
  | publish p =>
    simp only [recodePacket, processIncoming, handlePublish]
    have h1 : messageOf { p with payload := p.payload.map f } = (messageOf p).recode f := rfl
    have h2 := recode_notePublish (f := f) s p
    split
    · rfl
    · rw [h1, recode_publish hf]
      simp only [Handled.recode, ← h2]
      rfl
  | subscribe p =>
    simp only [recodePacket, processIncoming, handleSubscribe, recode_subscribeLoop]
    rfl
  | unsubscribe p =>
    simp only [recodePacket, processIncoming, handleUnsubscribe]
    have : (s.recode f).subscriptions = s.subscriptions.onValues (SubStream.recode f) := rfl
    rw [this, recode_unsubscribeLoop]
    rfl
  | auth p =>
    simp only [recodePacket, processIncoming, handleAuth]
    split <;> rfl
  | pubAck p =>
    simp only [recodePacket, processIncoming, handlePubAck, Handled.recode, recode, onValues_erase]
  | pubRec p =>
    simp only [recodePacket, processIncoming, handlePubRec, Handled.recode, recode, onValues_erase]
  | _ => rfl

/-- Answers contain no payload. -/
theorem answer_plain (s : Session) (w : World) (m : Option AuthManager) (c : Nat) (p : Packet) (q : Packet)
    (h : (s.processIncoming w m c p).result = .ok (some q)) : recodePacket f q = q := by
  cases p with
  | publish p =>
    simp only [processIncoming, handlePublish] at h
    split at h
    · cases h
    · exact publishResponse_plain h
  | auth p =>
    simp only [processIncoming, handleAuth] at h
    split at h
    · cases h
    · dsimp only at h
      split at h
      · unfold authStart at h
        split at h
        · cases h
        · split at h
          · split at h <;> cases h <;> rfl
          · cases h
      · unfold authContinue at h
        split at h
        · cases h
        · cases h
        · split at h <;> cases h <;> rfl
      · cases h
  | _ => cases h <;> rfl

theorem recode_noteOutgoing (s : Session) (p : PublishPacket) :
    (s.recode f).noteOutgoing (p.recode f) = (s.noteOutgoing p).map (Session.recode f) := by
  obtain ⟨d, q, r, t, i, pr, pl⟩ := p
  unfold noteOutgoing PublishPacket.recode
  cases i with
  | none => rfl
  | some id =>
    cases q <;> try rfl
    all_goals
      simp only [recode, Option.map_some]
      rw [← onValues_insert]
      rfl

/-- What goes out, with other payloads. -/
def Outgoing.recode (f : Buf → Buf) : Outgoing → Outgoing
  | .idle => .idle
  | .packet s p => .packet (s.recode f) (p.recode f)
  | .panicked s => .panicked (s.recode f)

theorem recode_processOutgoing (s : Session) (t : TopicTree Message) (filter : Str) :
    (s.recode f).processOutgoing (TopicNode.map (Message.recode f) t) filter = (s.processOutgoing t filter).recode f := by
  unfold processOutgoing
  have h : (s.recode f).subscriptions = s.subscriptions.onValues (SubStream.recode f) := rfl
  rw [h, onValues_get]
  cases s.subscriptions.get filter with
  | none => rfl
  | some st =>
    simp only [Option.map_some, recode_poll]
    cases st.poll t with
    | none => rfl
    | some r =>
      obtain ⟨m, st'⟩ := r
      simp only [Option.map_some]
      have h1 : outgoingPacket filter (m.recode f) = (outgoingPacket filter m).recode f := rfl
      have h2 : { s.recode f with subscriptions :=
          (s.subscriptions.onValues (SubStream.recode f)).insert filter (st'.recode f) } =
          ({ s with subscriptions := s.subscriptions.insert filter st' } : Session).recode f := by
        simp only [recode, onValues_insert]
      rw [h1, h2, recode_noteOutgoing]
      cases ({ s with subscriptions := s.subscriptions.insert filter st' } : Session).noteOutgoing (outgoingPacket filter m) <;> rfl

end Session

/-! ## Server -/

namespace Server

theorem recode_put (srv : Server) (r : Nat) (s : Session) :
    (srv.recode f).put r (s.recode f) = (srv.put r s).recode f := by
  simp only [put, recode, onValues_insert]

theorem recode_mapStore (srv : Server) {h k : MemoryStore → MemoryStore} (hk : ∀ s, k (s.recode f) = (h s).recode f) :
    (srv.recode f).mapStore k = (srv.mapStore h).recode f := by
  simp only [mapStore, World.mapStore, recode, World.recode, Broker.recode, hk]

/-- What is found, with other payloads. -/
def Found.recode (f : Buf → Buf) (x : Found) : Found :=
  ⟨x.resume, x.subscriptions, x.will.map (StoredWill.recode f), x.inflight.map (Inflight.recode f)⟩

theorem recode_find (srv : Server) (cid : Str) (clean : Bool) :
    (srv.recode f).find cid clean = (srv.find cid clean).recode f := by
  unfold find
  split
  · rfl
  · show (if (srv.sessions.get cid).isSome then _ else _) = _
    split
    · rfl
    · have h1 : (srv.recode f).store = srv.store.recode f := rfl
      have h2 : (srv.store.recode f).loadSession cid = srv.store.loadSession cid := rfl
      rw [h1, h2]
      cases srv.store.loadSession cid with
      | none => rfl
      | some st =>
        simp only [MemoryStore.recode_getWill, MemoryStore.recode_getAllInflight]
        rfl

theorem recode_discard (srv : Server) (cid : Str) (clean : Bool) :
    (srv.recode f).discard cid clean = (srv.discard cid clean).recode f := by
  unfold Server.discard
  split
  · exact recode_mapStore { srv with sessions := srv.sessions.erase cid } (f := f)
      (h := fun s => (s.deleteSession cid).deleteWill cid) (k := fun s => (s.deleteSession cid).deleteWill cid)
      (fun s => by simp only [MemoryStore.recode_deleteSession, MemoryStore.recode_deleteWill])
  · rfl

include hf in
theorem recode_enter (srv : Server) (p : ConnectPacket) :
    (srv.recode f).enter (p.recode f) =
      ((srv.enter p).1.recode f, (srv.enter p).2.1, (srv.enter p).2.2.recode f) := by
  unfold enter
  have hs : (srv.recode f).sessions = srv.sessions := rfl
  have hc : (p.recode f).payload.clientId = p.payload.clientId := rfl
  have hh : ∀ r, (srv.recode f).heap.get r = (srv.heap.get r).map (Session.recode f) := fun r => onValues_get _ _ _
  rw [hs, hc]
  cases srv.sessions.get p.payload.clientId with
  | none => simp only [Session.recode_new hf]; rfl
  | some r =>
    simp only [hh]
    cases srv.heap.get r with
    | none => simp only [Option.map_none, Session.recode_new hf]; rfl
    | some s => simp only [Option.map_some, Session.recode_setConnect hf]

theorem recode_saveStart (s : Session) (subs : List Str) (st : MemoryStore) :
    saveStart (s.recode f) subs (st.recode f) = (saveStart s subs st).recode f := by
  unfold saveStart
  show (match s.will.map (StoredWill.recode f) with | some w => _ | none => _) = _
  cases s.will with
  | none => rfl
  | some w => exact MemoryStore.recode_storeWill f (st.saveSession s.clientId (stateOf s.clientId subs)) s.clientId w

theorem recode_restoreWill (s : Session) (w : Option StoredWill) :
    restoreWill (s.recode f) (w.map (StoredWill.recode f)) = (restoreWill s w).recode f := by
  cases w <;> rfl

include hf in
theorem recode_start (srv : Server) (c : Nat) (p : ConnectPacket) (uuid : Str) (w : Bool) :
    (srv.recode f).start c (p.recode f) uuid w =
      ((srv.start c p uuid w).1.recode f, recodeOut f (srv.start c p uuid w).2) := by
  unfold start
  have hc : (p.recode f).payload.clientId = p.payload.clientId := rfl
  have hfl : (p.recode f).flags = p.flags := rfl
  simp only [hc, hfl, recode_find, recode_discard, recode_enter hf, Session.recode_begin, Found.recode]
  generalize (srv.discard p.payload.clientId p.flags.cleanStart).enter p = e
  generalize srv.find p.payload.clientId p.flags.cleanStart = found
  generalize e.2.2.begin uuid found.resume = b
  cases w with
  | false =>
    simp only [Bool.false_eq_true, if_false]
    exact Prod.ext (recode_put _ _ _) rfl
  | true =>
    simp only [if_true]
    refine Prod.ext ?_ ?_
    · have h1 : (e.1.recode f).mapStore (saveStart (b.1.recode f) found.subscriptions) =
          (e.1.mapStore (saveStart b.1 found.subscriptions)).recode f :=
        recode_mapStore e.1 (fun s => recode_saveStart _ _ _)
      simp only [h1]
      have h2 := Session.recode_restore (f := f) found.subscriptions b.1
        (e.1.mapStore (saveStart b.1 found.subscriptions)).world
      have h3 : ((e.1.mapStore (saveStart b.1 found.subscriptions)).recode f).world =
          (e.1.mapStore (saveStart b.1 found.subscriptions)).world.recode f := rfl
      rw [h3, h2]
      simp only [recode_restoreWill]
      exact recode_put (f := f) ⟨_, (e.1.mapStore (saveStart b.1 found.subscriptions)).heap,
        (e.1.mapStore (saveStart b.1 found.subscriptions)).fresh,
        (e.1.mapStore (saveStart b.1 found.subscriptions)).sessions,
        (e.1.mapStore (saveStart b.1 found.subscriptions)).conns.insert c ⟨e.2.1, p.payload.clientId⟩⟩ _ _
    · simp only [recodeOut, List.map_cons, List.map_map]
      rfl

include hf in
theorem recode_finish (srv : Server) (c r : Nat) (s : Session) :
    (srv.recode f).finish c r (s.recode f) = (srv.finish c r s).recode f := by
  unfold finish
  show (match s.will.map (StoredWill.recode f) with | none => _ | some w => _) = _
  cases s.will with
  | none => exact recode_put { srv with conns := srv.conns.erase c } r s
  | some w =>
    simp only [Option.map_some]
    have h1 : willMessage (w.recode f) = (willMessage w).recode f := rfl
    have h2 : (srv.recode f).world.publish (.will c) w.topic ((willMessage w).recode f) =
        (srv.world.publish (.will c) w.topic (willMessage w)).recode f := recode_publish hf _ _ _ _
    rw [h1]
    show mapStore (put { srv.recode f with conns := _, world := (srv.recode f).world.publish (.will c) w.topic _ } _ _) _ = _
    rw [h2]
    have h3 := recode_put (f := f) { srv with conns := srv.conns.erase c, world := srv.world.publish (.will c) w.topic (willMessage w) }
      r { s with will := none }
    exact (congrArg (fun x => mapStore x fun st => st.deleteWill s.clientId) h3).trans
      (recode_mapStore _ (fun st => MemoryStore.recode_deleteWill f st _))

theorem recode_onConn (srv : Server) (c : Nat) (g h : Nat → Session → Server × Out)
    (hh : ∀ r s, h r (s.recode f) = ((g r s).1.recode f, recodeOut f (g r s).2)) :
    (srv.recode f).onConn c h = ((srv.onConn c g).1.recode f, recodeOut f (srv.onConn c g).2) := by
  unfold onConn
  have hc : (srv.recode f).conns = srv.conns := rfl
  rw [hc]
  cases srv.conns.get c with
  | none => rfl
  | some k =>
    have hg : (srv.recode f).heap.get k.session = (srv.heap.get k.session).map (Session.recode f) := onValues_get _ _ _
    simp only [hg]
    cases srv.heap.get k.session with
    | none => rfl
    | some s => exact hh _ _

theorem recode_saveAfter (s : Session) (p : Packet) (st : MemoryStore) :
    saveAfter (s.recode f) (recodePacket f p) (st.recode f) = (saveAfter s p st).recode f := by
  have hk : (s.recode f).filters = s.filters := onValues_keys _ _
  cases p <;> simp only [saveAfter, recodePacket, hk]
  case pubAck a => exact MemoryStore.recode_removeInflight f st _ _
  case pubComp a => exact MemoryStore.recode_removeInflight f st _ _
  all_goals rfl

include hf in
theorem recode_recv (cfg : AuthConfig) (srv : Server) (c r : Nat) (s : Session) (p : Packet) :
    (srv.recode f).recv cfg c r (s.recode f) (recodePacket f p) =
      ((srv.recv cfg c r s p).1.recode f, recodeOut f (srv.recv cfg c r s p).2) := by
  have key : ∀ p : Packet,
      (match ((s.recode f).processIncoming (srv.recode f).world cfg.manager c (recodePacket f p)).result with
      | .error _ => (finish { srv.recode f with world := ((s.recode f).processIncoming (srv.recode f).world cfg.manager c
          (recodePacket f p)).world } c r ((s.recode f).processIncoming (srv.recode f).world cfg.manager c (recodePacket f p)).session, {})
      | .ok res => (put (mapStore { srv.recode f with world := ((s.recode f).processIncoming (srv.recode f).world cfg.manager c
          (recodePacket f p)).world } (saveAfter ((s.recode f).processIncoming (srv.recode f).world cfg.manager c
            (recodePacket f p)).session (recodePacket f p))) r
          ((s.recode f).processIncoming (srv.recode f).world cfg.manager c (recodePacket f p)).session,
          { sent := res.toList }) : Server × Out) =
      ((match (s.processIncoming srv.world cfg.manager c p).result with
      | .error _ => (finish { srv with world := (s.processIncoming srv.world cfg.manager c p).world } c r
          (s.processIncoming srv.world cfg.manager c p).session, {})
      | .ok res => (put (mapStore { srv with world := (s.processIncoming srv.world cfg.manager c p).world }
          (saveAfter (s.processIncoming srv.world cfg.manager c p).session p)) r
          (s.processIncoming srv.world cfg.manager c p).session, { sent := res.toList }) : Server × Out).1.recode f,
       recodeOut f (match (s.processIncoming srv.world cfg.manager c p).result with
      | .error _ => (finish { srv with world := (s.processIncoming srv.world cfg.manager c p).world } c r
          (s.processIncoming srv.world cfg.manager c p).session, {})
      | .ok res => (put (mapStore { srv with world := (s.processIncoming srv.world cfg.manager c p).world }
          (saveAfter (s.processIncoming srv.world cfg.manager c p).session p)) r
          (s.processIncoming srv.world cfg.manager c p).session, { sent := res.toList }) : Server × Out).2) := by
    intro p
    have hw : (srv.recode f).world = srv.world.recode f := rfl
    have ha := Session.answer_plain (f := f) s srv.world cfg.manager c p
    rw [hw, Session.recode_processIncoming hf]
    generalize hh : s.processIncoming srv.world cfg.manager c p = h at ha ⊢
    simp only [Handled.recode]
    cases hr : h.result with
    | error e => exact Prod.ext (recode_finish hf { srv with world := h.world } c r h.session) rfl
    | ok res =>
      refine Prod.ext ?_ ?_
      · have h1 : mapStore { srv.recode f with world := h.world.recode f } (saveAfter (h.session.recode f) (recodePacket f p)) =
            (mapStore { srv with world := h.world } (saveAfter h.session p)).recode f :=
          recode_mapStore { srv with world := h.world } (fun st => recode_saveAfter _ _ _)
        simp only [h1]
        exact recode_put _ _ _
      · cases res with
        | none => rfl
        | some q => simp [recodeOut, ha q hr]
  cases p with
  | disconnect p =>
    have h1 : ({ s.recode f with will := none } : Session) = Session.recode f { s with will := none } := rfl
    have h2 : ((srv.recode f).mapStore fun st => st.deleteWill s.clientId) =
        (srv.mapStore fun st => st.deleteWill s.clientId).recode f :=
      recode_mapStore srv (fun st => MemoryStore.recode_deleteWill f st _)
    refine Prod.ext ?_ rfl
    show (((srv.recode f).mapStore fun st => st.deleteWill s.clientId).finish c r { s.recode f with will := none }) = _
    rw [h1, h2]
    exact recode_finish hf _ _ _ _
  | connect p => exact key (.connect p)
  | connAck p => exact key (.connAck p)
  | publish p => exact key (.publish p)
  | pubAck p => exact key (.pubAck p)
  | pubRec p => exact key (.pubRec p)
  | pubRel p => exact key (.pubRel p)
  | pubComp p => exact key (.pubComp p)
  | subscribe p => exact key (.subscribe p)
  | subAck p => exact key (.subAck p)
  | unsubscribe p => exact key (.unsubscribe p)
  | unsubAck p => exact key (.unsubAck p)
  | pingReq => exact key .pingReq
  | pingResp => exact key .pingResp
  | auth p => exact key (.auth p)

theorem recode_saveOutgoing (s : Session) (p : PublishPacket) (st : MemoryStore) :
    saveOutgoing (s.recode f) (p.recode f) (st.recode f) = (saveOutgoing s p st).recode f := by
  obtain ⟨d, q, r, t, i, pr, pl⟩ := p
  unfold saveOutgoing PublishPacket.recode
  cases i with
  | none => rfl
  | some id =>
    cases q <;> try rfl
    all_goals exact MemoryStore.recode_storeInflight f st _ _ ⟨id, t, pl, _, d⟩

theorem recode_deliver (srv : Server) (c r : Nat) (s : Session) (t : Str) :
    (srv.recode f).deliver c r (s.recode f) t =
      ((srv.deliver c r s t).1.recode f, recodeOut f (srv.deliver c r s t).2) := by
  unfold deliver
  have hw : (srv.recode f).world.broker.tree = TopicNode.map (Message.recode f) srv.world.broker.tree := rfl
  rw [hw, Session.recode_processOutgoing]
  cases s.processOutgoing srv.world.broker.tree t with
  | idle => rfl
  | packet s' p =>
    refine Prod.ext ?_ rfl
    simp only [Session.Outgoing.recode]
    rw [recode_mapStore srv (fun st => recode_saveOutgoing s' p st)]
    exact recode_put _ _ _
  | panicked s' => exact Prod.ext (recode_put { srv with conns := srv.conns.erase c } r s') rfl

include hf in
/-- One step with other payloads. -/
theorem recode_step (cfg : AuthConfig) (srv : Server) (e : Event) :
    (srv.recode f).step cfg (recodeEvent f e) = ((srv.step cfg e).1.recode f, recodeOut f (srv.step cfg e).2) := by
  have hc : (srv.recode f).conns = srv.conns := rfl
  cases e with
  | first c p uuid w =>
    cases p with
    | connect p =>
      simp only [recodeEvent, recodePacket, step, hc]
      split
      · rfl
      · unfold connect
        have ha : authenticated cfg (p.recode f) = authenticated cfg p := rfl
        show (if (cfg.requireAuth && !authenticated cfg (p.recode f)) = true then _ else (srv.recode f).start c (p.recode f) uuid w) = _
        rw [ha]
        split
        · rfl
        · exact recode_start hf srv c p uuid w
    | _ => simp only [recodeEvent, recodePacket, step, hc]; split <;> rfl
  | recv c p =>
    exact recode_onConn srv c (fun r s => srv.recv cfg c r s p)
      (fun r s => (srv.recode f).recv cfg c r s (recodePacket f p)) (fun r s => recode_recv hf cfg srv c r s p)
  | deliver c t =>
    exact recode_onConn srv c (fun r s => srv.deliver c r s t)
      (fun r s => (srv.recode f).deliver c r s t) (fun r s => recode_deliver srv c r s t)
  | close c =>
    exact recode_onConn srv c (fun r s => (srv.finish c r s, {}))
      (fun r s => ((srv.recode f).finish c r s, {})) (fun r s => Prod.ext (recode_finish hf srv c r s) rfl)
  | abort c => rfl
  | restart =>
    refine Prod.ext ?_ rfl
    simp only [recodeEvent, step, recode, recode_restart]
    rfl

theorem recode_init : Server.init.recode f = Server.init := by
  simp only [init, recode, World.recode, Broker.recode, TopicTree.new, TopicNode.map_new]
  rfl

end Server

end Mercurio
