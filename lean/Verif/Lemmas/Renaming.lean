import Verif.Spec.Renaming
import Verif.Lemmas.Payloads

/-!
# The server with other identifiers
-/

namespace Mercurio

open Spec

/-! ## Maps -/

/-- A map with its keys and values replaced. -/
def Map.onBoth {K L V W : Type} (k : K → L) (g : V → W) (m : Map K V) : Map L W := m.map fun e => (k e.1, g e.2)

section
variable {K L V W : Type} [DecidableEq K] [DecidableEq L] {k : K → L} (hk : ∀ a b, k a = k b → a = b) (g : V → W)
include hk

theorem onBoth_get (m : Map K V) (a : K) : Map.get (m.onBoth k g) (k a) = (m.get a).map g := by
  induction m with
  | nil => rfl
  | cons e m ih =>
    simp only [Map.onBoth, List.map_cons, Map.get] at ih ⊢
    by_cases h : e.1 = a
    · rw [if_pos (congrArg k h), if_pos h]; rfl
    · rw [if_neg (fun h' => h (hk _ _ h')), if_neg h]; exact ih

theorem onBoth_erase (m : Map K V) (a : K) : Map.erase (m.onBoth k g) (k a) = (m.erase a).onBoth k g := by
  unfold Map.erase Map.onBoth
  rw [List.filter_map]
  congr 1
  refine List.filter_congr fun e _ => ?_
  simp only [Function.comp, decide_eq_decide]
  exact ⟨fun h h' => h (congrArg k h'), fun h h' => h (hk _ _ h')⟩

theorem onBoth_insert (m : Map K V) (a : K) (v : V) :
    Map.insert (m.onBoth k g) (k a) (g v) = (m.insert a v).onBoth k g := by
  unfold Map.insert
  rw [onBoth_erase hk]
  rfl
end

/-! ## Renaming -/

variable (g : Renaming)

theorem Spec.Renaming.isEmpty (c : Str) : (g.client c).isEmpty = c.isEmpty := by
  cases c with
  | nil => rw [g.client_empty]
  | cons a l =>
    cases h : g.client (a :: l) with
    | nil =>
      have := g.client_inj _ _ (h.trans g.client_empty.symm)
      simp at this
    | cons _ _ => rfl

/-- A message with another identifier. -/
def Message.rename (m : Message) : Message := { m with packetId := m.packetId.map g.packet }
/-- A PUBLISH with another identifier. -/
def PublishPacket.rename (p : PublishPacket) : PublishPacket := { p with packetId := p.packetId.map g.packet }
/-- An acknowledgement with another identifier. -/
def AckPacket.rename (p : AckPacket) : AckPacket := { p with packetId := g.packet p.packetId }
/-- A CONNECT with another identifier. -/
def ConnectPacket.rename (p : ConnectPacket) : ConnectPacket :=
  { p with payload := { p.payload with clientId := g.client p.payload.clientId } }
/-- A CONNACK with another identifier. -/
def ConnAckPacket.rename (p : ConnAckPacket) : ConnAckPacket :=
  { p with properties := p.properties.map fun q => { q with assignedClientId := q.assignedClientId.map g.client } }
/-- A stored message with another identifier. -/
def Inflight.rename (i : Inflight) : Inflight := { i with packetId := g.packet i.packetId }
/-- A stored session with another identifier. -/
def SessionState.rename (s : SessionState) : SessionState := { s with clientId := g.client s.clientId }
/-- A stream with other identifiers. -/
def SubStream.rename (s : SubStream) : SubStream := { s with retained := s.retained.map (Message.rename g) }
/-- A session with other identifiers. -/
def Session.rename (s : Session) : Session where
  connect := s.connect.rename g
  clientId := g.client s.clientId
  subscriptions := s.subscriptions.onValues (SubStream.rename g)
  unacked := s.unacked.onBoth g.packet (PublishPacket.rename g)
  pubrecs := s.pubrecs.onBoth g.packet (AckPacket.rename g)
  will := s.will
  authMethod := s.authMethod
/-- A storage with other identifiers. -/
def MemoryStore.rename (s : MemoryStore) : MemoryStore where
  sessions := s.sessions.onBoth g.client (SessionState.rename g)
  retained := s.retained.onValues (Message.rename g)
  wills := s.wills.onBoth g.client id
  inflight := s.inflight.onBoth g.client (Map.onBoth g.packet (Inflight.rename g))
/-- A call with another identifier. -/
def Call.rename : Call → Call
  | .publish src t m => .publish src t (m.rename g)
  | c => c
/-- A broker with other identifiers. -/
def Broker.rename (b : Broker) : Broker := ⟨TopicNode.map (Message.rename g) b.tree, b.store.rename g⟩
/-- A world with other identifiers. -/
def World.rename (w : World) : World := ⟨w.broker.rename g, w.log.map (Call.rename g)⟩
/-- A connection with another identifier. -/
def Conn.rename (k : Conn) : Conn := ⟨k.session, g.client k.key⟩
/-- A server with other identifiers. -/
def Server.rename (srv : Server) : Server where
  world := srv.world.rename g
  heap := srv.heap.onValues (Session.rename g)
  fresh := srv.fresh
  sessions := srv.sessions.onBoth g.client id
  conns := srv.conns.onValues (Conn.rename g)

/-! ## Storage -/

namespace MemoryStore

theorem rename_saveSession (s : MemoryStore) (c : Str) (v : SessionState) :
    (s.rename g).saveSession (g.client c) (v.rename g) = (s.saveSession c v).rename g := by
  simp only [saveSession, rename, onBoth_insert g.client_inj]

theorem rename_loadSession (s : MemoryStore) (c : Str) :
    (s.rename g).loadSession (g.client c) = (s.loadSession c).map (SessionState.rename g) :=
  onBoth_get g.client_inj _ _ _

theorem rename_deleteSession (s : MemoryStore) (c : Str) :
    (s.rename g).deleteSession (g.client c) = (s.deleteSession c).rename g := by
  simp only [deleteSession, rename, onBoth_erase g.client_inj]

theorem rename_storeRetained (s : MemoryStore) (t : Str) (m : Option Message) :
    (s.rename g).storeRetained t (m.map (Message.rename g)) = (s.storeRetained t m).rename g := by
  cases m with
  | none => simp only [storeRetained, Option.map_none, rename, onValues_erase]
  | some m => simp only [storeRetained, Option.map_some, rename, onValues_insert]

theorem rename_getRetained (s : MemoryStore) (filter : Str) :
    (s.rename g).getRetained filter = (s.getRetained filter).map (Message.rename g) := by
  simp only [getRetained, rename, Map.onValues, List.filter_map, List.map_map]
  rfl

theorem rename_storeWill (s : MemoryStore) (c : Str) (w : StoredWill) :
    (s.rename g).storeWill (g.client c) w = (s.storeWill c w).rename g := by
  have := onBoth_insert g.client_inj id s.wills c w
  simp only [id] at this
  simp only [storeWill, rename, this]

theorem rename_getWill (s : MemoryStore) (c : Str) : (s.rename g).getWill (g.client c) = s.getWill c :=
  (onBoth_get g.client_inj _ _ _).trans (Option.map_id_fun' ▸ rfl)

theorem rename_deleteWill (s : MemoryStore) (c : Str) :
    (s.rename g).deleteWill (g.client c) = (s.deleteWill c).rename g := by
  simp only [deleteWill, rename, onBoth_erase g.client_inj]

theorem rename_storeInflight (s : MemoryStore) (c : Str) (i : UInt16) (m : Inflight) :
    (s.rename g).storeInflight (g.client c) (g.packet i) (m.rename g) = (s.storeInflight c i m).rename g := by
  simp only [storeInflight, rename, onBoth_get g.client_inj]
  have : ((s.inflight.get c).map (Map.onBoth g.packet (Inflight.rename g))).getD [] =
      Map.onBoth g.packet (Inflight.rename g) ((s.inflight.get c).getD []) := by
    cases s.inflight.get c <;> rfl
  rw [this, onBoth_insert g.packet_inj, onBoth_insert g.client_inj]

theorem rename_removeInflight (s : MemoryStore) (c : Str) (i : UInt16) :
    (s.rename g).removeInflight (g.client c) (g.packet i) = (s.removeInflight c i).rename g := by
  simp only [removeInflight, rename, onBoth_get g.client_inj]
  cases s.inflight.get c with
  | none => rfl
  | some msgs => simp only [Option.map_some, onBoth_erase g.packet_inj, onBoth_insert g.client_inj]

theorem rename_getAllInflight (s : MemoryStore) (c : Str) :
    (s.rename g).getAllInflight (g.client c) = (s.getAllInflight c).map (Inflight.rename g) := by
  simp only [getAllInflight, rename, onBoth_get g.client_inj]
  cases s.inflight.get c with
  | none => rfl
  | some msgs => simp [Map.onBoth]

end MemoryStore

/-! ## Broker -/

variable {g}

theorem rename_publishStore (s : MemoryStore) (t : Str) (m : Message) :
    Broker.publishStore (s.rename g) t (m.rename g) = (Broker.publishStore s t m).rename g := by
  have hn : Broker.noPayload (m.rename g) = Broker.noPayload m := rfl
  unfold Broker.publishStore
  rw [hn]
  show (if m.retain = true then _ else _) = _
  split
  · split
    · exact MemoryStore.rename_storeRetained g s t none
    · exact MemoryStore.rename_storeRetained g s t (some { m with retain := false })
  · rfl

theorem rename_publish (w : World) (src : Source) (t : Str) (m : Message) :
    (w.rename g).publish src t (m.rename g) = (w.publish src t m).rename g := by
  simp only [World.publish, World.rename, Broker.rename, Broker.publish, rename_publishStore,
    TopicNode.map_publish, List.map_append, List.map_cons, List.map_nil, Call.rename]

theorem rename_subscribe (w : World) (t : Str) :
    (w.rename g).subscribe t = ((w.subscribe t).1.rename g, (w.subscribe t).2.1,
      (w.subscribe t).2.2.map (Message.rename g)) := by
  simp only [World.subscribe, World.rename, Broker.rename, Broker.subscribe, TopicNode.map_subscribe,
    MemoryStore.rename_getRetained, List.map_append, List.map_cons, List.map_nil, Call.rename]

theorem rename_restart (w : World) : (w.rename g).restart = w.restart.rename g := by
  simp only [World.restart, World.rename, Broker.rename, TopicTree.new, TopicNode.map_new, List.map_append, List.map_cons,
    List.map_nil, Call.rename]

/-! ## Sessions -/

theorem rename_channelOf (t : TopicTree Message) (r : Receiver) :
    channelOf (TopicNode.map (Message.rename g) t) r = (channelOf t r).map (Message.rename g) := by
  unfold channelOf
  rw [TopicNode.map_find]
  cases TopicNode.find t r.path with
  | none => rfl
  | some n => simp [TopicNode.map_sent]

theorem rename_liveNext (sent : List Message) (n : Nat) :
    liveNext (sent.map (Message.rename g)) n = (liveNext sent n).map fun r => (r.1.rename g, r.2) := by
  unfold liveNext
  rw [map_recv]
  cases h : Receiver.recv sent n with
  | mk a k =>
    cases a with
    | value v => rfl
    | empty => rfl
    | lagged j =>
      simp only
      rw [map_recv]
      cases Receiver.recv sent k with
      | mk a' k' => cases a' <;> rfl

theorem rename_poll (t : TopicTree Message) (s : SubStream) :
    (s.rename g).poll (TopicNode.map (Message.rename g) t) =
      (s.poll t).map fun r => (r.1.rename g, r.2.rename g) := by
  obtain ⟨l, rx⟩ := s
  unfold SubStream.poll SubStream.rename
  cases l with
  | cons m rest => rfl
  | nil =>
    simp only [List.map_nil, rename_channelOf, rename_liveNext, Option.map_map]
    rfl

namespace Session

theorem rename_addSubscription (s : Session) (w : World) (t : Str) :
    (s.rename g).addSubscription (w.rename g) t =
      ((s.addSubscription w t).1.rename g, (s.addSubscription w t).2.rename g) := by
  simp only [addSubscription, rename_subscribe]
  refine Prod.ext ?_ rfl
  simp only [rename]
  rw [← onValues_insert]
  rfl

theorem rename_restore (fs : List Str) : ∀ (s : Session) (w : World),
    (s.rename g).restoreSubscriptions (w.rename g) fs =
      ((s.restoreSubscriptions w fs).1.rename g, (s.restoreSubscriptions w fs).2.rename g) := by
  induction fs with
  | nil => intro s w; rfl
  | cons t fs ih => intro s w; simp only [restoreSubscriptions, rename_addSubscription, ih]

theorem rename_subscribeLoop (fs : List Str) : ∀ (s : Session) (w : World),
    (s.rename g).subscribeLoop (w.rename g) fs =
      ((s.subscribeLoop w fs).1.rename g, (s.subscribeLoop w fs).2.1.rename g, (s.subscribeLoop w fs).2.2) := by
  induction fs with
  | nil => intro s w; rfl
  | cons t fs ih =>
    intro s w
    simp only [subscribeLoop]
    split
    · simp only [ih]
    · simp only [rename_addSubscription, ih]

theorem rename_unsubscribeLoop (fs : List Str) : ∀ subs : Map Str SubStream,
    unsubscribeLoop (subs.onValues (SubStream.rename g)) fs =
      ((unsubscribeLoop subs fs).1.onValues (SubStream.rename g), (unsubscribeLoop subs fs).2) := by
  induction fs with
  | nil => intro s; rfl
  | cons t fs ih =>
    intro subs
    simp only [unsubscribeLoop, onValues_erase, ih, onValues_get, Option.isSome_map]

theorem rename_begin (s : Session) (uuid : Str) (resume : Bool) :
    (s.rename g).begin (g.client uuid) resume = ((s.begin uuid resume).1.rename g, (s.begin uuid resume).2.rename g) := by
  have h : (s.rename g).connect.payload.clientId = g.client s.connect.payload.clientId := rfl
  have hv : (s.rename g).connect.protocolVersion = s.connect.protocolVersion := rfl
  unfold begin
  rw [h, hv, g.isEmpty]
  split
  · refine Prod.ext rfl ?_
    simp only [ConnAckPacket.rename]
    cases s.connect.protocolVersion.supportsProperties <;> rfl
  · rfl

theorem rename_notePublish (s : Session) (p : PublishPacket) :
    (s.rename g).notePublish (p.rename g) = (s.notePublish p).rename g := by
  obtain ⟨d, q, r, t, i, pr, pl⟩ := p
  unfold notePublish PublishPacket.rename
  cases q <;> cases i <;> try rfl
  simp only [rename]
  rw [← onBoth_insert g.packet_inj]
  rfl

theorem rename_publishResponse (p : PublishPacket) :
    publishResponse (p.rename g) = (publishResponse p).map (Option.map (renamePacket g)) := by
  obtain ⟨d, q, r, t, i, pr, pl⟩ := p
  cases q <;> cases i <;> rfl

/-- What a handler leaves behind, with other identifiers. -/
def _root_.Mercurio.Handled.rename (g : Renaming) (h : Handled) : Handled :=
  ⟨h.session.rename g, h.world.rename g, h.result.map (Option.map (renamePacket g))⟩

theorem auth_plain (p : AuthPacket) : renamePacket g (.auth p) = .auth p := rfl

theorem rename_processIncoming (s : Session) (w : World) (m : Option AuthManager) (c : Nat) (p : Packet) :
    (s.rename g).processIncoming (w.rename g) m c (renamePacket g p) = (s.processIncoming w m c p).rename g := by
  cases p with
  | publish p =>
    simp only [renamePacket, processIncoming, handlePublish]
    have h1 : messageOf { p with packetId := p.packetId.map g.packet } = (messageOf p).rename g := rfl
    have h2 := rename_notePublish (g := g) s p
    have h3 := rename_publishResponse (g := g) p
    split
    · rfl
    · rw [h1, rename_publish]
      simp only [Handled.rename, ← h2, ← h3]
      rfl
  | subscribe p =>
    simp only [renamePacket, processIncoming, handleSubscribe, rename_subscribeLoop]
    rfl
  | unsubscribe p =>
    simp only [renamePacket, processIncoming, handleUnsubscribe]
    have : (s.rename g).subscriptions = s.subscriptions.onValues (SubStream.rename g) := rfl
    rw [this, rename_unsubscribeLoop]
    rfl
  | auth p =>
    simp only [renamePacket, processIncoming, handleAuth]
    have ha : (s.rename g).authMethod = s.authMethod := rfl
    rw [ha]
    cases m with
    | none => rfl
    | some a =>
      have key : ∀ r : Option Str × Except Err (Option Packet), r.2.map (Option.map (renamePacket g)) = r.2 →
          (⟨{ s.rename g with authMethod := r.1 }, w.rename g, r.2⟩ : Handled) =
            Handled.rename g ⟨{ s with authMethod := r.1 }, w, r.2⟩ := by
        intro r hr
        simp only [Handled.rename, hr]
        rfl
      refine key _ ?_
      split
      · unfold authStart
        split
        · rfl
        · split
          · split <;> rfl
          · rfl
      · unfold authContinue
        split
        · rfl
        · rfl
        · split <;> rfl
      · rfl
  | pubAck p =>
    simp only [renamePacket, processIncoming, handlePubAck, Handled.rename, rename, onBoth_erase g.packet_inj]
    rfl
  | pubRec p =>
    have := onBoth_insert g.packet_inj (AckPacket.rename g) s.pubrecs p.packetId p
    simp only [renamePacket, processIncoming, handlePubRec, Handled.rename, rename, onBoth_erase g.packet_inj, ← this]
    rfl
  | pubRel p =>
    simp only [renamePacket, processIncoming, handlePubRel, Handled.rename, rename, onBoth_erase g.packet_inj]
    rfl
  | pubComp p =>
    simp only [renamePacket, processIncoming, handlePubComp, Handled.rename, rename, onBoth_erase g.packet_inj]
    rfl
  | _ => rfl

theorem rename_noteOutgoing (s : Session) (p : PublishPacket) :
    (s.rename g).noteOutgoing (p.rename g) = (s.noteOutgoing p).map (Session.rename g) := by
  obtain ⟨d, q, r, t, i, pr, pl⟩ := p
  unfold noteOutgoing PublishPacket.rename
  cases i with
  | none => rfl
  | some id =>
    cases q <;> try rfl
    all_goals
      simp only [rename, Option.map_some]
      rw [← onBoth_insert g.packet_inj]
      rfl

/-- What goes out, with other identifiers. -/
def Outgoing.rename (g : Renaming) : Outgoing → Outgoing
  | .idle => .idle
  | .packet s p => .packet (s.rename g) (p.rename g)
  | .panicked s => .panicked (s.rename g)

theorem rename_processOutgoing (s : Session) (t : TopicTree Message) (filter : Str) :
    (s.rename g).processOutgoing (TopicNode.map (Message.rename g) t) filter = (s.processOutgoing t filter).rename g := by
  unfold processOutgoing
  have h : (s.rename g).subscriptions = s.subscriptions.onValues (SubStream.rename g) := rfl
  rw [h, onValues_get]
  cases s.subscriptions.get filter with
  | none => rfl
  | some st =>
    simp only [Option.map_some, rename_poll]
    cases st.poll t with
    | none => rfl
    | some r =>
      obtain ⟨m, st'⟩ := r
      simp only [Option.map_some]
      have h1 : outgoingPacket filter (m.rename g) = (outgoingPacket filter m).rename g := rfl
      have h2 : { s.rename g with subscriptions :=
          (s.subscriptions.onValues (SubStream.rename g)).insert filter (st'.rename g) } =
          ({ s with subscriptions := s.subscriptions.insert filter st' } : Session).rename g := by
        simp only [rename, onValues_insert]
      rw [h1, h2, rename_noteOutgoing]
      cases ({ s with subscriptions := s.subscriptions.insert filter st' } : Session).noteOutgoing (outgoingPacket filter m) <;> rfl

end Session

/-! ## Server -/

namespace Server

theorem rename_put (srv : Server) (r : Nat) (s : Session) :
    (srv.rename g).put r (s.rename g) = (srv.put r s).rename g := by
  simp only [put, rename, onValues_insert]

theorem rename_mapStore (srv : Server) {h k : MemoryStore → MemoryStore} (hk : ∀ s, k (s.rename g) = (h s).rename g) :
    (srv.rename g).mapStore k = (srv.mapStore h).rename g := by
  simp only [mapStore, World.mapStore, rename, World.rename, Broker.rename, hk]

/-- What is found, with other identifiers. -/
def Found.rename (g : Renaming) (x : Found) : Found :=
  ⟨x.resume, x.subscriptions, x.will, x.inflight.map (Inflight.rename g)⟩

theorem rename_sessions (srv : Server) (cid : Str) : (srv.rename g).sessions.get (g.client cid) = srv.sessions.get cid :=
  (onBoth_get g.client_inj _ _ _).trans (Option.map_id_fun' ▸ rfl)

theorem rename_find (srv : Server) (cid : Str) (clean : Bool) :
    (srv.rename g).find (g.client cid) clean = (srv.find cid clean).rename g := by
  unfold find
  split
  · rfl
  · rw [rename_sessions]
    split
    · rfl
    · have h1 : (srv.rename g).store = srv.store.rename g := rfl
      rw [h1, MemoryStore.rename_loadSession]
      cases srv.store.loadSession cid with
      | none => rfl
      | some st =>
        simp only [Option.map_some, MemoryStore.rename_getWill, MemoryStore.rename_getAllInflight]
        rfl

theorem rename_discard (srv : Server) (cid : Str) (clean : Bool) :
    (srv.rename g).discard (g.client cid) clean = (srv.discard cid clean).rename g := by
  unfold Server.discard
  split
  · have h1 : ({ srv.rename g with sessions := (srv.rename g).sessions.erase (g.client cid) } : Server) =
        ({ srv with sessions := srv.sessions.erase cid } : Server).rename g := by
      simp only [rename, onBoth_erase g.client_inj]
    rw [h1]
    exact rename_mapStore { srv with sessions := srv.sessions.erase cid } (g := g)
      (h := fun s => (s.deleteSession cid).deleteWill cid)
      (k := fun s => (s.deleteSession (g.client cid)).deleteWill (g.client cid))
      (fun s => by simp only [MemoryStore.rename_deleteSession, MemoryStore.rename_deleteWill])
  · rfl

theorem rename_enter (srv : Server) (p : ConnectPacket) :
    (srv.rename g).enter (p.rename g) =
      ((srv.enter p).1.rename g, (srv.enter p).2.1, (srv.enter p).2.2.rename g) := by
  unfold enter
  have hc : (p.rename g).payload.clientId = g.client p.payload.clientId := rfl
  have hh : ∀ r, (srv.rename g).heap.get r = (srv.heap.get r).map (Session.rename g) := fun r => onValues_get _ _ _
  have hi : (srv.rename g).sessions.insert (g.client p.payload.clientId) srv.fresh =
      Map.onBoth g.client id (srv.sessions.insert p.payload.clientId srv.fresh) :=
    onBoth_insert g.client_inj id srv.sessions p.payload.clientId srv.fresh
  have hfr : (srv.rename g).fresh = srv.fresh := rfl
  rw [hc, rename_sessions, hfr, hi]
  cases srv.sessions.get p.payload.clientId with
  | none => rfl
  | some r =>
    simp only [hh]
    cases srv.heap.get r with
    | none => rfl
    | some s => rfl

theorem rename_saveStart (s : Session) (subs : List Str) (st : MemoryStore) :
    saveStart (s.rename g) subs (st.rename g) = (saveStart s subs st).rename g := by
  have h : (st.rename g).saveSession (g.client s.clientId) (stateOf (g.client s.clientId) subs) =
      (st.saveSession s.clientId (stateOf s.clientId subs)).rename g :=
    MemoryStore.rename_saveSession g st s.clientId (stateOf s.clientId subs)
  unfold saveStart
  show (match s.will with
    | some w => ((st.rename g).saveSession (g.client s.clientId) (stateOf (g.client s.clientId) subs)).storeWill (g.client s.clientId) w
    | none => (st.rename g).saveSession (g.client s.clientId) (stateOf (g.client s.clientId) subs)) = _
  rw [h]
  cases s.will with
  | none => rfl
  | some w => exact MemoryStore.rename_storeWill g _ _ _

theorem rename_restoreWill (s : Session) (w : Option StoredWill) :
    restoreWill (s.rename g) w = (restoreWill s w).rename g := by
  cases w <;> rfl

theorem rename_start (srv : Server) (c : Nat) (p : ConnectPacket) (uuid : Str) (w : Bool) :
    (srv.rename g).start c (p.rename g) (g.client uuid) w =
      ((srv.start c p uuid w).1.rename g, renameOut g (srv.start c p uuid w).2) := by
  unfold start
  have hc : (p.rename g).payload.clientId = g.client p.payload.clientId := rfl
  have hfl : (p.rename g).flags = p.flags := rfl
  simp only [hc, hfl, rename_find, rename_discard, rename_enter, Session.rename_begin, Found.rename]
  generalize (srv.discard p.payload.clientId p.flags.cleanStart).enter p = e
  generalize srv.find p.payload.clientId p.flags.cleanStart = found
  generalize e.2.2.begin uuid found.resume = b
  cases w with
  | false =>
    simp only [Bool.false_eq_true, if_false]
    exact Prod.ext (rename_put _ _ _) rfl
  | true =>
    simp only [if_true]
    refine Prod.ext ?_ ?_
    · have h1 : (e.1.rename g).mapStore (saveStart (b.1.rename g) found.subscriptions) =
          (e.1.mapStore (saveStart b.1 found.subscriptions)).rename g :=
        rename_mapStore e.1 (fun s => rename_saveStart _ _ _)
      simp only [h1]
      generalize e.1.mapStore (saveStart b.1 found.subscriptions) = srv'
      have h2 := Session.rename_restore (g := g) found.subscriptions b.1 srv'.world
      have h3 : (srv'.rename g).world = srv'.world.rename g := rfl
      have h4 : (srv'.rename g).conns.insert c ⟨e.2.1, g.client p.payload.clientId⟩ =
          Map.onValues (Conn.rename g) (srv'.conns.insert c ⟨e.2.1, p.payload.clientId⟩) :=
        onValues_insert (Conn.rename g) srv'.conns c ⟨e.2.1, p.payload.clientId⟩
      rw [h3, h2, h4]
      simp only [rename_restoreWill]
      exact rename_put (g := g) ⟨_, srv'.heap, srv'.fresh, srv'.sessions, srv'.conns.insert c ⟨e.2.1, p.payload.clientId⟩⟩ _ _
    · simp only [renameOut, List.map_cons, List.map_map]
      rfl

theorem rename_finish (srv : Server) (c r : Nat) (s : Session) :
    (srv.rename g).finish c r (s.rename g) = (srv.finish c r s).rename g := by
  unfold finish
  have h0 : (srv.rename g).conns.erase c = (({ srv with conns := srv.conns.erase c } : Server).rename g).conns :=
    onValues_erase (Conn.rename g) srv.conns c
  rw [h0]
  show (match s.will with | none => _ | some w => _) = _
  cases s.will with
  | none => exact rename_put { srv with conns := srv.conns.erase c } r s
  | some w =>
    have h1 : willMessage w = (willMessage w).rename g := rfl
    have h2 : (srv.rename g).world.publish (.will c) w.topic (willMessage w) =
        (srv.world.publish (.will c) w.topic (willMessage w)).rename g := by
      rw [h1]
      exact rename_publish _ _ _ _
    show mapStore (put { srv.rename g with conns := _, world := (srv.rename g).world.publish (.will c) w.topic _ } _ _) _ = _
    rw [h2]
    have h3 := rename_put (g := g) { srv with conns := srv.conns.erase c, world := srv.world.publish (.will c) w.topic (willMessage w) }
      r { s with will := none }
    exact (congrArg (fun x => mapStore x fun st => st.deleteWill (g.client s.clientId)) h3).trans
      (rename_mapStore _ (fun st => MemoryStore.rename_deleteWill g st _))

theorem rename_onConn (srv : Server) (c : Nat) (k h : Nat → Session → Server × Out)
    (hh : ∀ r s, h r (s.rename g) = ((k r s).1.rename g, renameOut g (k r s).2)) :
    (srv.rename g).onConn c h = ((srv.onConn c k).1.rename g, renameOut g (srv.onConn c k).2) := by
  unfold onConn
  have hc : (srv.rename g).conns.get c = (srv.conns.get c).map (Conn.rename g) := onValues_get _ _ _
  rw [hc]
  cases srv.conns.get c with
  | none => rfl
  | some k =>
    have hg : (srv.rename g).heap.get k.session = (srv.heap.get k.session).map (Session.rename g) := onValues_get _ _ _
    simp only [Option.map_some, Conn.rename, hg]
    cases srv.heap.get k.session with
    | none => rfl
    | some s => exact hh _ _

theorem rename_saveAfter (s : Session) (p : Packet) (st : MemoryStore) :
    saveAfter (s.rename g) (renamePacket g p) (st.rename g) = (saveAfter s p st).rename g := by
  have hk : (s.rename g).filters = s.filters := onValues_keys _ _
  cases p <;> simp only [saveAfter, renamePacket, hk]
  case pubAck a => exact MemoryStore.rename_removeInflight g st _ _
  case pubComp a => exact MemoryStore.rename_removeInflight g st _ _
  case subscribe a => exact MemoryStore.rename_saveSession g st s.clientId (stateOf s.clientId s.filters)
  case unsubscribe a => exact MemoryStore.rename_saveSession g st s.clientId (stateOf s.clientId s.filters)

theorem rename_recv (cfg : AuthConfig) (srv : Server) (c r : Nat) (s : Session) (p : Packet) :
    (srv.rename g).recv cfg c r (s.rename g) (renamePacket g p) =
      ((srv.recv cfg c r s p).1.rename g, renameOut g (srv.recv cfg c r s p).2) := by
  have key : ∀ p : Packet,
      (match ((s.rename g).processIncoming (srv.rename g).world cfg.manager c (renamePacket g p)).result with
      | .error _ => (finish { srv.rename g with world := ((s.rename g).processIncoming (srv.rename g).world cfg.manager c
          (renamePacket g p)).world } c r ((s.rename g).processIncoming (srv.rename g).world cfg.manager c (renamePacket g p)).session, {})
      | .ok res => (put (mapStore { srv.rename g with world := ((s.rename g).processIncoming (srv.rename g).world cfg.manager c
          (renamePacket g p)).world } (saveAfter ((s.rename g).processIncoming (srv.rename g).world cfg.manager c
            (renamePacket g p)).session (renamePacket g p))) r
          ((s.rename g).processIncoming (srv.rename g).world cfg.manager c (renamePacket g p)).session,
          { sent := res.toList }) : Server × Out) =
      ((match (s.processIncoming srv.world cfg.manager c p).result with
      | .error _ => (finish { srv with world := (s.processIncoming srv.world cfg.manager c p).world } c r
          (s.processIncoming srv.world cfg.manager c p).session, {})
      | .ok res => (put (mapStore { srv with world := (s.processIncoming srv.world cfg.manager c p).world }
          (saveAfter (s.processIncoming srv.world cfg.manager c p).session p)) r
          (s.processIncoming srv.world cfg.manager c p).session, { sent := res.toList }) : Server × Out).1.rename g,
       renameOut g (match (s.processIncoming srv.world cfg.manager c p).result with
      | .error _ => (finish { srv with world := (s.processIncoming srv.world cfg.manager c p).world } c r
          (s.processIncoming srv.world cfg.manager c p).session, {})
      | .ok res => (put (mapStore { srv with world := (s.processIncoming srv.world cfg.manager c p).world }
          (saveAfter (s.processIncoming srv.world cfg.manager c p).session p)) r
          (s.processIncoming srv.world cfg.manager c p).session, { sent := res.toList }) : Server × Out).2) := by
    intro p
    have hw : (srv.rename g).world = srv.world.rename g := rfl
    rw [hw, Session.rename_processIncoming]
    generalize hh : s.processIncoming srv.world cfg.manager c p = h
    simp only [Handled.rename]
    cases hr : h.result with
    | error e => exact Prod.ext (rename_finish { srv with world := h.world } c r h.session) rfl
    | ok res =>
      refine Prod.ext ?_ ?_
      · have h1 : mapStore { srv.rename g with world := h.world.rename g } (saveAfter (h.session.rename g) (renamePacket g p)) =
            (mapStore { srv with world := h.world } (saveAfter h.session p)).rename g :=
          rename_mapStore { srv with world := h.world } (fun st => rename_saveAfter _ _ _)
        simp only [h1]
        exact rename_put _ _ _
      · cases res with
        | none => rfl
        | some q => rfl
  cases p with
  | disconnect p =>
    have h1 : ({ s.rename g with will := none } : Session) = Session.rename g { s with will := none } := rfl
    have h2 : ((srv.rename g).mapStore fun st => st.deleteWill (g.client s.clientId)) =
        (srv.mapStore fun st => st.deleteWill s.clientId).rename g :=
      rename_mapStore srv (fun st => MemoryStore.rename_deleteWill g st _)
    refine Prod.ext ?_ rfl
    show (((srv.rename g).mapStore fun st => st.deleteWill (g.client s.clientId)).finish c r { s.rename g with will := none }) = _
    rw [h1, h2]
    exact rename_finish _ _ _ _
  | connect p => exact key (.connect p)
  | connAck p => exact key (.connAck p)
  | publish p => exact key (.publish p)
  | pubAck p => exact key (.pubAck p)
  | pubRec p => exact key (.pubRec p)
  | pubRel p => exact key (.pubRel p)
  | pubComp p => exact key (.pubComp p)
  | subscribe p => exact key (.subscribe p)
  | subAck p => exact key (.subAck p)
  | unsubscribe p => exact key (.unsubscribe p)
  | unsubAck p => exact key (.unsubAck p)
  | pingReq => exact key .pingReq
  | pingResp => exact key .pingResp
  | auth p => exact key (.auth p)

theorem rename_saveOutgoing (s : Session) (p : PublishPacket) (st : MemoryStore) :
    saveOutgoing (s.rename g) (p.rename g) (st.rename g) = (saveOutgoing s p st).rename g := by
  obtain ⟨d, q, r, t, i, pr, pl⟩ := p
  unfold saveOutgoing PublishPacket.rename
  cases i with
  | none => rfl
  | some id =>
    cases q <;> try rfl
    all_goals exact MemoryStore.rename_storeInflight g st _ _ ⟨id, t, pl, _, d⟩

theorem rename_deliver (srv : Server) (c r : Nat) (s : Session) (t : Str) :
    (srv.rename g).deliver c r (s.rename g) t =
      ((srv.deliver c r s t).1.rename g, renameOut g (srv.deliver c r s t).2) := by
  unfold deliver
  have hw : (srv.rename g).world.broker.tree = TopicNode.map (Message.rename g) srv.world.broker.tree := rfl
  rw [hw, Session.rename_processOutgoing]
  cases s.processOutgoing srv.world.broker.tree t with
  | idle => rfl
  | packet s' p =>
    refine Prod.ext ?_ rfl
    simp only [Session.Outgoing.rename]
    rw [rename_mapStore srv (fun st => rename_saveOutgoing s' p st)]
    exact rename_put _ _ _
  | panicked s' =>
    refine Prod.ext ?_ rfl
    simp only [Session.Outgoing.rename]
    have h0 : (srv.rename g).conns.erase c = (({ srv with conns := srv.conns.erase c } : Server).rename g).conns :=
      onValues_erase (Conn.rename g) srv.conns c
    rw [h0]
    exact rename_put { srv with conns := srv.conns.erase c } r s'

/-- One step with other identifiers. -/
theorem rename_step (cfg : AuthConfig) (srv : Server) (e : Event) :
    (srv.rename g).step cfg (renameEvent g e) = ((srv.step cfg e).1.rename g, renameOut g (srv.step cfg e).2) := by
  have hc : ∀ c, ((srv.rename g).conns.get c).isSome = (srv.conns.get c).isSome := fun c =>
    (congrArg Option.isSome (onValues_get (Conn.rename g) srv.conns c)).trans Option.isSome_map
  cases e with
  | first c p uuid w =>
    cases p with
    | connect p =>
      simp only [renameEvent, renamePacket, step, hc]
      split
      · rfl
      · unfold connect
        have ha : authenticated cfg (p.rename g) = authenticated cfg p := rfl
        show (if (cfg.requireAuth && !authenticated cfg (p.rename g)) = true then _ else (srv.rename g).start c (p.rename g) (g.client uuid) w) = _
        rw [ha]
        split
        · rfl
        · exact rename_start srv c p uuid w
    | _ => simp only [renameEvent, renamePacket, step, hc]; split <;> rfl
  | recv c p =>
    exact rename_onConn srv c (fun r s => srv.recv cfg c r s p)
      (fun r s => (srv.rename g).recv cfg c r s (renamePacket g p)) (fun r s => rename_recv cfg srv c r s p)
  | deliver c t =>
    exact rename_onConn srv c (fun r s => srv.deliver c r s t)
      (fun r s => (srv.rename g).deliver c r s t) (fun r s => rename_deliver srv c r s t)
  | close c =>
    exact rename_onConn srv c (fun r s => (srv.finish c r s, {}))
      (fun r s => ((srv.rename g).finish c r s, {})) (fun r s => Prod.ext (rename_finish srv c r s) rfl)
  | abort c => exact Prod.ext (by simp only [renameEvent, step, rename, onValues_erase]) rfl
  | restart =>
    refine Prod.ext ?_ rfl
    simp only [renameEvent, step, rename, rename_restart]
    rfl

theorem rename_init : Server.init.rename g = Server.init := by
  simp only [init, rename, World.rename, Broker.rename, TopicTree.new, TopicNode.map_new]
  rfl

end Server

end Mercurio
