import Verif.Spec.Ignored
import Verif.Lemmas.ServerRun

/-!
# C84: packet properties
-/

namespace Mercurio

open Spec Server

/-! ## Lemmas -/

/-- Sessions that agree on everything the server uses. -/
structure Session.Sim (s s' : Session) : Prop where
  version : s.connect.protocolVersion = s'.connect.protocolVersion
  connectId : s.connect.payload.clientId = s'.connect.payload.clientId
  clientId : s.clientId = s'.clientId
  subs : s.subscriptions = s'.subscriptions
  will : s.will = s'.will
  auth : s.authMethod = s'.authMethod

/-- Servers that agree on everything the server uses. -/
structure Server.Sim (a b : Server) : Prop where
  world : a.world = b.world
  fresh : a.fresh = b.fresh
  sessions : a.sessions = b.sessions
  conns : a.conns = b.conns
  none : ∀ r, a.heap.get r = none ↔ b.heap.get r = none
  some : ∀ r s s', a.heap.get r = some s → b.heap.get r = some s' → s.Sim s'

theorem Server.Sim.refl (a : Server) : a.Sim a where
  world := rfl
  fresh := rfl
  sessions := rfl
  conns := rfl
  none := fun _ => Iff.rfl
  some := fun r s s' h h' => by rw [h] at h'; cases h'; exact ⟨rfl, rfl, rfl, rfl, rfl, rfl⟩

theorem Server.Sim.put {a b : Server} (h : a.Sim b) (r : Nat) {s s' : Session} (hs : s.Sim s') :
    (a.put r s).Sim (b.put r s') where
  world := h.world
  fresh := h.fresh
  sessions := h.sessions
  conns := h.conns
  none := fun k => by
    simp only [Server.put, Map.get_insert]
    split
    · simp
    · exact h.none k
  some := fun k x y hx hy => by
    simp only [Server.put, Map.get_insert] at hx hy
    split at hx
    · rename_i e; rw [if_pos e] at hy; cases hx; cases hy; exact hs
    · rename_i e; rw [if_neg e] at hy; exact h.some k x y hx hy

theorem Server.Sim.world_eq {a b : Server} (h : a.Sim b) {w w' : World} (hw : w = w') :
    ({ a with world := w } : Server).Sim { b with world := w' } :=
  ⟨hw, h.fresh, h.sessions, h.conns, h.none, h.some⟩

theorem Server.Sim.mapStore {a b : Server} (h : a.Sim b) {f g : MemoryStore → MemoryStore}
    (hf : ∀ st, f st = g st) : (a.mapStore f).Sim (b.mapStore g) := by
  have : f = g := funext hf
  subst this
  exact h.world_eq (by rw [h.world])

theorem Server.Sim.conns_eq {a b : Server} (h : a.Sim b) {m m' : Map Nat Conn} (hm : m = m') :
    ({ a with conns := m } : Server).Sim { b with conns := m' } :=
  ⟨h.world, h.fresh, h.sessions, hm, h.none, h.some⟩

theorem addSubscription_sim {s s' : Session} (h : s.Sim s') (w : World) (f : Str) :
    (s.addSubscription w f).1.Sim (s'.addSubscription w f).1 ∧
    (s.addSubscription w f).2 = (s'.addSubscription w f).2 :=
  ⟨⟨h.version, h.connectId, h.clientId, by simp only [Session.addSubscription, h.subs], h.will, h.auth⟩, rfl⟩

theorem restoreSubscriptions_sim (fs : List Str) : ∀ {s s' : Session} (_ : s.Sim s') (w : World),
    (s.restoreSubscriptions w fs).1.Sim (s'.restoreSubscriptions w fs).1 ∧
    (s.restoreSubscriptions w fs).2 = (s'.restoreSubscriptions w fs).2 := by
  induction fs with
  | nil => intro s s' h w; exact ⟨h, rfl⟩
  | cons f fs ih =>
    intro s s' h w
    obtain ⟨h1, h2⟩ := addSubscription_sim h w f
    simp only [Session.restoreSubscriptions]
    rw [h2]
    exact ih h1 _

theorem subscribeLoop_sim (fs : List Str) : ∀ {s s' : Session} (_ : s.Sim s') (w : World),
    (s.subscribeLoop w fs).1.Sim (s'.subscribeLoop w fs).1 ∧
    (s.subscribeLoop w fs).2 = (s'.subscribeLoop w fs).2 := by
  induction fs with
  | nil => intro s s' h w; exact ⟨h, rfl⟩
  | cons f fs ih =>
    intro s s' h w
    cases hv : validateSubscribeFilter f with
    | error e =>
      obtain ⟨h1, h2⟩ := ih h w
      simp only [Session.subscribeLoop, hv]
      exact ⟨h1, by rw [h2]⟩
    | ok _ =>
      obtain ⟨g1, g2⟩ := addSubscription_sim h w f
      obtain ⟨h1, h2⟩ := ih g1 (s.addSubscription w f).2
      simp only [Session.subscribeLoop, hv]
      rw [← g2]
      exact ⟨h1, by rw [h2]⟩

theorem processIncoming_sim {s s' : Session} (h : s.Sim s') (w : World) (m : Option AuthManager)
    (c : Nat) (p : Packet) (hp : ∀ d, p ≠ .disconnect d) :
    (s.processIncoming w m c p).session.Sim (s'.processIncoming w m c (bare p)).session ∧
    (s.processIncoming w m c p).world = (s'.processIncoming w m c (bare p)).world ∧
    (s.processIncoming w m c p).result = (s'.processIncoming w m c (bare p)).result := by
  cases p with
  | publish p =>
    simp only [bare, Session.processIncoming, Session.handlePublish]
    cases validatePublishTopic p.topicName with
    | error e => exact ⟨h, rfl, rfl⟩
    | ok _ =>
      refine ⟨?_, rfl, rfl⟩
      unfold Session.notePublish
      dsimp only
      split
      · exact ⟨h.version, h.connectId, h.clientId, h.subs, h.will, h.auth⟩
      · exact h
  | pubAck p => exact ⟨⟨h.version, h.connectId, h.clientId, h.subs, h.will, h.auth⟩, rfl, rfl⟩
  | pubRec p => exact ⟨⟨h.version, h.connectId, h.clientId, h.subs, h.will, h.auth⟩, rfl, rfl⟩
  | pubRel p => exact ⟨⟨h.version, h.connectId, h.clientId, h.subs, h.will, h.auth⟩, rfl, rfl⟩
  | pubComp p => exact ⟨⟨h.version, h.connectId, h.clientId, h.subs, h.will, h.auth⟩, rfl, rfl⟩
  | subscribe p =>
    have e : (p.payload.map fun x => ({ topicFilter := x.topicFilter } : SubscribePayload)).map
        (·.topicFilter) = p.payload.map (·.topicFilter) := by
      simp [Function.comp_def]
    obtain ⟨h1, h2⟩ := subscribeLoop_sim (p.payload.map (·.topicFilter)) h w
    simp only [bare, Session.processIncoming, Session.handleSubscribe]
    rw [e]
    exact ⟨h1, by rw [h2], by rw [h2, h.version]⟩
  | unsubscribe p =>
    simp only [bare, Session.processIncoming, Session.handleUnsubscribe]
    refine ⟨⟨h.version, h.connectId, h.clientId, by simp only [h.subs], h.will, h.auth⟩, trivial, ?_⟩
    rw [h.subs, h.version]
  | disconnect d => exact absurd rfl (hp d)
  | auth p =>
    simp only [bare, Session.processIncoming, Session.handleAuth, h.auth]
    cases m with
    | none => exact ⟨h, rfl, rfl⟩
    | some a => exact ⟨⟨h.version, h.connectId, h.clientId, h.subs, h.will, rfl⟩, rfl, rfl⟩
  | _ => exact ⟨h, rfl, rfl⟩

theorem finish_sim {a b : Server} (h : a.Sim b) (c r : Nat) {s s' : Session} (hs : s.Sim s') :
    (a.finish c r s).Sim (b.finish c r s') := by
  unfold finish
  rw [hs.will]
  have hc : ({ a with conns := a.conns.erase c } : Server).Sim { b with conns := b.conns.erase c } :=
    h.conns_eq (by rw [h.conns])
  cases s'.will with
  | none => exact hc.put r hs
  | some w =>
    dsimp only
    refine Server.Sim.mapStore (Server.Sim.put (hc.world_eq ?_) r ?_) ?_
    · rw [h.world]
    · exact ⟨hs.version, hs.connectId, hs.clientId, hs.subs, rfl, hs.auth⟩
    · intro st; rw [hs.clientId]

theorem recv_sim (cfg : AuthConfig) {a b : Server} (h : a.Sim b) (c r : Nat) {s s' : Session}
    (hs : s.Sim s') (p : Packet) :
    (a.recv cfg c r s p).2 = (b.recv cfg c r s' (bare p)).2 ∧
    (a.recv cfg c r s p).1.Sim (b.recv cfg c r s' (bare p)).1 := by
  by_cases hd : ∃ d, p = .disconnect d
  · obtain ⟨d, rfl⟩ := hd
    refine ⟨rfl, ?_⟩
    simp only [bare, Server.recv]
    refine finish_sim (h.mapStore ?_) c r ⟨hs.version, hs.connectId, hs.clientId, hs.subs, rfl, hs.auth⟩
    intro st; rw [hs.clientId]
  · have hne : ∀ d, p ≠ .disconnect d := fun d e => hd ⟨d, e⟩
    have hne' : ∀ d, bare p ≠ .disconnect d := by
      intro d
      cases p <;> simp only [bare, ne_eq, reduceCtorEq, not_false_eq_true]
      exact absurd rfl (hne _)
    have unf : ∀ (x : Server) (y : Session) (q : Packet), (∀ d, q ≠ .disconnect d) →
        x.recv cfg c r y q =
          match (y.processIncoming x.world cfg.manager c q).result with
          | .error _ => (({ x with world := (y.processIncoming x.world cfg.manager c q).world } : Server).finish c r
              (y.processIncoming x.world cfg.manager c q).session, {})
          | .ok res => ((({ x with world := (y.processIncoming x.world cfg.manager c q).world } : Server).mapStore
              (saveAfter (y.processIncoming x.world cfg.manager c q).session q)).put r
              (y.processIncoming x.world cfg.manager c q).session, { sent := res.toList }) := by
      intro x y q hq
      cases q <;> first | rfl | exact absurd rfl (hq _)
    rw [unf a s p hne, unf b s' (bare p) hne']
    obtain ⟨e1, e2, e3⟩ := processIncoming_sim hs a.world cfg.manager c p hne
    rw [← h.world, e3]
    cases (s'.processIncoming a.world cfg.manager c (bare p)).result with
    | error e => exact ⟨rfl, finish_sim (h.world_eq e2) c r e1⟩
    | ok res =>
      refine ⟨rfl, Server.Sim.put (Server.Sim.mapStore (h.world_eq e2) ?_) r e1⟩
      intro st
      cases p <;> simp only [bare, saveAfter, e1.clientId, Session.filters, e1.subs]

theorem poll_sim {s s' : Session} (h : s.Sim s') (t : TopicTree Message) (f : Str) :
    match s.processOutgoing t f, s'.processOutgoing t f with
    | .idle, .idle => True
    | .packet x p, .packet y q => x.Sim y ∧ p = q
    | .panicked x, .panicked y => x.Sim y
    | _, _ => False := by
  unfold Session.processOutgoing
  rw [h.subs]
  cases s'.subscriptions.get f with
  | none => trivial
  | some st =>
    dsimp only
    cases st.poll t with
    | none => trivial
    | some r =>
      obtain ⟨m, st'⟩ := r
      dsimp only [Session.noteOutgoing, Session.outgoingPacket]
      cases m.packetId with
      | none => exact ⟨⟨h.version, h.connectId, h.clientId, rfl, h.will, h.auth⟩, rfl⟩
      | some id =>
        cases m.qos with
        | invalid => exact ⟨h.version, h.connectId, h.clientId, rfl, h.will, h.auth⟩
        | _ => exact ⟨⟨h.version, h.connectId, h.clientId, rfl, h.will, h.auth⟩, rfl⟩

theorem deliver_sim {a b : Server} (h : a.Sim b) (c r : Nat) {s s' : Session} (hs : s.Sim s') (f : Str) :
    (a.deliver c r s f).2 = (b.deliver c r s' f).2 ∧ (a.deliver c r s f).1.Sim (b.deliver c r s' f).1 := by
  have := poll_sim hs a.world.broker.tree f
  unfold Server.deliver
  rw [show b.world.broker.tree = a.world.broker.tree by rw [h.world]]
  cases h1 : s.processOutgoing a.world.broker.tree f <;> cases h2 : s'.processOutgoing a.world.broker.tree f <;>
    rw [h1, h2] at this
  · exact ⟨rfl, h⟩
  · exact this.elim
  · exact this.elim
  · exact this.elim
  · obtain ⟨e1, rfl⟩ := this
    refine ⟨rfl, Server.Sim.put (h.mapStore ?_) r e1⟩
    intro st
    unfold saveOutgoing
    rw [e1.clientId]
  · exact this.elim
  · exact this.elim
  · exact this.elim
  · have hc : ({ a with conns := a.conns.erase c } : Server).Sim { b with conns := b.conns.erase c } :=
      h.conns_eq (by rw [h.conns])
    exact ⟨rfl, hc.put r this⟩

theorem onConn_sim {a b : Server} (h : a.Sim b) (c : Nat) {f g : Nat → Session → Server × Out}
    (hf : ∀ r s s', s.Sim s' → (f r s).2 = (g r s').2 ∧ (f r s).1.Sim (g r s').1) :
    (a.onConn c f).2 = (b.onConn c g).2 ∧ (a.onConn c f).1.Sim (b.onConn c g).1 := by
  unfold onConn
  rw [h.conns]
  cases b.conns.get c with
  | none => exact ⟨rfl, h⟩
  | some k =>
    dsimp only
    cases h1 : a.heap.get k.session with
    | none => rw [(h.none _).mp h1]; exact ⟨rfl, h⟩
    | some s =>
      cases h2 : b.heap.get k.session with
      | none => rw [(h.none _).mpr h2] at h1; cases h1
      | some s' => exact hf _ _ _ (h.some _ _ _ h1 h2)

/-- A CONNECT without its properties. -/
def bareConnect (p : ConnectPacket) : ConnectPacket :=
  { p with properties := none, payload := { p.payload with willProperties := none } }

theorem enter_sim {a b : Server} (h : a.Sim b) (p : ConnectPacket) :
    (a.enter p).1.Sim (b.enter (bareConnect p)).1 ∧
    (a.enter p).2.1 = (b.enter (bareConnect p)).2.1 ∧
    (a.enter p).2.2.Sim (b.enter (bareConnect p)).2.2 := by
  have hnew : ({ a with fresh := a.fresh + 1, sessions := b.sessions.insert p.payload.clientId a.fresh } : Server).Sim
      { b with fresh := b.fresh + 1, sessions := b.sessions.insert p.payload.clientId b.fresh } :=
    ⟨h.world, by simp only [h.fresh], by simp only [h.fresh], h.conns, h.none, h.some⟩
  have hses : (Session.new p).Sim (Session.new (bareConnect p)) := ⟨rfl, rfl, rfl, rfl, rfl, rfl⟩
  unfold enter
  rw [h.sessions]
  dsimp only [bareConnect]
  cases b.sessions.get p.payload.clientId with
  | none => exact ⟨hnew, h.fresh, hses⟩
  | some r =>
    dsimp only
    cases h1 : a.heap.get r with
    | none => rw [(h.none _).mp h1]; exact ⟨hnew, h.fresh, hses⟩
    | some s =>
      cases h2 : b.heap.get r with
      | none => rw [(h.none _).mpr h2] at h1; cases h1
      | some s' =>
        have hs := h.some _ _ _ h1 h2
        exact ⟨h, rfl, ⟨rfl, rfl, rfl, hs.subs, rfl, hs.auth⟩⟩

theorem begin_sim {s s' : Session} (h : s.Sim s') (uuid : Str) (resume : Bool) :
    (s.begin uuid resume).1.Sim (s'.begin uuid resume).1 ∧
    (s.begin uuid resume).2 = (s'.begin uuid resume).2 := by
  unfold Session.begin
  rw [h.connectId, h.version]
  split
  · exact ⟨⟨h.version, rfl, rfl, h.subs, h.will, h.auth⟩, rfl⟩
  · exact ⟨h, rfl⟩

theorem start_sim {a b : Server} (h : a.Sim b) (c : Nat) (p : ConnectPacket) (uuid : Str) (written : Bool) :
    (a.start c p uuid written).2 = (b.start c (bareConnect p) uuid written).2 ∧
    (a.start c p uuid written).1.Sim (b.start c (bareConnect p) uuid written).1 := by
  have hfind : a.find p.payload.clientId p.flags.cleanStart = b.find p.payload.clientId p.flags.cleanStart := by
    unfold Server.find Server.store
    rw [h.sessions, h.world]
  have hdisc : (a.discard p.payload.clientId p.flags.cleanStart).Sim
      (b.discard p.payload.clientId p.flags.cleanStart) := by
    unfold Server.discard
    split
    · refine Server.Sim.mapStore ?_ (fun _ => rfl)
      exact ⟨h.world, h.fresh, by simp only [h.sessions], h.conns, h.none, h.some⟩
    · exact h
  obtain ⟨e1, e2, e3⟩ := enter_sim hdisc p
  have e4 := begin_sim e3 uuid (b.find p.payload.clientId p.flags.cleanStart).resume
  unfold Server.start
  dsimp only [bareConnect] at *
  rw [hfind]
  generalize (a.discard p.payload.clientId p.flags.cleanStart).enter p = x at *
  generalize (b.discard p.payload.clientId p.flags.cleanStart).enter _ = y at *
  obtain ⟨g1, g2⟩ := e4
  rw [e2]
  split
  · refine ⟨by rw [g2], ?_⟩
    have hm := e1.mapStore (f := saveStart (x.2.2.begin uuid (b.find p.payload.clientId p.flags.cleanStart).resume).1
        (b.find p.payload.clientId p.flags.cleanStart).subscriptions)
      (g := saveStart (y.2.2.begin uuid (b.find p.payload.clientId p.flags.cleanStart).resume).1
        (b.find p.payload.clientId p.flags.cleanStart).subscriptions)
      (by intro st; unfold saveStart; rw [g1.clientId, g1.will])
    obtain ⟨r1, r2⟩ := restoreSubscriptions_sim (b.find p.payload.clientId p.flags.cleanStart).subscriptions g1
      (y.1.mapStore (saveStart (y.2.2.begin uuid (b.find p.payload.clientId p.flags.cleanStart).resume).1
        (b.find p.payload.clientId p.flags.cleanStart).subscriptions)).world
    rw [hm.world]
    refine Server.Sim.put (Server.Sim.conns_eq (hm.world_eq r2) ?_) _ ?_
    · rw [hm.conns]
    · unfold restoreWill
      split
      · exact ⟨r1.version, r1.connectId, r1.clientId, r1.subs, rfl, r1.auth⟩
      · exact r1
  · exact ⟨rfl, e1.put _ g1⟩

theorem step_sim (cfg : AuthConfig) {a b : Server} (h : a.Sim b) (e : Event) :
    (a.step cfg e).2 = (b.step cfg (bareEvent e)).2 ∧ (a.step cfg e).1.Sim (b.step cfg (bareEvent e)).1 := by
  cases e with
  | first c p uuid written =>
    simp only [bareEvent, Server.step]
    rw [h.conns]
    split
    · exact ⟨rfl, h⟩
    · cases p with
      | connect p =>
        show (a.connect cfg c p uuid written).2 = (b.connect cfg c (bareConnect p) uuid written).2 ∧
          (a.connect cfg c p uuid written).1.Sim (b.connect cfg c (bareConnect p) uuid written).1
        have : authenticated cfg p = authenticated cfg (bareConnect p) := rfl
        simp only [Server.connect]
        rw [this]
        cases cfg.requireAuth && !authenticated cfg (bareConnect p) with
        | true => exact ⟨rfl, h⟩
        | false => exact start_sim h c p uuid written
      | _ => exact ⟨rfl, h⟩
  | recv c p => exact onConn_sim h c fun r s s' hs => recv_sim cfg h c r hs p
  | deliver c f => exact onConn_sim h c fun r s s' hs => deliver_sim h c r hs f
  | close c => exact onConn_sim h c fun r s s' hs => ⟨rfl, finish_sim h c r hs⟩
  | abort c =>
    have hc : ({ a with conns := a.conns.erase c } : Server).Sim { b with conns := b.conns.erase c } :=
      h.conns_eq (by rw [h.conns])
    exact ⟨rfl, hc⟩
  | restart =>
    refine ⟨rfl, ⟨?_, h.fresh, rfl, rfl, fun _ => Iff.rfl, ?_⟩⟩
    · simp only [bareEvent, Server.step, h.world]
    · intro r s s' hr; cases hr

theorem behaviour_sim (cfg : AuthConfig) (es : List Event) : ∀ {a b : Server}, a.Sim b →
    behaviour cfg a es = behaviour cfg b (es.map bareEvent) := by
  induction es with
  | nil => intro a b _; rfl
  | cons e es ih =>
    intro a b h
    obtain ⟨h1, h2⟩ := step_sim cfg h e
    simp only [behaviour, List.map_cons]
    rw [h1, h2.conns, ih h2]

/-! ## The theorems -/

/-- C84 is false, as a whole: in every history the server does exactly what it would do if none of the
clients' packets had any properties, subscription options or reason codes. -/
theorem C84_ignored_false (cfg : AuthConfig) (es : List Event) :
    behaviour cfg Server.init es = behaviour cfg Server.init (es.map bareEvent) :=
  behaviour_sim cfg es (Server.Sim.refl _)

/-- The packet has no properties (AUTH packets aside), except that a CONNACK may have the assigned client
identifier. -/
def Spec.SaysNothing : Packet → Prop
  | .connAck p => p.properties = none ∨ ∃ id, p.properties = some { assignedClientId := some id }
  | .publish p => p.properties = none
  | .pubAck p | .pubRec p | .pubRel p | .pubComp p => p.properties = none
  | .subAck p => p.properties = none
  | .unsubAck p => p.properties = none
  | .pingResp | .auth _ => True
  | _ => False

/-- C84, the other direction: whatever state the server is in and whatever happens, no packet it sends has
properties, except for the client identifier it assigns (and those of AUTH packets). -/
theorem C84_sent_partial (cfg : AuthConfig) (srv : Server) (e : Event) :
    ∀ q ∈ (srv.step cfg e).2.sent, SaysNothing q := by
  have onc : ∀ (c : Nat) (f : Nat → Session → Server × Out), (∀ r s, ∀ q ∈ (f r s).2.sent, SaysNothing q) →
      ∀ q ∈ (srv.onConn c f).2.sent, SaysNothing q := by
    intro c f hf
    unfold onConn
    split
    · intro q hq; cases hq
    · split
      · intro q hq; cases hq
      · exact hf _ _
  cases e with
  | first c p uuid written =>
    simp only [Server.step]
    split
    · intro q hq; cases hq
    · cases p with
      | connect p =>
        simp only [Server.connect]
        split
        · intro q hq
          rw [List.mem_singleton] at hq
          subst hq
          exact Or.inl rfl
        · unfold Server.start
          dsimp only
          split
          · intro q hq
            rcases List.mem_cons.mp hq with rfl | hq
            · unfold Session.begin
              split
              · dsimp only
                split
                · exact Or.inr ⟨_, rfl⟩
                · exact Or.inl rfl
              · exact Or.inl rfl
            · obtain ⟨i, _, rfl⟩ := List.mem_map.mp hq
              exact rfl
          · intro q hq; cases hq
      | _ => intro q hq; cases hq
  | recv c p =>
    refine onc c _ fun r s => ?_
    have key : ∀ p w x, (s.processIncoming w cfg.manager c p).result = .ok (some x) → (∀ d, p ≠ .disconnect d) →
        SaysNothing x := by
      intro p w x hx hd
      cases p with
      | publish p =>
        simp only [Session.processIncoming, Session.handlePublish] at hx
        cases hv : validatePublishTopic p.topicName with
        | error e => rw [hv] at hx; cases hx
        | ok _ =>
          rw [hv] at hx
          simp only [Session.publishResponse] at hx
          cases hq : p.qos <;> cases hi : p.packetId <;> simp only [hq, hi] at hx <;> cases hx <;> exact rfl
      | auth p =>
        simp only [Session.processIncoming, Session.handleAuth] at hx
        cases hm : cfg.manager with
        | none => rw [hm] at hx; cases hx
        | some a =>
          rw [hm] at hx
          dsimp only at hx
          have h1 : ∀ cur y, (Session.authStart a cur p.properties).2 = .ok (some y) → SaysNothing y := by
            intro cur y hy
            unfold Session.authStart at hy
            split at hy
            · cases hy
            · split at hy
              · split at hy
                · cases hy; trivial
                · cases hy; trivial
                · cases hy
              · cases hy
          have h2 : ∀ cur y, (Session.authContinue a cur p.properties).2 = .ok (some y) → SaysNothing y := by
            intro cur y hy
            unfold Session.authContinue at hy
            split at hy
            · cases hy
            · cases hy
            · split at hy
              · cases hy; trivial
              · cases hy; trivial
              · cases hy
          split at hx
          · exact h1 _ _ hx
          · exact h2 _ _ hx
          · cases hx
      | disconnect d => exact absurd rfl (hd d)
      | pubAck p => cases hx
      | pubComp p => cases hx
      | pubRec p => cases hx; exact rfl
      | pubRel p => cases hx; exact rfl
      | subscribe p => cases hx; exact rfl
      | unsubscribe p => cases hx; exact rfl
      | pingReq => cases hx; trivial
      | _ => cases hx
    have hrecv : (∃ d, p = .disconnect d) ∨ ∀ d, p ≠ .disconnect d := by
      by_cases h : ∃ d, p = .disconnect d
      · exact Or.inl h
      · exact Or.inr fun d e => h ⟨d, e⟩
    rcases hrecv with ⟨d, rfl⟩ | hd
    · intro q hq; cases hq
    · have unf : (srv.recv cfg c r s p).2 = match (s.processIncoming srv.world cfg.manager c p).result with
          | .error _ => {} | .ok res => { sent := res.toList } := by
        cases p <;> first | exact absurd rfl (hd _) | (simp only [Server.recv]; split <;> rename_i h <;> rw [h])
      rw [unf]
      split
      · intro q hq; cases hq
      · rename_i res hres
        intro q hq
        cases res with
        | none => cases hq
        | some x =>
          rw [Option.toList_some, List.mem_singleton] at hq
          subst hq
          exact key p _ _ hres hd
  | deliver c f =>
    refine onc c _ fun r s => ?_
    unfold Server.deliver
    cases hp : s.processOutgoing srv.world.broker.tree f with
    | idle => intro q hq; cases hq
    | panicked s' => intro q hq; cases hq
    | packet s' p =>
      intro q hq
      rw [List.mem_singleton] at hq
      subst hq
      unfold Session.processOutgoing at hp
      split at hp
      · cases hp
      · split at hp
        · cases hp
        · dsimp only at hp
          split at hp
          · cases hp
          · cases hp; exact rfl
  | close c => exact onc c _ fun r s => (by intro q hq; cases hq)
  | abort c => intro q hq; cases hq
  | restart => intro q hq; cases hq

/-- A history with properties all over: a session that is to expire, a publication that is to expire and
has a response topic and user properties, a subscription with an identifier, a DISCONNECT that asks for the
will to be published. -/
def exProperties : List Event :=
  [.first 0 (.connect
      { protocolVersion := .v5, flags := { willFlag := true }, keepalive := 0
        properties := some { sessionExpiryInterval := some 0, receiveMaximum := some 1, maximumPacketSize := some 10 }
        payload := { clientId := str "c", willTopic := some (str "w"), willPayload := some [1]
                     willProperties := some { willDelayInterval := some 60 } } }) (str "u") true,
   .recv 0 (.subscribe ⟨1, some { subscriptionId := some 7 }, [⟨str "t", { noLocal := true }⟩]⟩),
   .recv 0 (.publish { topicName := str "t", qos := .atLeastOnce, packetId := some 5, payload := some (str "a long payload")
                       properties := some { messageExpiryInterval := some 0, responseTopic := some (str "r")
                                            userProperty := some [(str "k", str "v")] } }),
   .deliver 0 (str "t"),
   .recv 0 (.pubAck { packetId := 5, reason := .unspecifiedError }),
   .recv 0 (.disconnect { reason := .disconnectWithWillMessage })]

example : exProperties ≠ exProperties.map bareEvent ∧
    behaviour {} Server.init exProperties =
      [({ sent := [.connAck {}] }, [0]),
       ({ sent := [.subAck ⟨.v5, 1, none, [.grantedQoS0]⟩] }, [0]),
       ({ sent := [.pubAck ⟨5, .success, none⟩] }, [0]),
       ({ sent := [.publish { topicName := str "t", qos := .atLeastOnce, packetId := some 5
                              payload := some (str "a long payload") }] }, [0]),
       ({}, [0]), ({}, [])] := by decide +kernel

end Mercurio
