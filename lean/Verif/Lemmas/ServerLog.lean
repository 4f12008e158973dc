import Verif.Lemmas.ServerRun
import Verif.Props.Broker

/-!
# The calls on the broker made by an event, and the broker as a function of all calls
-/

namespace Mercurio

open Spec Server

/-! ## Calls of one event -/

/-- The call that publishes the will of a session at the end of connection `c`. -/
def willCalls (c : Nat) (s : Session) : List Call :=
  match s.will with
  | none => []
  | some w => [.publish (.will c) w.topic ⟨none, w.topic, false, w.qos, w.retain, some w.payload⟩]

theorem log_finish (srv : Server) (c r : Nat) (s : Session) :
    (srv.finish c r s).world.log = srv.world.log ++ willCalls c s := by
  unfold finish willCalls
  cases s.will with
  | none => simp
  | some w => rfl

theorem log_addSubscription (s : Session) (w : World) (f : Str) :
    (s.addSubscription w f).2.log = w.log ++ [.subscribe f] := rfl

theorem log_restoreSubscriptions (fs : List Str) : ∀ (s : Session) (w : World),
    (s.restoreSubscriptions w fs).2.log = w.log ++ fs.map Call.subscribe := by
  induction fs with
  | nil => intro s w; simp [Session.restoreSubscriptions]
  | cons f fs ih =>
    intro s w
    simp only [Session.restoreSubscriptions, ih, log_addSubscription]
    simp

open Classical in
theorem log_subscribeLoop (fs : List Str) : ∀ (s : Session) (w : World),
    (s.subscribeLoop w fs).2.1.log = w.log ++ (fs.filter ValidFilter).map Call.subscribe := by
  induction fs with
  | nil => intro s w; simp [Session.subscribeLoop]
  | cons f fs ih =>
    intro s w
    by_cases hf : ValidFilter f
    · rw [subscribeLoop_cons_valid _ _ _ hf]
      simp only [ih, log_addSubscription]
      simp [hf]
    · rw [subscribeLoop_cons_invalid _ _ _ hf]
      simp only [ih]
      simp [hf]

open Classical in
/-- The calls made while processing a packet. -/
noncomputable def packetCalls (c : Nat) : Packet → List Call
  | .publish p => if ValidTopic p.topicName then
      [.publish (.client c) p.topicName ⟨p.packetId, p.topicName, p.dup, p.qos, p.retain, p.payload⟩] else []
  | .subscribe p => ((p.payload.map (·.topicFilter)).filter ValidFilter).map Call.subscribe
  | _ => []

theorem log_processIncoming (s : Session) (w : World) (m : Option AuthManager) (c : Nat)
    (p : Packet) : (s.processIncoming w m c p).world.log = w.log ++ packetCalls c p := by
  cases p with
  | publish p =>
    simp only [Session.processIncoming, Session.handlePublish, packetCalls]
    by_cases hv : ValidTopic p.topicName
    · rw [ok_of_valid hv, if_pos hv]; rfl
    · obtain ⟨e, he⟩ := error_of_invalid hv
      rw [he, if_neg hv]; simp
  | subscribe p =>
    exact log_subscribeLoop _ s w
  | auth p =>
    simp only [Session.processIncoming, Session.handleAuth, packetCalls]
    cases m <;> simp
  | _ => simp [Session.processIncoming, Session.handlePubAck, Session.handlePubRec,
      Session.handlePubRel, Session.handlePubComp, Session.handleUnsubscribe, packetCalls]

theorem subscribeLoop_keeps (fs : List Str) (s : Session) (w : World) :
    (s.subscribeLoop w fs).1 = { s with subscriptions := (s.subscribeLoop w fs).1.subscriptions } := by
  induction fs generalizing s w with
  | nil => rfl
  | cons f fs ih =>
    by_cases hf : ValidFilter f
    · rw [subscribeLoop_cons_valid _ _ _ hf]; exact ih _ _
    · rw [subscribeLoop_cons_invalid _ _ _ hf]; exact ih _ _

/-- Processing a packet changes neither the will nor the identity of the session. -/
theorem processIncoming_keeps (s : Session) (w : World) (m : Option AuthManager) (c : Nat)
    (p : Packet) : (s.processIncoming w m c p).session.will = s.will ∧
      (s.processIncoming w m c p).session.clientId = s.clientId ∧
      (s.processIncoming w m c p).session.connect = s.connect := by
  cases p with
  | publish p =>
    simp only [Session.processIncoming, Session.handlePublish]
    cases validatePublishTopic p.topicName with
    | error e => exact ⟨rfl, rfl, rfl⟩
    | ok u =>
      simp only [Session.notePublish]
      cases p.qos <;> cases p.packetId <;> exact ⟨rfl, rfl, rfl⟩
  | subscribe p =>
    simp only [Session.processIncoming, Session.handleSubscribe]
    rw [subscribeLoop_keeps]
    exact ⟨rfl, rfl, rfl⟩
  | auth p =>
    simp only [Session.processIncoming, Session.handleAuth]
    cases m <;> exact ⟨rfl, rfl, rfl⟩
  | _ => exact ⟨rfl, rfl, rfl⟩

theorem noteOutgoing_keeps {s s' : Session} {p : PublishPacket} (h : s.noteOutgoing p = some s') :
    s' = { s with unacked := s'.unacked } := by
  unfold Session.noteOutgoing at h
  cases hp : p.packetId with
  | none => simp only [hp, Option.some.injEq] at h; subst h; rfl
  | some id =>
    simp only [hp] at h
    cases hq : p.qos <;> simp only [hq, Option.some.injEq] at h <;>
      first | (subst h; rfl) | exact absurd h (by simp)

/-- The three outcomes of looking at the stream of a filter. -/
theorem processOutgoing_cases (s : Session) (t : TopicTree Message) (f : Str) :
    (s.processOutgoing t f = .idle ∧
      (s.subscriptions.get f = none ∨ ∃ st, s.subscriptions.get f = some st ∧ st.poll t = none)) ∨
    ∃ st m st', s.subscriptions.get f = some st ∧ st.poll t = some (m, st') ∧
      ((∃ u, ({ s with subscriptions := s.subscriptions.insert f st' } : Session).noteOutgoing
            (Session.outgoingPacket f m) =
            some { s with subscriptions := s.subscriptions.insert f st', unacked := u } ∧
          s.processOutgoing t f = .packet { s with subscriptions := s.subscriptions.insert f st', unacked := u }
            (Session.outgoingPacket f m)) ∨
       (({ s with subscriptions := s.subscriptions.insert f st' } : Session).noteOutgoing
            (Session.outgoingPacket f m) = none ∧
          s.processOutgoing t f = .panicked { s with subscriptions := s.subscriptions.insert f st' })) := by
  unfold Session.processOutgoing
  cases hg : s.subscriptions.get f with
  | none => exact Or.inl ⟨rfl, Or.inl rfl⟩
  | some st =>
    cases hp : st.poll t with
    | none => exact Or.inl ⟨by simp only [hp], Or.inr ⟨st, rfl, hp⟩⟩
    | some r =>
      obtain ⟨m, st'⟩ := r
      refine Or.inr ⟨st, m, st', rfl, hp, ?_⟩
      simp only [hp]
      cases hn : ({ s with subscriptions := s.subscriptions.insert f st' } : Session).noteOutgoing
          (Session.outgoingPacket f m) with
      | none => exact Or.inr ⟨rfl, rfl⟩
      | some s'' =>
        have := noteOutgoing_keeps hn
        refine Or.inl ⟨s''.unacked, ?_, ?_⟩
        · rw [this]
        · simp only; rw [this]

/-- Delivering a message changes neither the will nor the identity of the session. -/
theorem processOutgoing_keeps {s : Session} {t : TopicTree Message} {f : Str} :
    (∀ s' p, s.processOutgoing t f = .packet s' p → s'.will = s.will ∧ s'.clientId = s.clientId ∧
      s'.connect = s.connect) ∧
    (∀ s', s.processOutgoing t f = .panicked s' → s'.will = s.will ∧ s'.clientId = s.clientId ∧
      s'.connect = s.connect) := by
  rcases processOutgoing_cases s t f with ⟨h, _⟩ | ⟨st, m, st', _, _, ⟨u, _, h⟩ | ⟨_, h⟩⟩
  · rw [h]; exact ⟨fun _ _ h => by simp at h, fun _ h => by simp at h⟩
  · rw [h]
    refine ⟨fun s' p h => ?_, fun _ h => by simp at h⟩
    simp only [Session.Outgoing.packet.injEq] at h
    rw [← h.1]; exact ⟨rfl, rfl, rfl⟩
  · rw [h]
    refine ⟨fun _ _ h => by simp at h, fun s' h => ?_⟩
    simp only [Session.Outgoing.panicked.injEq] at h
    rw [← h]; exact ⟨rfl, rfl, rfl⟩

open Classical in
/-- The calls an event makes on the broker. -/
noncomputable def eventCalls (cfg : AuthConfig) (srv : Server) : Event → List Call
  | .first c p _ written =>
    match p with
    | .connect q => if Admitted cfg srv c q ∧ written = true then
        (srv.find q.payload.clientId q.flags.cleanStart).subscriptions.map Call.subscribe else []
    | _ => []
  | .recv c p =>
    match srv.at c with
    | none => []
    | some s => packetCalls c p ++
        (if (∃ d, p = .disconnect d) ∨ (srv.step cfg (.recv c p)).1.isOpen c then [] else willCalls c s)
  | .deliver _ _ => []
  | .close c => match srv.at c with
    | none => []
    | some s => willCalls c s
  | .abort _ => []
  | .restart => [.restart]

theorem log_start (srv : Server) (c : Nat) (p : ConnectPacket) (uuid : Str) (w : Bool) :
    (srv.start c p uuid w).1.world.log = srv.world.log ++
      if w = true then (srv.find p.payload.clientId p.flags.cleanStart).subscriptions.map Call.subscribe
      else [] := by
  have h3 := (enter_discard srv p).2.2.1
  cases w with
  | false => simp; exact h3
  | true =>
    simp only [if_true]
    exact (log_restoreSubscriptions _ _ _).trans (congrArg (· ++ _) h3)

theorem willCalls_congr {c : Nat} {s s' : Session} (h : s'.will = s.will) :
    willCalls c s' = willCalls c s := by simp [willCalls, h]

theorem step_log (cfg : AuthConfig) (srv : Server) (e : Event) :
    (srv.step cfg e).1.world.log = srv.world.log ++ eventCalls cfg srv e := by
  cases e with
  | first c p uuid w =>
    rcases step_first_cases cfg srv c p uuid w with ⟨h, hn⟩ | ⟨q, rfl, hq, h⟩
    · rw [h]
      cases p <;> simp [eventCalls]
      intro ha
      exact absurd ⟨_, rfl, ha⟩ hn
    · rw [h, log_start]
      cases w <;> simp [eventCalls, hq]
  | recv c p =>
    cases ha : srv.at c with
    | none =>
      rw [show srv.step cfg (.recv c p) = (srv, {}) by simp only [Server.step]; exact onConn_none ha _]
      simp [eventCalls, ha]
    | some s =>
      simp only [eventCalls, ha]
      by_cases hd : ∃ d, p = .disconnect d
      · obtain ⟨d, rfl⟩ := hd
        obtain ⟨k, hk, hs, e⟩ := step_disconnect (cfg := cfg) (d := d) ha
        rw [e]
        simp only [log_finish, log_mapStore]
        simp [willCalls, packetCalls]
      · obtain ⟨k, hk, hs, e⟩ := step_recv (cfg := cfg) (p := p) ha (fun d he => hd ⟨d, he⟩)
        rw [e]
        cases hr : (s.processIncoming srv.world cfg.manager c p).result with
        | error err =>
          simp only [log_finish, log_processIncoming]
          rw [if_neg, List.append_assoc, willCalls_congr (processIncoming_keeps _ _ _ _ _).1]
          rintro (h | h)
          · exact hd h
          · exact not_open_finish _ _ _ _ h
        | ok res =>
          simp only [log_mapStore, world_put, log_processIncoming]
          rw [if_pos]
          · simp
          · exact Or.inr ⟨k, hk⟩
  | deliver c f =>
    cases ha : srv.at c with
    | none =>
      rw [show srv.step cfg (.deliver c f) = (srv, {}) by simp only [Server.step]; exact onConn_none ha _]
      simp [eventCalls]
    | some s =>
      obtain ⟨k, hk, hs, e⟩ := onConn_at ha (fun r s => srv.deliver c r s f)
      have e' : srv.step cfg (.deliver c f) = srv.deliver c k.session s f := e
      rw [e', Server.deliver]
      cases s.processOutgoing srv.world.broker.tree f <;> simp [eventCalls]
  | close c =>
    cases ha : srv.at c with
    | none =>
      rw [show srv.step cfg (.close c) = (srv, {}) by simp only [Server.step]; exact onConn_none ha _]
      simp [eventCalls, ha]
    | some s =>
      obtain ⟨k, hk, hs, e⟩ := onConn_at ha (fun r s => (srv.finish c r s, {}))
      have e' : srv.step cfg (.close c) = (srv.finish c k.session s, {}) := e
      rw [e']
      simp [eventCalls, ha, log_finish]
  | abort c => simp [Server.step, eventCalls]
  | restart => rfl

/-! ## The broker as a function of the calls -/

/-- The topic tree after a call. -/
def Call.onTree (t : TopicTree Message) : Call → TopicTree Message
  | .publish _ topic m => TopicTree.publish t topic m
  | .subscribe f => (TopicTree.subscribe t f).1
  | .restart => TopicTree.new

theorem Call.publications_append (a b : List Call) :
    Call.publications (a ++ b) = Call.publications a ++ Call.publications b := by
  induction a with
  | nil => rfl
  | cons c a ih => cases c <;> simp [Call.publications, ih]

/-- The broker is the result of the recorded calls. -/
structure World.Faithful (w : World) : Prop where
  tree : w.broker.tree = w.log.foldl Call.onTree TopicTree.new
  retained : RetainedIs w.broker.store (Call.publications w.log)

theorem World.Faithful.publish {w : World} (h : w.Faithful) (src : Source) (t : Str) (m : Message) :
    (w.publish src t m).Faithful := by
  refine ⟨?_, ?_⟩
  · show TopicTree.publish w.broker.tree t m = (w.log ++ [Call.publish src t m]).foldl _ _
    rw [List.foldl_append, ← h.tree]; rfl
  · show RetainedIs (Broker.publishStore w.broker.store t m) _
    have := h.retained.publish t m
    simp only [World.publish, Call.publications_append]
    exact this

theorem World.Faithful.subscribe {w : World} (h : w.Faithful) (f : Str) :
    (w.subscribe f).1.Faithful := by
  refine ⟨?_, ?_⟩
  · show (TopicTree.subscribe w.broker.tree f).1 = (w.log ++ [Call.subscribe f]).foldl _ _
    rw [List.foldl_append, ← h.tree]; rfl
  · show RetainedIs w.broker.store (Call.publications (w.log ++ [Call.subscribe f]))
    rw [Call.publications_append]
    simpa [Call.publications] using h.retained

theorem World.Faithful.restart {w : World} (h : w.Faithful) : w.restart.Faithful := by
  refine ⟨?_, ?_⟩
  · show TopicTree.new = (w.log ++ [Call.restart]).foldl _ _
    rw [List.foldl_append]; rfl
  · have := h.retained
    simp only [World.restart, Call.publications_append]
    simpa [Call.publications] using this

/-- A change of the storage that leaves the retained messages alone. -/
theorem World.Faithful.mapStore {w : World} (h : w.Faithful) {g : MemoryStore → MemoryStore}
    (hg : ∀ s, (g s).retained = s.retained) : (w.mapStore g).Faithful :=
  ⟨h.tree, ⟨by show (g w.broker.store).retained.keys.Nodup; rw [hg]; exact h.retained.nodup,
    fun t => by
      show (g w.broker.store).retained.get t = _
      rw [hg]; exact h.retained.get t⟩⟩

theorem World.Faithful.restoreSubscriptions (fs : List Str) : ∀ (s : Session) {w : World},
    w.Faithful → (s.restoreSubscriptions w fs).2.Faithful := by
  induction fs with
  | nil => intro s w h; exact h
  | cons f fs ih => intro s w h; exact ih _ (h.subscribe f)

theorem World.Faithful.subscribeLoop (fs : List Str) : ∀ (s : Session) {w : World},
    w.Faithful → (s.subscribeLoop w fs).2.1.Faithful := by
  induction fs with
  | nil => intro s w h; exact h
  | cons f fs ih =>
    intro s w h
    by_cases hf : ValidFilter f
    · rw [subscribeLoop_cons_valid _ _ _ hf]; exact ih _ (h.subscribe f)
    · rw [subscribeLoop_cons_invalid _ _ _ hf]; exact ih _ h

theorem World.Faithful.processIncoming {w : World} (h : w.Faithful) (s : Session)
    (m : Option AuthManager) (c : Nat) (p : Packet) : (s.processIncoming w m c p).world.Faithful := by
  cases p with
  | publish p =>
    simp only [Session.processIncoming, Session.handlePublish]
    cases validatePublishTopic p.topicName with
    | error e => exact h
    | ok u => exact h.publish _ _ _
  | subscribe p => exact h.subscribeLoop _ s
  | auth p =>
    simp only [Session.processIncoming, Session.handleAuth]
    cases m <;> exact h
  | _ => exact h

theorem faithful_finish {srv : Server} (h : srv.world.Faithful) (c r : Nat) (s : Session) :
    (srv.finish c r s).world.Faithful := by
  unfold finish
  cases s.will with
  | none => exact h
  | some w =>
    exact (h.publish (.will c) w.topic (willMessage w)).mapStore
      (g := fun st => st.deleteWill s.clientId) fun _ => rfl

theorem retained_saveAfter (s : Session) (p : Packet) (st : MemoryStore) :
    (saveAfter s p st).retained = st.retained := by
  cases p <;> simp only [saveAfter] <;> try rfl
  all_goals
    simp only [MemoryStore.removeInflight]
    cases st.inflight.get s.clientId <;> rfl

theorem retained_saveOutgoing (s : Session) (p : PublishPacket) (st : MemoryStore) :
    (saveOutgoing s p st).retained = st.retained := by
  simp only [saveOutgoing]
  cases p.packetId with
  | none => rfl
  | some id => cases p.qos <;> rfl

theorem retained_saveStart (s : Session) (l : List Str) (st : MemoryStore) :
    (saveStart s l st).retained = st.retained := by
  simp only [saveStart]
  cases s.will <;> rfl

theorem faithful_discard_enter {srv : Server} (h : srv.world.Faithful) (p : ConnectPacket) :
    ((srv.discard p.payload.clientId p.flags.cleanStart).enter p).1.world.Faithful := by
  have h1 : (srv.discard p.payload.clientId p.flags.cleanStart).world.Faithful := by
    unfold Server.discard
    cases p.flags.cleanStart with
    | false => exact h
    | true =>
      exact h.mapStore (g := fun s => (s.deleteSession p.payload.clientId).deleteWill
        p.payload.clientId) fun _ => rfl
  generalize srv.discard p.payload.clientId p.flags.cleanStart = q at h1
  unfold enter
  cases q.sessions.get p.payload.clientId with
  | none => exact h1
  | some r =>
    cases hr : q.heap.get r with
    | none => simp only [hr]; exact h1
    | some s => simp only [hr]; exact h1

theorem faithful_step (cfg : AuthConfig) {srv : Server} (h : srv.world.Faithful) (e : Event) :
    (srv.step cfg e).1.world.Faithful := by
  cases e with
  | first c p uuid w =>
    rcases step_first_cases cfg srv c p uuid w with ⟨h', _⟩ | ⟨q, rfl, hq, h'⟩
    · rw [h']; exact h
    · rw [h']
      have h1 := faithful_discard_enter h q
      cases w with
      | false => exact h1
      | true => exact World.Faithful.restoreSubscriptions _ _ (h1.mapStore (retained_saveStart _ _))
  | recv c p =>
    cases ha : srv.at c with
    | none =>
      rw [show srv.step cfg (.recv c p) = (srv, {}) by simp only [Server.step]; exact onConn_none ha _]
      exact h
    | some s =>
      by_cases hd : ∃ d, p = .disconnect d
      · obtain ⟨d, rfl⟩ := hd
        obtain ⟨k, hk, hs, e⟩ := step_disconnect (cfg := cfg) (d := d) ha
        rw [e]
        exact faithful_finish (srv := srv.mapStore fun st => st.deleteWill s.clientId)
          (h.mapStore (g := fun st => st.deleteWill s.clientId) fun _ => rfl) _ _ _
      · obtain ⟨k, hk, hs, e⟩ := step_recv (cfg := cfg) (p := p) ha (fun d he => hd ⟨d, he⟩)
        rw [e]
        have hp := h.processIncoming s cfg.manager c p
        cases hr : (s.processIncoming srv.world cfg.manager c p).result with
        | error err => exact faithful_finish (srv := { srv with world := _ }) hp _ _ _
        | ok res => exact hp.mapStore (retained_saveAfter _ _)
  | deliver c f =>
    cases ha : srv.at c with
    | none =>
      rw [show srv.step cfg (.deliver c f) = (srv, {}) by simp only [Server.step]; exact onConn_none ha _]
      exact h
    | some s =>
      obtain ⟨k, hk, hs, e⟩ := onConn_at ha (fun r s => srv.deliver c r s f)
      have e' : srv.step cfg (.deliver c f) = srv.deliver c k.session s f := e
      rw [e', Server.deliver]
      cases s.processOutgoing srv.world.broker.tree f with
      | idle => exact h
      | packet s' p => exact h.mapStore (retained_saveOutgoing _ _)
      | panicked s' => exact h
  | close c =>
    cases ha : srv.at c with
    | none =>
      rw [show srv.step cfg (.close c) = (srv, {}) by simp only [Server.step]; exact onConn_none ha _]
      exact h
    | some s =>
      obtain ⟨k, hk, hs, e⟩ := onConn_at ha (fun r s => (srv.finish c r s, {}))
      have e' : srv.step cfg (.close c) = (srv.finish c k.session s, {}) := e
      rw [e']
      exact faithful_finish h _ _ _
  | abort c => exact h
  | restart => exact h.restart

theorem faithful_init : Server.init.world.Faithful := ⟨rfl, RetainedIs.new⟩

theorem Server.Reachable.faithful {cfg : AuthConfig} {srv : Server} (h : srv.Reachable cfg) :
    srv.world.Faithful :=
  h.induction (P := fun srv => srv.world.Faithful) faithful_init fun _ e h => faithful_step cfg h e

end Mercurio
