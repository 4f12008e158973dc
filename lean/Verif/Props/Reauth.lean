import Verif.Props.Auth
import Verif.Lemmas.Tame

/-!
# C48: a finished exchange cannot be continued
-/

namespace Mercurio

open Spec Server

/-- The event starts an AUTH exchange. -/
def Event.StartsExchange : Event → Prop
  | .recv _ (.auth p) => p.reason = .reAuthenticate
  | _ => False

theorem subscribeLoop_auth (fs : List Str) : ∀ (s : Session) (w : World),
    (s.subscribeLoop w fs).1.authMethod = s.authMethod := by
  induction fs with
  | nil => intro s w; rfl
  | cons f fs ih =>
    intro s w
    simp only [Session.subscribeLoop]
    cases validateSubscribeFilter f with
    | error e => exact ih s w
    | ok u => exact ih _ _

theorem restoreSubscriptions_auth (fs : List Str) : ∀ (s : Session) (w : World),
    (s.restoreSubscriptions w fs).1.authMethod = s.authMethod := by
  induction fs with
  | nil => intro s w; rfl
  | cons f fs ih => intro s w; exact ih _ _

/-- Only the start of an exchange puts a session into one. -/
theorem processIncoming_auth {s : Session} (hs : s.authMethod = none) (w : World) (m : Option AuthManager)
    (c : Nat) {p : Packet} (hp : ∀ a, p = .auth a → a.reason ≠ .reAuthenticate) :
    (s.processIncoming w m c p).session.authMethod = none := by
  cases p with
  | publish p =>
    simp only [Session.processIncoming, Session.handlePublish]
    cases validatePublishTopic p.topicName with
    | error e => exact hs
    | ok u =>
      simp only [Session.notePublish]
      cases p.qos <;> cases p.packetId <;> exact hs
  | subscribe p => exact (subscribeLoop_auth _ _ _).trans hs
  | auth p =>
    have := hp p rfl
    simp only [Session.processIncoming, Session.handleAuth]
    cases m with
    | none => exact hs
    | some m => cases hr : p.reason <;> simp_all [Session.authContinue]
  | _ => exact hs

theorem finish_auth {srv : Server} {c r r' : Nat} {s s' : Session} (hs : s.authMethod = none)
    (ho : ∀ s, srv.heap.get r' = some s → s.authMethod = none)
    (h : (srv.finish c r s).heap.get r' = some s') : s'.authMethod = none := by
  simp only [finish] at h
  cases hw : s.will with
  | none =>
    simp only [hw, put, Map.get_insert] at h
    split at h
    · cases h; exact hs
    · exact ho _ h
  | some w =>
    simp only [hw, put, mapStore, Map.get_insert] at h
    split at h
    · cases h; exact hs
    · exact ho _ h

/-- A session that is in no exchange stays so. -/
theorem step_auth (cfg : AuthConfig) (srv : Server) {e : Event} (he : ¬ e.StartsExchange) {r : Nat}
    (ho : ∀ s, srv.heap.get r = some s → s.authMethod = none) {s' : Session}
    (h : (srv.step cfg e).1.heap.get r = some s') : s'.authMethod = none := by
  have on : ∀ c (f : Nat → Session → Server × Out),
      (∀ k s, srv.heap.get k = some s → (k = r → s.authMethod = none) →
        (f k s).1.heap.get r = some s' → s'.authMethod = none) →
      (srv.onConn c f).1.heap.get r = some s' → s'.authMethod = none := by
    intro c f hf h
    unfold onConn at h
    cases hk : srv.conns.get c with
    | none => simp only [hk] at h; exact ho _ h
    | some k =>
      simp only [hk] at h
      cases hh : srv.heap.get k.session with
      | none => simp only [hh] at h; exact ho _ h
      | some s =>
        simp only [hh] at h
        exact hf _ _ hh (fun e => ho _ (e ▸ hh)) h
  have fin : ∀ (srv' : Server) c k s, srv'.heap = srv.heap → (k = r → s.authMethod = none) →
      (srv'.finish c k s).heap.get r = some s' → s'.authMethod = none := by
    intro srv' c k s hh hs h
    by_cases hk : k = r
    · exact finish_auth (hs hk) (by rw [hh]; exact ho) h
    · rw [heap_finish, Map.get_insert, if_neg hk, hh] at h
      exact ho _ h
  have upd : ∀ (k : Nat) (s : Session), (k = r → s.authMethod = none) →
      (srv.heap.insert k s).get r = some s' → s'.authMethod = none := by
    intro k s hs h
    rw [Map.get_insert] at h
    split at h
    next hk => cases h; exact hs hk
    next => exact ho _ h
  cases e with
  | first c p uuid w =>
    rcases step_first_cases cfg srv c p uuid w with ⟨e, _⟩ | ⟨q, rfl, _, e⟩
    · rw [e] at h; exact ho _ h
    · rw [e] at h
      obtain ⟨h1, h2, h3, h4, h5⟩ := enter_discard srv q
      have hb : ∀ x, ((srv.discard q.payload.clientId q.flags.cleanStart).enter q).2.1 = r →
          (((srv.discard q.payload.clientId q.flags.cleanStart).enter q).2.2.begin uuid x).1.authMethod =
            none := by
        intro x hr
        have : ∀ s : Session, (s.begin uuid x).1.authMethod = s.authMethod := by
          intro s; unfold Session.begin; split <;> rfl
        rw [this]
        rcases h5 with ⟨_, _, ⟨s, hs, e2⟩, _⟩ | ⟨_, _, e2, _⟩
        · rw [e2]; exact ho s (hr ▸ hs)
        · rw [e2]; rfl
      cases w with
      | false =>
        have h' : (((srv.discard q.payload.clientId q.flags.cleanStart).enter q).1.heap.insert _ _).get r =
          some s' := h
        rw [h1] at h'
        exact upd _ _ (hb _) h'
      | true =>
        have h' : (((srv.discard q.payload.clientId q.flags.cleanStart).enter q).1.heap.insert _ _).get r =
          some s' := h
        rw [h1] at h'
        refine upd _ _ (fun hr => ?_) h'
        have : ∀ (s : Session) x, (restoreWill s x).authMethod = s.authMethod := by
          intro s x; cases x <;> rfl
        rw [this, restoreSubscriptions_auth]
        exact hb _ hr
  | recv c p =>
    refine on c _ ?_ h
    intro k s hk hs h
    by_cases hd : ∃ d, p = .disconnect d
    · obtain ⟨d, rfl⟩ := hd
      exact fin (srv.mapStore fun st => st.deleteWill s.clientId) c k { s with will := none } rfl
        (fun e => hs e) h
    · have hp : ∀ a, p = .auth a → a.reason ≠ .reAuthenticate := by
        rintro a rfl h'; exact he h'
      have hpi : k = r → (s.processIncoming srv.world cfg.manager c p).session.authMethod = none :=
        fun e => processIncoming_auth (hs e) _ _ _ hp
      have e : srv.recv cfg c k s p = (match (s.processIncoming srv.world cfg.manager c p).result with
        | .error _ => ({ srv with world := (s.processIncoming srv.world cfg.manager c p).world }.finish
            c k (s.processIncoming srv.world cfg.manager c p).session, {})
        | .ok res => ((({ srv with world := (s.processIncoming srv.world cfg.manager c p).world }).mapStore
            (saveAfter (s.processIncoming srv.world cfg.manager c p).session p)).put k
              (s.processIncoming srv.world cfg.manager c p).session, { sent := res.toList })) := by
        unfold recv
        cases p <;> first | rfl | exact absurd ⟨_, rfl⟩ hd
      rw [e] at h
      cases hr : (s.processIncoming srv.world cfg.manager c p).result with
      | error _ =>
        simp only [hr] at h
        exact fin { srv with world := (s.processIncoming srv.world cfg.manager c p).world } _ _ _ rfl hpi h
      | ok res => simp only [hr] at h; exact upd _ _ hpi h
  | deliver c f =>
    refine on c _ ?_ h
    intro k s hk hs h
    rcases processOutgoing_cases s srv.world.broker.tree f with ⟨e, _⟩ | ⟨st, m, st', _, _, ⟨u, _, e⟩ | ⟨_, e⟩⟩
    · simp only [Server.deliver, e] at h; exact ho _ h
    · simp only [Server.deliver, e] at h
      refine upd k _ ?_ h
      exact hs
    · simp only [Server.deliver, e] at h
      refine upd k _ ?_ h
      exact hs
  | close c =>
    refine on c _ ?_ h
    intro k s hk hs h
    exact fin _ _ _ _ rfl (fun e => hs e) h
  | abort c => exact ho _ h
  | restart => simp [step, Map.get] at h

theorem run_auth (cfg : AuthConfig) (es : List Event) (r : Nat) : ∀ srv : Server,
    (∀ e ∈ es, ¬ e.StartsExchange) → (∀ s, srv.heap.get r = some s → s.authMethod = none) →
    ∀ s', (srv.run cfg es).heap.get r = some s' → s'.authMethod = none := by
  induction es with
  | nil => intro srv _ h; exact h
  | cons e es ih =>
    intro srv he h
    exact ih _ (fun x hx => he x (List.mem_cons_of_mem _ hx))
      (fun s' h' => step_auth cfg srv (he e List.mem_cons_self) h h')

/-- A connection keeps its session as long as it lasts. -/
theorem run_conn (cfg : AuthConfig) (es : List Event) (c : Nat) (k : Conn) : ∀ srv : Server,
    (∀ p u w, Event.first c p u w ∉ es) → (srv.conns.get c = some k ∨ srv.conns.get c = none) →
    (srv.run cfg es).conns.get c = some k ∨ (srv.run cfg es).conns.get c = none := by
  induction es with
  | nil => intro srv _ h; exact h
  | cons e es ih =>
    intro srv he h
    refine ih _ (fun p u w hx => he p u w (List.mem_cons_of_mem _ hx)) ?_
    by_cases hl : e.conn = some c
    · have loc : LocalTo c e → (srv.step cfg e).1.conns.get c = some k ∨
          (srv.step cfg e).1.conns.get c = none := by
        intro hl
        rcases (step_local cfg srv hl).conns with e' | e'
        · rw [e']; exact h
        · rw [e', Map.get_erase, if_pos rfl]; exact Or.inr rfl
      cases e with
      | first d p u w =>
        cases hl
        exact absurd List.mem_cons_self (he p u w)
      | recv d p => cases hl; exact loc (.recv p)
      | deliver d f => cases hl; exact loc (.deliver f)
      | close d => cases hl; exact loc .close
      | abort d =>
        cases hl
        refine Or.inr ?_
        show (srv.conns.erase c).get c = none
        rw [Map.get_erase, if_pos rfl]
      | restart => exact Or.inr rfl
    · cases hc : e.conn with
      | none =>
        cases e with
        | restart => exact Or.inr rfl
        | _ => cases hc
      | some d =>
        rw [conns_other cfg srv hc (fun h => hl (by rw [hc, h]))]
        exact h

/-- C48, "cannot be replayed": once an exchange was answered with success, a continuation is refused:
it ends the connection without an answer, whatever happened in between on this and other connections,
unless somebody started a new exchange. -/
theorem C48_no_replay (cfg : AuthConfig) (srv : Server) (hr : srv.Reachable cfg) (c : Nat)
    (p a : AuthPacket) (ha : .auth a ∈ (srv.step cfg (.recv c (.auth p))).2.sent)
    (hs : a.reason = .success) (es : List Event) (hes : ∀ e ∈ es, ¬ e.StartsExchange)
    (hf : ∀ q u w, Event.first c q u w ∉ es) (q : AuthPacket) (hq : q.reason = .continueAuthentication) :
    let r := ((srv.step cfg (.recv c (.auth p))).1.run cfg es).step cfg (.recv c (.auth q))
    ¬ r.1.isOpen c ∧ r.2.sent = [] := by
  intro r
  have hi : Inv ((srv.step cfg (.recv c (.auth p))).1.run cfg es) := by
    obtain ⟨es0, rfl⟩ := hr
    refine Reachable.inv (cfg := cfg) ⟨es0 ++ (.recv c (.auth p) :: es), ?_⟩
    rw [run_append]; rfl
  cases hat : srv.at c with
  | none =>
    have : srv.step cfg (.recv c (.auth p)) = (srv, {}) := onConn_none hat fun r s => srv.recv cfg c r s (.auth p)
    rw [this] at ha
    simp at ha
  | some s =>
    obtain ⟨k, hk, hh, e⟩ := step_recv (cfg := cfg) (p := .auth p) hat (by simp)
    have key : (s.processIncoming srv.world cfg.manager c (.auth p)).session.authMethod = none ∧
        ∃ res, (s.processIncoming srv.world cfg.manager c (.auth p)).result = .ok res := by
      rw [e] at ha
      simp only [Session.processIncoming, Session.handleAuth] at ha ⊢
      cases hm : cfg.manager with
      | none => simp [hm] at ha
      | some mgr =>
        simp only [hm] at ha ⊢
        cases hr : p.reason <;> simp only [hr] at ha ⊢ <;> try simp at ha
        · revert ha
          simp only [Session.authContinue]
          cases s.authMethod with
          | none => simp
          | some name =>
            cases p.properties.authData with
            | none => simp
            | some d =>
              simp only
              cases mgr.continueAuth name d <;> simp [Session.authChallenge]
              rintro rfl; simp at hs
        · revert ha
          simp only [Session.authStart]
          cases p.properties.authMethod with
          | none => simp
          | some name =>
            simp only
            cases mgr.supportsMethod name with
            | false => simp
            | true =>
              simp only [if_true]
              cases mgr.startAuth name p.properties.authData <;> simp [Session.authChallenge]
              rintro rfl; simp at hs
    obtain ⟨hn, res, hres⟩ := key
    rw [hres] at e
    have hheap : ∀ s', ((srv.step cfg (.recv c (.auth p))).1).heap.get k.session = some s' →
        s'.authMethod = none := by
      intro s' h'
      rw [e] at h'
      simp only [put, mapStore, Map.get_insert, if_true] at h'
      cases h'; exact hn
    have hconn : ((srv.step cfg (.recv c (.auth p))).1).conns.get c = some k := by rw [e]; exact hk
    have h1 := run_auth cfg es k.session _ hes hheap
    have h2 := run_conn cfg es c k _ hf (Or.inl hconn)
    cases hat' : ((srv.step cfg (.recv c (.auth p))).1.run cfg es).at c with
    | none =>
      have e' : r = (((srv.step cfg (.recv c (.auth p))).1.run cfg es), {}) :=
        onConn_none hat' fun r s => recv cfg _ c r s (.auth q)
      rw [e']
      refine ⟨?_, rfl⟩
      rintro ⟨k', hk'⟩
      rcases h2 with h2 | h2
      · obtain ⟨_, s, hs⟩ := hi.conns c k h2
        simp [Server.at, h2, hs] at hat'
      · rw [h2] at hk'; cases hk'
    | some s' =>
      refine C48_refused cfg _ c s' hat' q (.inr (.inr (.inr (.inl ⟨hq, .inl ?_⟩))))
      obtain ⟨k', hk', hh'⟩ := at_eq_some.mp hat'
      rcases h2 with h2 | h2
      · rw [h2] at hk'; cases hk'
        exact h1 _ hh'
      · rw [h2] at hk'; cases hk'

/-- A server with the method of `challengeMethod` and a client that has gone through an exchange. -/
example : let cfg : AuthConfig := ⟨false, none, some ⟨[(str "C", challengeMethod)]⟩⟩
    let srv := (exServer.step cfg (.recv 0 (.auth ⟨.reAuthenticate, { authMethod := some (str "C") }⟩))).1
    let p : AuthPacket := ⟨.continueAuthentication, { authData := some (str "ok") }⟩
    .auth { reason := .success } ∈ (srv.step cfg (.recv 0 (.auth p))).2.sent ∧
    ((srv.step cfg (.recv 0 (.auth p))).1.step cfg (.recv 0 (.auth p))).2.sent = [] := by decide +kernel

end Mercurio
