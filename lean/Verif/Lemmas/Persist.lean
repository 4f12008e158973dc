import Verif.Props.Inflight

/-!
# What events do to the table of sessions and to the stored sessions
-/

namespace Mercurio

open Spec Server

/-- An event on running connections: the table of sessions stays, no session changes its client
identifier, and the stored subscriptions change only by SUBSCRIBE and UNSUBSCRIBE, to the live ones. -/
structure Calm (cfg : AuthConfig) (srv : Server) (e : Event) : Prop where
  table : (srv.step cfg e).1.sessions = srv.sessions
  heap : ∀ r s', (srv.step cfg e).1.heap.get r = some s' → ∃ s, srv.heap.get r = some s ∧ s'.clientId = s.clientId
  stored : (srv.step cfg e).1.store.sessions = srv.store.sessions ∨
    ∃ c p s, e = .recv c p ∧ ((∃ x, p = .subscribe x) ∨ ∃ x, p = .unsubscribe x) ∧ srv.at c = some s ∧
      ∃ st, (srv.step cfg e).1.store.sessions = srv.store.sessions.insert s.clientId st

theorem stored_finish (srv : Server) (c r : Nat) (s : Session) :
    (srv.finish c r s).store.sessions = srv.store.sessions := by
  unfold finish
  cases s.will with
  | none => rfl
  | some w => exact sessions_publish _ _ _ _

theorem calm (cfg : AuthConfig) (srv : Server) {e : Event} (h1 : ∀ c p u w, e ≠ .first c p u w) (h2 : e ≠ .restart) :
    Calm cfg srv e := by
  have same : ∀ {e : Event}, srv.step cfg e = (srv, {}) → Calm cfg srv e := fun {e} he =>
    ⟨by rw [he], by rw [he]; exact fun r s' h => ⟨s', h, rfl⟩, Or.inl (by rw [he])⟩
  have keep : ∀ {r0 : Nat} {s0 s1 : Session} {srv' : Server}, srv.heap.get r0 = some s0 →
      srv'.heap = srv.heap.insert r0 s1 → s1.clientId = s0.clientId →
      ∀ r s', srv'.heap.get r = some s' → ∃ s, srv.heap.get r = some s ∧ s'.clientId = s.clientId := by
    intro r0 s0 s1 srv' h0 hh hc r s' hs
    rw [hh, Map.get_insert] at hs
    split at hs
    · rename_i hr; subst hr; cases hs; exact ⟨s0, h0, hc⟩
    · exact ⟨s', hs, rfl⟩
  cases e with
  | first c p u w => exact absurd rfl (h1 c p u w)
  | restart => exact absurd rfl h2
  | abort c => exact ⟨rfl, fun r s' h => ⟨s', h, rfl⟩, Or.inl rfl⟩
  | close c =>
    cases ha : srv.at c with
    | none => exact same (by simp only [Server.step]; exact onConn_none ha _)
    | some s =>
      obtain ⟨k, hk, hs, e⟩ := onConn_at ha (fun r s => (srv.finish c r s, {}))
      have e' : srv.step cfg (.close c) = (srv.finish c k.session s, {}) := e
      refine ⟨by rw [e', sessions_finish], ?_, Or.inl (by rw [e', stored_finish])⟩
      rw [e']
      exact keep hs (heap_finish _ _ _ _) rfl
  | deliver c f =>
    cases ha : srv.at c with
    | none => exact same (by simp only [Server.step]; exact onConn_none ha _)
    | some s =>
      obtain ⟨k, hk, hs, e⟩ := onConn_at ha (fun r s => srv.deliver c r s f)
      have e' : srv.step cfg (.deliver c f) = srv.deliver c k.session s f := e
      rcases processOutgoing_cases s srv.world.broker.tree f with
        ⟨h1, _⟩ | ⟨st, m, st', hst, hp, ⟨u, hn, h1⟩ | ⟨_, h1⟩⟩
      · exact same (by rw [e', Server.deliver, h1])
      · rw [Server.deliver, h1] at e'
        refine ⟨by rw [e']; rfl, ?_, Or.inl (by rw [e']; exact saveOutgoing_sessions _ _ _)⟩
        rw [e']
        exact keep hs rfl rfl
      · rw [Server.deliver, h1] at e'
        refine ⟨by rw [e']; rfl, ?_, Or.inl (by rw [e']; rfl)⟩
        rw [e']
        exact keep hs rfl rfl
  | recv c p =>
    cases ha : srv.at c with
    | none => exact same (by simp only [Server.step]; exact onConn_none ha _)
    | some s =>
      by_cases hd : ∃ d, p = .disconnect d
      · obtain ⟨d, rfl⟩ := hd
        obtain ⟨k, hk, hs, e⟩ := step_disconnect (cfg := cfg) (d := d) ha
        refine ⟨by rw [e, sessions_finish]; rfl, ?_, Or.inl (by rw [e, stored_finish]; rfl)⟩
        rw [e]
        exact keep hs (heap_finish _ _ _ _) rfl
      · obtain ⟨k, hk, hs, e⟩ := step_recv (cfg := cfg) (p := p) ha (fun d he => hd ⟨d, he⟩)
        have hst := processIncoming_sessions s srv.world cfg.manager c p
        have hname := (processIncoming_keeps s srv.world cfg.manager c p).2.1
        cases hr : (s.processIncoming srv.world cfg.manager c p).result with
        | error err =>
          rw [hr] at e
          refine ⟨by rw [e, sessions_finish], ?_, Or.inl (by rw [e, stored_finish]; exact hst)⟩
          rw [e]
          exact keep hs (heap_finish _ _ _ _) hname
        | ok res =>
          rw [hr] at e
          refine ⟨by rw [e]; rfl, ?_, ?_⟩
          · rw [e]; exact keep hs rfl hname
          · have hss : (srv.step cfg (.recv c p)).1.store.sessions =
                (saveAfter (s.processIncoming srv.world cfg.manager c p).session p
                  (s.processIncoming srv.world cfg.manager c p).world.broker.store).sessions := by rw [e]; rfl
            by_cases hp : (∃ x, p = .subscribe x) ∨ ∃ x, p = .unsubscribe x
            · right
              refine ⟨c, p, s, rfl, hp, ha,
                ⟨s.clientId, (s.processIncoming srv.world cfg.manager c p).session.filters, false⟩, ?_⟩
              rw [hss]
              rcases hp with ⟨x, rfl⟩ | ⟨x, rfl⟩ <;>
                simp only [saveAfter, MemoryStore.saveSession, stateOf, hst, hname] <;> rfl
            · left
              refine hss.trans (Eq.trans ?_ hst)
              cases p with
              | subscribe q => exact absurd (Or.inl ⟨q, rfl⟩) hp
              | unsubscribe q => exact absurd (Or.inr ⟨q, rfl⟩) hp
              | pubAck a => simp only [saveAfter, MemoryStore.removeInflight]; split <;> rfl
              | pubComp a => simp only [saveAfter, MemoryStore.removeInflight]; split <;> rfl
              | _ => rfl

theorem restoreSubscriptions_client (fs : List Str) : ∀ (s : Session) (w : World),
    (s.restoreSubscriptions w fs).1.clientId = s.clientId := by
  induction fs with
  | nil => intro s w; rfl
  | cons f fs ih => intro s w; exact ih _ _

theorem restoreSubscriptions_filters (fs : List Str) : ∀ (s : Session) (w : World) (f : Str),
    f ∈ (s.restoreSubscriptions w fs).1.filters ↔ f ∈ s.filters ∨ f ∈ fs := by
  induction fs with
  | nil => intro s w f; simp [Session.restoreSubscriptions]
  | cons g fs ih =>
    intro s w f
    show f ∈ ((s.addSubscription w g).1.restoreSubscriptions (s.addSubscription w g).2 fs).1.filters ↔ _
    rw [ih]
    have : f ∈ (s.addSubscription w g).1.filters ↔ f ∈ s.filters ∨ f = g := by
      simp only [Session.filters, Session.addSubscription]
      rw [← Map.get_isSome, ← Map.get_isSome, Map.get_insert]
      by_cases hg : g = f
      · simp [hg]
      · rw [if_neg hg]
        have : f ≠ g := fun h => hg h.symm
        simp [this]
    rw [this, List.mem_cons, or_assoc]

theorem restoreWill_client (s : Session) (w : Option StoredWill) : (restoreWill s w).clientId = s.clientId := by
  unfold restoreWill; cases w <;> rfl

theorem restoreWill_filters (s : Session) (w : Option StoredWill) : (restoreWill s w).filters = s.filters := by
  unfold restoreWill; cases w <;> rfl

theorem enter_tables (srv : Server) (p : ConnectPacket) :
    (srv.enter p).1.heap = srv.heap ∧ (srv.enter p).1.store = srv.store ∧
    (∀ key, key ≠ p.payload.clientId → (srv.enter p).1.sessions.get key = srv.sessions.get key) := by
  unfold enter
  have hn : ∀ key, key ≠ p.payload.clientId →
      (srv.sessions.insert p.payload.clientId srv.fresh).get key = srv.sessions.get key := by
    intro key hk
    rw [Map.get_insert, if_neg (fun h => hk h.symm)]
  cases srv.sessions.get p.payload.clientId with
  | none => exact ⟨rfl, rfl, hn⟩
  | some r =>
    cases hr : srv.heap.get r with
    | none => simp only [hr]; exact ⟨trivial, rfl, hn⟩
    | some s => simp [hr]

/-- What an admitted CONNECT does. -/
structure Began (srv srv' : Server) (c : Nat) (p : ConnectPacket) (uuid : Str) : Prop where
  table : ∀ key, key ≠ p.payload.clientId → (srv'.sessions.get key).isSome → (srv.sessions.get key).isSome
  heap : ∀ r s', srv'.heap.get r = some s' → s'.clientId = identity p uuid ∨ srv.heap.get r = some s'
  stored : ∀ cid, srv'.store.loadSession cid =
    if identity p uuid = cid then
      some ⟨cid, (srv.find p.payload.clientId p.flags.cleanStart).subscriptions, false⟩
    else if p.flags.cleanStart = true ∧ p.payload.clientId = cid then none
    else srv.store.loadSession cid

theorem began (srv : Server) (c : Nat) (p : ConnectPacket) (uuid : Str) :
    Began srv (srv.start c p uuid true).1 c p uuid := by
  have hd1 : (srv.discard p.payload.clientId p.flags.cleanStart).heap = srv.heap := by
    unfold Server.discard; split <;> rfl
  have hd2 : ∀ key, key ≠ p.payload.clientId →
      (srv.discard p.payload.clientId p.flags.cleanStart).sessions.get key = srv.sessions.get key := by
    intro key hk
    unfold Server.discard; split
    · show (srv.sessions.erase _).get key = _
      rw [Map.get_erase, if_neg (fun h => hk h.symm)]
    · rfl
  have hd3 : ∀ cid, (srv.discard p.payload.clientId p.flags.cleanStart).store.loadSession cid =
      if p.flags.cleanStart = true ∧ p.payload.clientId = cid then none else srv.store.loadSession cid := by
    intro cid
    unfold Server.discard
    by_cases hc : p.flags.cleanStart = true
    · rw [if_pos hc]
      show (srv.store.sessions.erase _).get cid = _
      rw [Map.get_erase]
      simp only [hc, true_and]
      rfl
    · rw [if_neg hc]; simp [hc]
  obtain ⟨e1, e2, e3⟩ := enter_tables (srv.discard p.payload.clientId p.flags.cleanStart) p
  obtain ⟨n1, n2, _⟩ := enter_session (srv.discard p.payload.clientId p.flags.cleanStart) p
  obtain ⟨_, b2, _⟩ := begin_eq _ uuid (srv.find p.payload.clientId p.flags.cleanStart).resume p n1 n2
  refine ⟨fun key hk h => ?_, fun r s' hs => ?_, fun cid => ?_⟩
  · have h' : (((srv.discard p.payload.clientId p.flags.cleanStart).enter p).1.sessions.get key).isSome := h
    rwa [e3 key hk, hd2 key hk] at h'
  · have hs' : ((((srv.discard p.payload.clientId p.flags.cleanStart).enter p).1.heap).insert _ _).get r = some s' := hs
    rw [Map.get_insert, e1, hd1] at hs'
    split at hs'
    · left; cases hs'
      rw [restoreWill_client, restoreSubscriptions_client, b2]
    · exact Or.inr hs'
  · have e : (srv.start c p uuid true).1.store = _ := restore_store _ _ _
    rw [e]
    show (saveStart _ _ _).loadSession cid = _
    have hload : ∀ (s : Session) (subs : List Str) (st : MemoryStore), (saveStart s subs st).loadSession cid =
        if s.clientId = cid then some ⟨s.clientId, subs, false⟩ else st.loadSession cid := by
      intro s subs st
      unfold saveStart
      cases s.will <;> simp [MemoryStore.loadSession, MemoryStore.saveSession, MemoryStore.storeWill, Map.get_insert, stateOf]
    rw [hload, b2]
    by_cases hi : identity p uuid = cid
    · rw [if_pos hi, if_pos hi, hi]
    · rw [if_neg hi, if_neg hi, ← hd3 cid]
      show ((srv.discard p.payload.clientId p.flags.cleanStart).enter p).1.store.loadSession cid = _
      rw [e2]

end Mercurio
