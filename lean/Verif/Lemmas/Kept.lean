import Verif.Lemmas.Delivery
import Verif.Spec.Kept

/-!
# Following a subscription of a session that is kept
-/

namespace Mercurio

open Spec Server

theorem worksFor_iff {srv : Server} {c : Nat} {cid : Str} : srv.worksFor c cid = true ↔
    ∃ k, srv.conns.get c = some k ∧ srv.sessions.get cid = some k.session := by
  unfold Server.worksFor
  cases srv.conns.get c with
  | none => simp
  | some k =>
    cases srv.sessions.get cid with
    | none => simp
    | some r =>
      simp only [beq_iff_eq, Option.some.injEq]
      exact ⟨fun h => ⟨k, rfl, h.symm⟩, fun ⟨k', h, h'⟩ => by rw [h]; exact h'.symm⟩

/-- The session kept for an identifier stays the same one. -/
theorem step_kept_session (cfg : AuthConfig) {srv : Server} (hi : Inv srv) {cid : Str} {e : Event}
    (hk : KeepsSession cid e) {r : Nat} (h : srv.sessions.get cid = some r) :
    (srv.step cfg e).1.sessions.get cid = some r := by
  cases e with
  | first c p uuid w =>
    rcases step_first_cases cfg srv c p uuid w with ⟨h', _⟩ | ⟨q, rfl, _, h'⟩
    · rw [h']; exact h
    · rw [h']
      obtain ⟨r', hr⟩ := start_effect srv c q uuid w
      obtain ⟨e1, e2, e3, e4, e5⟩ := enter_discard srv q
      rcases hr.table with ⟨_, _, _, a, _⟩ | ⟨a, b, d⟩
      · rw [a]; exact h
      · by_cases hq : q.payload.clientId = cid
        · exfalso
          have hcl := hk.resumes c q uuid w rfl hq
          have : (srv.start c q uuid w).1.fresh = srv.fresh := by
            have hd : srv.discard q.payload.clientId q.flags.cleanStart = srv := by rw [hcl]; rfl
            obtain ⟨s, hs⟩ := (hi.table _ _ h).2
            have he : srv.enter q = (srv, r, s.setConnect q) := by
              unfold enter; rw [hq, h]; simp only [hs]
            cases w with
            | false =>
              show ((srv.discard q.payload.clientId q.flags.cleanStart).enter q).1.fresh = _
              rw [hd, he]
            | true =>
              show ((srv.discard q.payload.clientId q.flags.cleanStart).enter q).1.fresh = _
              rw [hd, he]
          omega
        · rw [d, if_neg hq]; exact h
  | recv c p => rw [(step_local cfg srv (.recv p)).sessions]; exact h
  | deliver c f => rw [(step_local cfg srv (.deliver f)).sessions]; exact h
  | close c => rw [(step_local cfg srv .close).sessions]; exact h
  | abort c => exact h
  | restart => exact absurd rfl hk.running

/-- An event of a connection that does not work on the session leaves it alone. -/
theorem local_apart {srv srv' : Server} {c : Nat} {cid : Str} (he : LocalEffect srv srv' c)
    {r : Nat} (hr : srv.sessions.get cid = some r) (hc : srv.worksFor c cid = false) :
    srv'.heap.get r = srv.heap.get r := by
  rcases he.heap with e | ⟨k', s1, s2, hk', hh', e⟩
  · rw [e]
  · rw [e, Map.get_insert, if_neg]
    intro hkk
    have : srv.worksFor c cid = true := worksFor_iff.mpr ⟨k', hk', by rw [hr, hkk]⟩
    rw [this] at hc; simp at hc

/-- What an event does to a subscription of a kept session. -/
theorem step_kept {cfg : AuthConfig} {srv : Server} (hi : Inv srv) {cid f : Str} {e : Event}
    (hc : KeepsSubscription cfg srv cid f e) {r : Nat} {s : Session} {st : SubStream}
    (hr : srv.sessions.get cid = some r) (hs : srv.heap.get r = some s)
    (hf : s.subscriptions.get f = some st) :
    ∃ s' st', (srv.step cfg e).1.sessions.get cid = some r ∧
      (srv.step cfg e).1.heap.get r = some s' ∧ s'.subscriptions.get f = some st' ∧
      ((srv.sentFor cfg cid f e = [] ∧ st' = st) ∨
       (∃ c, e = .deliver c f ∧ ∃ m, st.poll srv.world.broker.tree = some (m, st') ∧
          (srv.sentFor cfg cid f e = [.publish (Session.outgoingPacket f m)] ∨
           (srv.sentFor cfg cid f e = [] ∧ (srv.step cfg e).2.panicked = true)))) := by
  have hr' := step_kept_session cfg hi hc.keeps hr
  cases e with
  | first c' p uuid w =>
    rcases step_first_cases cfg srv c' p uuid w with ⟨h', _⟩ | ⟨q, rfl, hq, h'⟩
    · exact ⟨s, st, hr', by rw [h']; exact hs, hf, Or.inl ⟨rfl, rfl⟩⟩
    · rw [h'] at hr' ⊢
      obtain ⟨s', h1, h2⟩ := start_streams hi c' q uuid w (hi.table _ _ hr).1 hs
      exact ⟨s', st, hr', h1, by rw [h2]; exact hf, Or.inl ⟨rfl, rfl⟩⟩
  | recv c' p =>
    cases hw : srv.worksFor c' cid with
    | false =>
      exact ⟨s, st, hr', by rw [local_apart (step_local cfg srv (.recv p)) hr hw]; exact hs, hf,
        Or.inl ⟨rfl, rfl⟩⟩
    | true =>
      obtain ⟨k, hk, hkr⟩ := worksFor_iff.mp hw
      rw [hr] at hkr
      simp only [Option.some.injEq] at hkr
      subst hkr
      have hat : srv.at c' = some s := at_eq_some.mpr ⟨k, hk, hs⟩
      by_cases hd : ∃ d, p = .disconnect d
      · obtain ⟨d, rfl⟩ := hd
        obtain ⟨k', hk', _, e⟩ := step_disconnect (cfg := cfg) (d := d) hat
        rw [hk] at hk'; cases hk'
        rw [e] at hr' ⊢
        exact ⟨{ s with will := none }, st, hr',
          by rw [heap_finish]; exact (Map.get_insert _ _ _ _).trans (if_pos rfl), hf, Or.inl ⟨rfl, rfl⟩⟩
      · obtain ⟨k', hk', hh', e⟩ := step_recv (cfg := cfg) (p := p) hat (fun d he => hd ⟨d, he⟩)
        rw [hk] at hk'; cases hk'
        have hsub : (s.processIncoming srv.world cfg.manager c' p).session.subscriptions.get f = some st := by
          by_cases h1 : ∃ q, p = .subscribe q
          · obtain ⟨q, rfl⟩ := h1
            refine ((subscribeLoop_get (q.payload.map (·.topicFilter)) s srv.world f).2 ?_).trans hf
            exact fun h => hc.sub c' q hw rfl h.1
          by_cases h2 : ∃ q, p = .unsubscribe q
          · obtain ⟨q, rfl⟩ := h2
            refine ((unsubscribeLoop_eq q.payload s.subscriptions).2 f).trans ?_
            rw [if_neg (hc.unsub c' q hw rfl)]; exact hf
          · rw [processIncoming_subscriptions s srv.world cfg.manager c' p (fun q e => h1 ⟨q, e⟩)
              (fun q e => h2 ⟨q, e⟩)]
            exact hf
        rw [e] at hr' ⊢
        cases hres : (s.processIncoming srv.world cfg.manager c' p).result with
        | error err =>
          rw [hres] at hr'
          exact ⟨{ (s.processIncoming srv.world cfg.manager c' p).session with will := none }, st, hr',
            by rw [heap_finish]; exact (Map.get_insert _ _ _ _).trans (if_pos rfl), hsub,
            Or.inl ⟨rfl, rfl⟩⟩
        | ok res =>
          rw [hres] at hr'
          exact ⟨_, st, hr', (Map.get_insert _ _ _ _).trans (if_pos rfl), hsub, Or.inl ⟨rfl, rfl⟩⟩
  | deliver c' g =>
    cases hw : srv.worksFor c' cid with
    | false =>
      exact ⟨s, st, hr', by rw [local_apart (step_local cfg srv (.deliver g)) hr hw]; exact hs, hf,
        Or.inl ⟨by simp [Server.sentFor, hw], rfl⟩⟩
    | true =>
      obtain ⟨k, hk, hkr⟩ := worksFor_iff.mp hw
      rw [hr] at hkr
      simp only [Option.some.injEq] at hkr
      subst hkr
      have hat : srv.at c' = some s := at_eq_some.mpr ⟨k, hk, hs⟩
      obtain ⟨k', hk', hh', e⟩ := onConn_at hat (fun r s => srv.deliver c' r s g)
      rw [hk] at hk'; cases hk'
      have e' : srv.step cfg (.deliver c' g) = srv.deliver c' k.session s g := e
      simp only [Server.sentFor, hw, true_and]
      rw [e'] at hr' ⊢
      unfold Server.deliver at hr' ⊢
      rcases processOutgoing_cases s srv.world.broker.tree g with
        ⟨h1, h2⟩ | ⟨st1, m, st2, hst, hp, ⟨u, _, h1⟩ | ⟨_, h1⟩⟩
      · rw [h1]
        exact ⟨s, st, hr, hs, hf, Or.inl ⟨by simp, rfl⟩⟩
      · rw [h1]
        by_cases hg : g = f
        · subst hg
          rw [hst] at hf; simp only [Option.some.injEq] at hf; subst hf
          exact ⟨_, st2, hr, (Map.get_insert _ _ _ _).trans (if_pos rfl),
            (Map.get_insert _ _ _ _).trans (if_pos rfl), Or.inr ⟨c', rfl, m, hp, Or.inl (by simp)⟩⟩
        · exact ⟨_, st, hr, (Map.get_insert _ _ _ _).trans (if_pos rfl),
            ((Map.get_insert _ _ _ _).trans (if_neg hg)).trans hf, Or.inl ⟨by simp [hg], rfl⟩⟩
      · rw [h1]
        by_cases hg : g = f
        · subst hg
          rw [hst] at hf; simp only [Option.some.injEq] at hf; subst hf
          exact ⟨_, st2, hr, (Map.get_insert _ _ _ _).trans (if_pos rfl),
            (Map.get_insert _ _ _ _).trans (if_pos rfl), Or.inr ⟨c', rfl, m, hp, Or.inr (by simp)⟩⟩
        · exact ⟨_, st, hr, (Map.get_insert _ _ _ _).trans (if_pos rfl),
            ((Map.get_insert _ _ _ _).trans (if_neg hg)).trans hf, Or.inl ⟨by simp, rfl⟩⟩
  | close c' =>
    cases hw : srv.worksFor c' cid with
    | false =>
      exact ⟨s, st, hr', by rw [local_apart (step_local cfg srv .close) hr hw]; exact hs, hf,
        Or.inl ⟨rfl, rfl⟩⟩
    | true =>
      obtain ⟨k, hk, hkr⟩ := worksFor_iff.mp hw
      rw [hr] at hkr
      simp only [Option.some.injEq] at hkr
      subst hkr
      have hat : srv.at c' = some s := at_eq_some.mpr ⟨k, hk, hs⟩
      obtain ⟨k', hk', _, e⟩ := onConn_at hat (fun r s => (srv.finish c' r s, {}))
      rw [hk] at hk'; cases hk'
      have e' : srv.step cfg (.close c') = (srv.finish c' k.session s, {}) := e
      rw [e'] at hr' ⊢
      exact ⟨{ s with will := none }, st, hr',
        by rw [heap_finish]; exact (Map.get_insert _ _ _ _).trans (if_pos rfl), hf, Or.inl ⟨rfl, rfl⟩⟩
  | abort c' => exact ⟨s, st, hr, hs, hf, Or.inl ⟨rfl, rfl⟩⟩
  | restart => exact absurd rfl hc.keeps.running

end Mercurio
