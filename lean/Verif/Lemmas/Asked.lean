import Verif.Props.Alone
import Verif.Props.System

/-!
# Histories of a server in which a client starts clean and has its identifier to itself
-/

namespace Mercurio

open Spec Server

theorem mem_packetsOf_first {d : Nat} {q : Packet} {u : Str} {w : Bool} {es : List Event}
    (h : Event.first d q u w ∈ es) : q ∈ packetsOf d es := by
  unfold packetsOf
  exact List.mem_filterMap.mpr ⟨_, h, by simp⟩

/-- The session of a client that started clean has no subscriptions but those the client asked for. -/
theorem solo_asked (cfg : AuthConfig) {c : Nat} {id : Str} {v : ProtocolVersion} (es : List Event)
    (h : Solo c id v es) (hcl : ∀ q u w, Event.first c (.connect q) u w ∈ es → q.flags.cleanStart = true)
    (hone : ∀ q, Packet.connect q ∉ (packetsOf c es).tail) {s : Session}
    (hs : (Server.run cfg Server.init es).at c = some s) (f : Str) (hsub : (s.subscriptions.get f).isSome) :
    subscribedBy f (packetsOf c es) := by
  induction es using snoc_induction generalizing s with
  | h0 => simp [Server.run, Server.init, Server.at, Map.get] at hs
  | hs l e ih =>
    rw [run_snoc] at hs
    have hi : Inv (Server.run cfg Server.init l) := (show Server.Reachable cfg _ from ⟨l, rfl⟩).inv
    rw [packetsOf_snoc] at hone ⊢
    have hone' : ∀ q, Packet.connect q ∉ (packetsOf c l).tail := by
      intro q hq
      refine hone q ?_
      cases hl : packetsOf c l with
      | nil => rw [hl] at hq; cases hq
      | cons x xs => rw [hl] at hq; exact List.mem_append_left _ hq
    have ih := @ih h.init (fun q u w hm => hcl q u w (List.mem_append_left _ hm)) hone'
    have sub : ∀ f, subscribedBy f (packetsOf c l ++ packetsOf c [e]) =
        (packetsOf c [e]).foldl (subStep f) (subscribedBy f (packetsOf c l)) := by
      intro f; unfold subscribedBy; rw [List.foldl_append]
    rw [sub]
    have first : (Server.run cfg Server.init l).isOpen c → packetsOf c l ≠ [] := by
      rintro ⟨k, hk⟩ hn
      obtain ⟨p, u, w, h1, _⟩ := conns_from cfg l c k hk
      have := mem_packetsOf_first h1
      rw [hn] at this; cases this
    generalize hsrv : Server.run cfg Server.init l = srv at *
    by_cases hec : ∃ d, e.conn = some d ∧ d ≠ c
    · obtain ⟨d, hd, hne⟩ := hec
      rw [packetsOf_other hd (Ne.symm hne)]
      have ho : srv.isOpen c := by
        obtain ⟨k, hk⟩ := isOpen_of_at hs
        rw [conns_other cfg srv hd (Ne.symm hne)] at hk
        exact ⟨k, hk⟩
      rw [at_apart cfg hi hd (Ne.symm hne) (by rw [← hsrv] at ho ⊢; exact h.init.mine ho)
        (by rw [← hsrv]; exact h.init.apart l hne)
        (fun p u w he hid => (h.others d p u w hne (by simp [he]) hid).1)] at hs
      exact ih hs hsub
    · have closed : ∀ srv' : Server, ¬ srv'.isOpen c → srv'.at c ≠ some s :=
        fun srv' hn ha => hn (isOpen_of_at ha)
      cases e with
      | first d p u w =>
        exfalso
        have hdc : d = c := Classical.byContradiction fun hne => hec ⟨d, rfl, hne⟩
        subst hdc
        obtain ⟨q, rfl, _, hv⟩ := h.own p u w (by simp)
        have hpk : packetsOf d [Event.first d (.connect q) u w] = [.connect q] := by simp [packetsOf]
        rw [hpk] at hone
        have hn : packetsOf d l = [] := by
          cases hl : packetsOf d l with
          | nil => rfl
          | cons x xs => exact absurd (by rw [hl]; simp) (hone q)
        have hno : ¬ srv.isOpen d := fun ho => first ho hn
        rcases step_first_cases cfg srv d (.connect q) u w with ⟨h', _⟩ | ⟨q', hq', ha, h'⟩
        · rw [h'] at hs; exact hno (isOpen_of_at hs)
        · cases hq'
          rw [h'] at hs
          cases w with
          | false =>
            obtain ⟨r, hr⟩ := start_effect srv d q u false
            obtain ⟨k, hk⟩ := isOpen_of_at hs
            rw [hr.conns] at hk
            exact hno ⟨k, hk⟩
          | true =>
            obtain ⟨_, a2, a3, _⟩ := Tasks.start_clean (srv := srv) (c := d) (uuid := u) (hcl q u true (by simp))
            simp only [Server.at, a2, a3, Map.get_insert, if_true, Option.bind_some, Option.some.injEq] at hs
            subst hs
            rw [begin_subscriptions] at hsub
            simp [Session.new, Map.get] at hsub
      | recv d p =>
        have hdc : d = c := Classical.byContradiction fun hne => hec ⟨d, rfl, hne⟩
        subst hdc
        have hpk : packetsOf d [Event.recv d p] = [p] := by simp [packetsOf]
        rw [hpk] at hone ⊢
        cases ha : srv.at d with
        | none =>
          rw [show srv.step cfg (.recv d p) = (srv, {}) by simp only [Server.step]; exact onConn_none ha _] at hs
          rw [ha] at hs; cases hs
        | some s0 =>
          by_cases hd : ∃ x, p = .disconnect x
          · obtain ⟨x, rfl⟩ := hd
            obtain ⟨k, hk, hh, e⟩ := step_disconnect (cfg := cfg) (d := x) ha
            rw [e] at hs
            exact absurd hs (closed _ (not_open_finish _ _ _ _))
          · obtain ⟨k, hk, hh, e⟩ := step_recv (cfg := cfg) (p := p) ha (fun x hx => hd ⟨x, hx⟩)
            rw [e] at hs
            cases hr : (s0.processIncoming srv.world cfg.manager d p).result with
            | error er =>
              simp only [hr] at hs
              exact absurd hs (closed _ (not_open_finish _ _ _ _))
            | ok res =>
              simp only [hr] at hs
              rw [at_put_same (by exact hk)] at hs
              cases hs
              have i2 := ih ha
              by_cases h1 : ∃ q, p = .subscribe q
              · obtain ⟨q, rfl⟩ := h1
                obtain ⟨g1, g2⟩ := subscribeLoop_get (q.payload.map (·.topicFilter)) s0 srv.world f
                by_cases hm : f ∈ q.payload.map (·.topicFilter)
                · exact Or.inr hm
                · have e2 := g2 (fun hx => hm hx.1)
                  have hsub : ((s0.subscribeLoop srv.world (q.payload.map (·.topicFilter))).1.subscriptions.get f).isSome := hsub
                  rw [e2] at hsub
                  exact Or.inl (i2 hsub)
              by_cases h2 : ∃ q, p = .unsubscribe q
              · obtain ⟨q, rfl⟩ := h2
                have e2 := (unsubscribeLoop_eq q.payload s0.subscriptions).2 f
                have hsub : ((Session.unsubscribeLoop s0.subscriptions q.payload).1.get f).isSome := hsub
                rw [e2] at hsub
                by_cases hm : f ∈ q.payload
                · rw [if_pos hm] at hsub; cases hsub
                · rw [if_neg hm] at hsub
                  exact ⟨i2 hsub, hm⟩
              · rw [processIncoming_subscriptions s0 srv.world cfg.manager d p (fun q e => h1 ⟨q, e⟩)
                  (fun q e => h2 ⟨q, e⟩)] at hsub
                have hb := i2 hsub
                cases p with
                | connect q =>
                  exfalso
                  cases hl : packetsOf d l with
                  | nil => exact first (isOpen_of_at ha) hl
                  | cons x xs => exact hone q (by rw [hl]; simp)
                | subscribe q => exact absurd ⟨q, rfl⟩ h1
                | unsubscribe q => exact absurd ⟨q, rfl⟩ h2
                | _ => exact hb
      | deliver d g =>
        have hdc : d = c := Classical.byContradiction fun hne => hec ⟨d, rfl, hne⟩
        subst hdc
        have hpk : packetsOf d [Event.deliver d g] = [] := by simp [packetsOf]
        rw [hpk]
        cases ha : srv.at d with
        | none =>
          rw [show srv.step cfg (.deliver d g) = (srv, {}) by simp only [Server.step]; exact onConn_none ha _] at hs
          rw [ha] at hs; cases hs
        | some s0 =>
          obtain ⟨k, hk, hh, e⟩ := onConn_at ha (fun r s => srv.deliver d r s g)
          have e' : srv.step cfg (.deliver d g) = srv.deliver d k.session s0 g := e
          rw [e'] at hs
          have i2 := ih ha
          unfold Server.deliver at hs
          rcases processOutgoing_cases s0 srv.world.broker.tree g with
            ⟨h1, h2⟩ | ⟨st1, m, st2, hst, hp, ⟨u, _, h1⟩ | ⟨_, h1⟩⟩
          · rw [h1] at hs
            simp only [ha, Option.some.injEq] at hs
            subst hs
            exact i2 hsub
          · rw [h1] at hs
            simp only at hs
            rw [at_put_same (by exact hk)] at hs
            cases hs
            simp only [Map.get_insert] at hsub
            split at hsub
            · rename_i hg
              subst hg
              exact i2 (by rw [hst]; rfl)
            · exact i2 hsub
          · rw [h1] at hs
            exact absurd hs (closed _ (by rintro ⟨k, hk⟩; simp [Map.get_erase] at hk))
      | close d =>
        have hdc : d = c := Classical.byContradiction fun hne => hec ⟨d, rfl, hne⟩
        subst hdc
        exfalso
        cases ha : srv.at d with
        | none =>
          rw [show srv.step cfg (.close d) = (srv, {}) by simp only [Server.step]; exact onConn_none ha _] at hs
          rw [ha] at hs; cases hs
        | some s0 =>
          obtain ⟨k, hk, hh, e⟩ := onConn_at ha (fun r s => (srv.finish d r s, ({} : Out)))
          have e' : srv.step cfg (.close d) = (srv.finish d k.session s0, {}) := e
          rw [e'] at hs
          exact absurd hs (closed _ (not_open_finish _ _ _ _))
      | abort d =>
        have hdc : d = c := Classical.byContradiction fun hne => hec ⟨d, rfl, hne⟩
        subst hdc
        exact absurd hs (closed _ (by rintro ⟨k, hk⟩; simp [Server.step, Map.get_erase] at hk))
      | restart =>
        exact absurd hs (closed _ (by rintro ⟨k, hk⟩; simp [Server.step, Map.get] at hk))

end Mercurio
