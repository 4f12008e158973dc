import Verif.Props.Session

/-!
# Lemmas about histories of the server
-/

namespace Mercurio

open Spec Server

namespace Server

theorem run_nil (cfg : AuthConfig) (srv : Server) : srv.run cfg [] = srv := rfl

theorem run_cons (cfg : AuthConfig) (srv : Server) (e : Event) (es : List Event) :
    srv.run cfg (e :: es) = (srv.step cfg e).1.run cfg es := rfl

theorem run_append (cfg : AuthConfig) (srv : Server) (a b : List Event) :
    srv.run cfg (a ++ b) = (srv.run cfg a).run cfg b := by
  simp [Server.run, List.foldl_append]

theorem run_snoc (cfg : AuthConfig) (srv : Server) (es : List Event) (e : Event) :
    srv.run cfg (es ++ [e]) = ((srv.run cfg es).step cfg e).1 := by
  rw [run_append]; rfl

/-- Proof by induction over the history. -/
theorem Reachable.induction {cfg : AuthConfig} {P : Server → Prop} (h0 : P init)
    (hs : ∀ srv e, P srv → P (srv.step cfg e).1) {srv : Server} (h : srv.Reachable cfg) : P srv := by
  obtain ⟨es, rfl⟩ := h
  induction es using snoc_induction with
  | h0 => exact h0
  | hs l a ih => rw [run_snoc]; exact hs _ _ ih

theorem heap_finish (srv : Server) (c r : Nat) (s : Session) :
    (srv.finish c r s).heap = srv.heap.insert r { s with will := none } := by
  unfold finish
  cases h : s.will with
  | none => simp only [heap_put]; rw [← h]
  | some w => rfl

/-- The events of a connection that is already open. -/
inductive LocalTo (c : Nat) : Event → Prop
  | recv (p) : LocalTo c (.recv c p)
  | deliver (f) : LocalTo c (.deliver c f)
  | close : LocalTo c (.close c)

/-- What such an event leaves alone. -/
structure LocalEffect (srv srv' : Server) (c : Nat) : Prop where
  sessions : srv'.sessions = srv.sessions
  fresh : srv'.fresh = srv.fresh
  conns : srv'.conns = srv.conns ∨ srv'.conns = srv.conns.erase c
  heap : srv'.heap = srv.heap ∨ ∃ k s s', srv.conns.get c = some k ∧
    srv.heap.get k.session = some s ∧ srv'.heap = srv.heap.insert k.session s'

theorem LocalEffect.refl (srv : Server) (c : Nat) : LocalEffect srv srv c :=
  ⟨rfl, rfl, Or.inl rfl, Or.inl rfl⟩

theorem finish_local {srv srv' : Server} {c : Nat} {k : Conn} {s s' : Session}
    (hk : srv.conns.get c = some k) (hs : srv.heap.get k.session = some s)
    (h1 : srv'.sessions = srv.sessions) (h2 : srv'.fresh = srv.fresh)
    (h3 : srv'.conns = srv.conns) (h4 : srv'.heap = srv.heap) :
    LocalEffect srv (srv'.finish c k.session s') c :=
  ⟨by rw [sessions_finish, h1], by rw [fresh_finish, h2], Or.inr (by rw [conns_finish, h3]),
    Or.inr ⟨k, s, _, hk, hs, by rw [heap_finish, h4]⟩⟩

theorem step_local (cfg : AuthConfig) (srv : Server) {c : Nat} {e : Event} (he : LocalTo c e) :
    LocalEffect srv (srv.step cfg e).1 c := by
  cases ha : srv.at c with
  | none =>
    have : srv.step cfg e = (srv, {}) := by
      cases he <;> simp only [Server.step] <;> exact onConn_none ha _
    rw [this]; exact .refl _ _
  | some s =>
    cases he with
    | recv p =>
      by_cases hd : ∃ d, p = .disconnect d
      · obtain ⟨d, rfl⟩ := hd
        obtain ⟨k, hk, hs, e⟩ := step_disconnect (cfg := cfg) (d := d) ha
        rw [e]
        exact finish_local (srv' := srv.mapStore fun st => st.deleteWill s.clientId)
          (s' := { s with will := none }) hk hs rfl rfl rfl rfl
      · obtain ⟨k, hk, hs, e⟩ := step_recv (cfg := cfg) (p := p) ha (fun d he => hd ⟨d, he⟩)
        rw [e]
        cases (s.processIncoming srv.world cfg.manager c p).result with
        | error err =>
          exact finish_local (srv' := { srv with
            world := (s.processIncoming srv.world cfg.manager c p).world }) hk hs rfl rfl rfl rfl
        | ok res => exact ⟨rfl, rfl, Or.inl rfl, Or.inr ⟨k, s, _, hk, hs, rfl⟩⟩
    | deliver f =>
      obtain ⟨k, hk, hs, e⟩ := onConn_at ha (fun r s => srv.deliver c r s f)
      have e' : srv.step cfg (.deliver c f) = srv.deliver c k.session s f := e
      rw [e', Server.deliver]
      cases s.processOutgoing srv.world.broker.tree f with
      | idle => exact .refl _ _
      | packet s' p => exact ⟨rfl, rfl, Or.inl rfl, Or.inr ⟨k, s, _, hk, hs, rfl⟩⟩
      | panicked s' => exact ⟨rfl, rfl, Or.inr rfl, Or.inr ⟨k, s, _, hk, hs, rfl⟩⟩
    | close =>
      obtain ⟨k, hk, hs, e⟩ := onConn_at ha (fun r s => (srv.finish c r s, {}))
      have e' : srv.step cfg (.close c) = (srv.finish c k.session s, {}) := e
      rw [e']
      exact finish_local hk hs rfl rfl rfl rfl

/-- What opening a connection does to the tables. -/
structure StartEffect (srv srv' : Server) (c : Nat) (p : ConnectPacket) (written : Bool) (r : Nat) :
    Prop where
  heap : ∃ s', srv'.heap = srv.heap.insert r s'
  table : (p.flags.cleanStart = false ∧ srv.sessions.get p.payload.clientId = some r ∧
      (∃ s, srv.heap.get r = some s) ∧ srv'.sessions = srv.sessions ∧ srv'.fresh = srv.fresh) ∨
    (r = srv.fresh ∧ srv'.fresh = srv.fresh + 1 ∧
      ∀ key, srv'.sessions.get key =
        if p.payload.clientId = key then some r else srv.sessions.get key)
  conns : srv'.conns = if written then srv.conns.insert c ⟨r, p.payload.clientId⟩ else srv.conns

theorem enter_discard (srv : Server) (p : ConnectPacket) :
    let e := (srv.discard p.payload.clientId p.flags.cleanStart).enter p
    e.1.heap = srv.heap ∧ e.1.conns = srv.conns ∧
    e.1.world.log = srv.world.log ∧ e.1.world.broker.tree = srv.world.broker.tree ∧
    ((p.flags.cleanStart = false ∧ srv.sessions.get p.payload.clientId = some e.2.1 ∧
      (∃ s, srv.heap.get e.2.1 = some s ∧ e.2.2 = s.setConnect p) ∧ e.1.sessions = srv.sessions ∧
      e.1.fresh = srv.fresh) ∨
    (e.2.1 = srv.fresh ∧ e.1.fresh = srv.fresh + 1 ∧ e.2.2 = Session.new p ∧
      ∀ key, e.1.sessions.get key =
        if p.payload.clientId = key then some e.2.1 else srv.sessions.get key)) := by
  have aux : ∀ q : Server, (q.enter p = (q, (q.enter p).2) ∧
      q.sessions.get p.payload.clientId = some (q.enter p).2.1 ∧
      ∃ s, q.heap.get (q.enter p).2.1 = some s ∧ (q.enter p).2.2 = s.setConnect p) ∨
      q.enter p = ({ q with fresh := q.fresh + 1
                            sessions := q.sessions.insert p.payload.clientId q.fresh },
        q.fresh, Session.new p) := by
    intro q
    unfold enter
    cases h : q.sessions.get p.payload.clientId with
    | none => exact Or.inr rfl
    | some r =>
      cases hr : q.heap.get r with
      | none => simp only [hr]; exact Or.inr trivial
      | some s => simp only [hr]; exact Or.inl ⟨trivial, trivial, s, rfl, rfl⟩
  cases hc : p.flags.cleanStart with
  | false =>
    have hd : srv.discard p.payload.clientId false = srv := rfl
    rw [hd]
    rcases aux srv with ⟨h1, h2, s, h3, h4⟩ | h
    · have h1' : (srv.enter p).1 = srv := by rw [h1]
      simp only [h1']
      exact ⟨trivial, trivial, trivial, trivial, Or.inl ⟨trivial, h2, ⟨s, h3, h4⟩, trivial, trivial⟩⟩
    · rw [h]
      refine ⟨rfl, rfl, rfl, rfl, Or.inr ⟨rfl, rfl, rfl, fun key => ?_⟩⟩
      exact Map.get_insert _ _ _ _
  | true =>
    rcases aux (srv.discard p.payload.clientId true) with ⟨h1, h2, _⟩ | h
    · rw [discard_clean_get] at h2; simp at h2
    · rw [h]
      refine ⟨rfl, rfl, rfl, rfl, Or.inr ⟨rfl, rfl, rfl, fun key => ?_⟩⟩
      show ((srv.sessions.erase p.payload.clientId).insert p.payload.clientId srv.fresh).get key = _
      rw [Map.get_insert, Map.get_erase]
      by_cases hk : p.payload.clientId = key <;> simp [hk] <;> rfl

theorem start_effect (srv : Server) (c : Nat) (p : ConnectPacket) (uuid : Str) (written : Bool) :
    ∃ r, StartEffect srv (srv.start c p uuid written).1 c p written r := by
  obtain ⟨h1, h2, h3, h4, h5⟩ := enter_discard srv p
  refine ⟨((srv.discard p.payload.clientId p.flags.cleanStart).enter p).2.1, ?_⟩
  have key : ∀ srv' : Server, srv'.sessions =
      ((srv.discard p.payload.clientId p.flags.cleanStart).enter p).1.sessions →
      srv'.fresh = ((srv.discard p.payload.clientId p.flags.cleanStart).enter p).1.fresh →
      (∃ s', srv'.heap = srv.heap.insert
        ((srv.discard p.payload.clientId p.flags.cleanStart).enter p).2.1 s') →
      (srv'.conns = if written then srv.conns.insert c
        ⟨((srv.discard p.payload.clientId p.flags.cleanStart).enter p).2.1, p.payload.clientId⟩
        else srv.conns) →
      StartEffect srv srv' c p written
        ((srv.discard p.payload.clientId p.flags.cleanStart).enter p).2.1 := by
    intro srv' a b d e
    refine ⟨d, ?_, e⟩
    rw [a, b]
    rcases h5 with ⟨x1, x2, ⟨s, x3, _⟩, x4, x5⟩ | ⟨x1, x2, _, x3⟩
    · exact Or.inl ⟨x1, x2, ⟨s, x3⟩, x4, x5⟩
    · exact Or.inr ⟨x1, x2, x3⟩
  cases written with
  | false =>
    apply key
    · rfl
    · rfl
    · rw [← h1]; exact ⟨_, rfl⟩
    · exact h2
  | true =>
    apply key
    · rfl
    · rfl
    · rw [← h1]; exact ⟨_, rfl⟩
    · exact congrArg (fun h => Map.insert h _ _) h2

/-- The step of the first packet of a connection: nothing, a refusal, or a session. -/
theorem step_first_cases (cfg : AuthConfig) (srv : Server) (c : Nat) (p : Packet) (uuid : Str)
    (w : Bool) : ((srv.step cfg (.first c p uuid w)).1 = srv ∧
        ¬ ∃ q, p = .connect q ∧ Admitted cfg srv c q) ∨
      ∃ q, p = .connect q ∧ Admitted cfg srv c q ∧
        srv.step cfg (.first c p uuid w) = srv.start c q uuid w := by
  by_cases hc : ∃ q, p = .connect q
  · obtain ⟨q, rfl⟩ := hc
    by_cases ha : Admitted cfg srv c q
    · exact Or.inr ⟨q, rfl, ha, step_first ha⟩
    · left
      refine ⟨?_, by rintro ⟨q', h, h'⟩; cases h; exact ha h'⟩
      by_cases ho : srv.isOpen c
      · obtain ⟨k, hk⟩ := ho
        simp [Server.step, hk]
      · have : cfg.requireAuth = true ∧ ¬ ∃ u pw v, q.payload.userName = some u ∧
            q.payload.password = some pw ∧ cfg.validator = some v ∧ v u pw = true := by
          refine ⟨?_, fun h => ha ⟨ho, fun _ => h⟩⟩
          cases hr : cfg.requireAuth with
          | true => rfl
          | false => exact absurd ⟨ho, fun h => by simp [hr] at h⟩ ha
        rw [C47_refused cfg srv c q uuid w ho this.1 this.2]
  · left
    refine ⟨?_, fun ⟨q, h, _⟩ => hc ⟨q, h⟩⟩
    rw [C46_first_packet cfg srv c p uuid w (fun x h => hc ⟨x, h⟩)]

/-- The tables of sessions and connections of a reachable server fit together. -/
structure Inv (srv : Server) : Prop where
  table : ∀ key r, srv.sessions.get key = some r → r < srv.fresh ∧ ∃ s, srv.heap.get r = some s
  conns : ∀ c k, srv.conns.get c = some k → k.session < srv.fresh ∧
    ∃ s, srv.heap.get k.session = some s
  inj : ∀ k1 k2 r, srv.sessions.get k1 = some r → srv.sessions.get k2 = some r → k1 = k2
  keyed : ∀ c k key, srv.conns.get c = some k → srv.sessions.get key = some k.session → k.key = key
  shared : ∀ c1 c2 k1 k2, srv.conns.get c1 = some k1 → srv.conns.get c2 = some k2 →
    k1.session = k2.session → k1.key = k2.key

theorem Inv.init : Inv init :=
  ⟨by simp [Server.init, Map.get], by simp [Server.init, Map.get], by simp [Server.init, Map.get],
    by simp [Server.init, Map.get], by simp [Server.init, Map.get]⟩

theorem Inv.erase {srv srv' : Server} (h : Inv srv) (h1 : srv'.sessions = srv.sessions)
    (h2 : srv'.fresh = srv.fresh)
    (h3 : ∀ c k, srv'.conns.get c = some k → srv.conns.get c = some k)
    (h4 : ∀ r s, srv.heap.get r = some s → ∃ s', srv'.heap.get r = some s') : Inv srv' := by
  refine ⟨fun key r hk => ?_, fun c k hk => ?_, ?_, fun c k key a b => ?_, fun c1 c2 k1 k2 a b => ?_⟩
  · rw [h1] at hk; rw [h2]
    obtain ⟨a, s, b⟩ := h.table key r hk
    exact ⟨a, h4 _ _ b⟩
  · rw [h2]
    obtain ⟨a, s, b⟩ := h.conns c k (h3 _ _ hk)
    exact ⟨a, h4 _ _ b⟩
  · rw [h1]; exact h.inj
  · rw [h1] at b; exact h.keyed c k key (h3 _ _ a) b
  · exact h.shared c1 c2 k1 k2 (h3 _ _ a) (h3 _ _ b)

theorem get_insert_some {V : Type} (m : Map Nat V) (r r' : Nat) (v s : V) (h : m.get r' = some s) :
    ∃ s', (m.insert r v).get r' = some s' := by
  rw [Map.get_insert]; split
  · exact ⟨_, rfl⟩
  · exact ⟨_, h⟩

theorem get_erase_some {V : Type} (m : Map Nat V) (r r' : Nat) (s : V)
    (h : (m.erase r).get r' = some s) : m.get r' = some s := by
  rw [Map.get_erase] at h; split at h
  · simp at h
  · exact h

theorem Inv.local {srv srv' : Server} {c : Nat} (h : Inv srv) (he : LocalEffect srv srv' c) :
    Inv srv' := by
  refine h.erase he.sessions he.fresh (fun c' k hk => ?_) (fun r s hr => ?_)
  · rcases he.conns with e | e
    · rw [e] at hk; exact hk
    · rw [e] at hk; exact get_erase_some _ _ _ _ hk
  · rcases he.heap with e | ⟨k, s0, s1, _, _, e⟩
    · rw [e]; exact ⟨s, hr⟩
    · rw [e]; exact get_insert_some _ _ _ _ _ hr

theorem Inv.start {srv srv' : Server} {c : Nat} {p : ConnectPacket} {w : Bool} {r : Nat}
    (h : Inv srv) (he : StartEffect srv srv' c p w r) : Inv srv' := by
  obtain ⟨⟨s', hheap⟩, htab, hconns⟩ := he
  have hr : r < srv'.fresh ∧ srv.fresh ≤ srv'.fresh := by
    rcases htab with ⟨_, a, _, _, b⟩ | ⟨a, b, _⟩
    · rw [b]; exact ⟨(h.table _ _ a).1, Nat.le_refl _⟩
    · omega
  have hheap' : ∀ x s, srv.heap.get x = some s → ∃ s', srv'.heap.get x = some s' := by
    intro x s hx; rw [hheap]; exact get_insert_some _ _ _ _ _ hx
  have hself : ∃ s, srv'.heap.get r = some s := by
    rw [hheap, Map.get_insert, if_pos rfl]; exact ⟨_, rfl⟩
  have htab' : ∀ key x, srv'.sessions.get key = some x →
      (x = r ∧ key = p.payload.clientId) ∨ (srv.sessions.get key = some x ∧ x ≠ r) := by
    intro key x hx
    rcases htab with ⟨_, a, _, b, _⟩ | ⟨a, b, d⟩
    · rw [b] at hx
      by_cases hxr : x = r
      · subst hxr; exact Or.inl ⟨rfl, h.inj _ _ _ hx a⟩
      · exact Or.inr ⟨hx, hxr⟩
    · rw [d] at hx
      by_cases hk : p.payload.clientId = key
      · rw [if_pos hk] at hx; simp at hx; exact Or.inl ⟨hx.symm, hk.symm⟩
      · rw [if_neg hk] at hx
        refine Or.inr ⟨hx, ?_⟩
        have := (h.table _ _ hx).1
        omega
  have hcon : ∀ c' k, srv'.conns.get c' = some k →
      k = ⟨r, p.payload.clientId⟩ ∨ srv.conns.get c' = some k := by
    intro c' k hk
    rw [hconns] at hk
    cases w with
    | false => exact Or.inr hk
    | true =>
      simp only [if_true, Map.get_insert] at hk
      split at hk
      · simp at hk; exact Or.inl hk.symm
      · exact Or.inr hk
  -- an old connection on `r` has the same key
  have hold : ∀ c' k, srv.conns.get c' = some k → k.session = r → k.key = p.payload.clientId := by
    intro c' k hk hkr
    rcases htab with ⟨_, a, _, _, _⟩ | ⟨a, _, _⟩
    · exact h.keyed _ _ _ hk (by rw [hkr]; exact a)
    · have := (h.conns _ _ hk).1; omega
  refine ⟨fun key x hx => ?_, fun c' k hk => ?_, fun k1 k2 x a b => ?_, fun c' k key a b => ?_,
    fun c1 c2 k1 k2 a b d => ?_⟩
  · rcases htab' key x hx with ⟨rfl, _⟩ | ⟨hx, _⟩
    · exact ⟨hr.1, hself⟩
    · obtain ⟨a, s, b⟩ := h.table _ _ hx
      exact ⟨by omega, hheap' _ _ b⟩
  · rcases hcon c' k hk with rfl | hk
    · exact ⟨hr.1, hself⟩
    · obtain ⟨a, s, b⟩ := h.conns _ _ hk
      exact ⟨by omega, hheap' _ _ b⟩
  · rcases htab' k1 x a with ⟨rfl, e1⟩ | ⟨a, n1⟩
    · rcases htab' k2 x b with ⟨_, e2⟩ | ⟨_, n2⟩
      · rw [e1, e2]
      · exact absurd rfl n2
    · rcases htab' k2 x b with ⟨rfl, e2⟩ | ⟨b, n2⟩
      · exact absurd rfl n1
      · exact h.inj _ _ _ a b
  · rcases htab' key k.session b with ⟨e1, e2⟩ | ⟨b, n⟩
    · rcases hcon c' k a with rfl | a
      · exact e2.symm
      · rw [hold c' k a e1, e2]
    · rcases hcon c' k a with rfl | a
      · exact absurd rfl n
      · exact h.keyed _ _ _ a b
  · rcases hcon c1 k1 a with rfl | a
    · rcases hcon c2 k2 b with rfl | b
      · rfl
      · exact (hold c2 k2 b d.symm).symm
    · rcases hcon c2 k2 b with rfl | b
      · exact hold c1 k1 a d
      · exact h.shared _ _ _ _ a b d

theorem Inv.step (cfg : AuthConfig) {srv : Server} (h : Inv srv) (e : Event) :
    Inv (srv.step cfg e).1 := by
  cases e with
  | first c p uuid w =>
    rcases step_first_cases cfg srv c p uuid w with ⟨h', _⟩ | ⟨q, _, _, h'⟩
    · rw [h']; exact h
    · rw [h']
      obtain ⟨r, hr⟩ := start_effect srv c q uuid w
      exact h.start hr
  | recv c p => exact h.local (step_local cfg srv (.recv p))
  | deliver c f => exact h.local (step_local cfg srv (.deliver f))
  | close c => exact h.local (step_local cfg srv .close)
  | abort c =>
    exact h.erase rfl rfl (fun _ _ hk => get_erase_some _ _ _ _ hk) (fun r s hr => ⟨s, hr⟩)
  | restart =>
    exact ⟨by simp [Server.step, Map.get], by simp [Server.step, Map.get],
      by simp [Server.step, Map.get], by simp [Server.step, Map.get], by simp [Server.step, Map.get]⟩

theorem Reachable.inv {cfg : AuthConfig} {srv : Server} (h : srv.Reachable cfg) : Inv srv :=
  h.induction Inv.init fun _ e h => h.step cfg e

end Server

end Mercurio
