import Verif.Lemmas.ServerLog

/-!
# C35, C42, C45–C47: histories of the server

Statements about every history (list of events) of the server, with any number of connections
interleaved in any order.
-/

namespace Mercurio

open Spec Server

/-! ## C46, C47: open connections -/

/-- What is known about an open connection: it was opened by a CONNECT, with valid credentials if
those are required, and its identifier is the one in that CONNECT. -/
theorem open_of_connect (cfg : AuthConfig) (es : List Event) (c : Nat) (k : Conn)
    (h : (Server.init.run cfg es).conns.get c = some k) :
    ∃ p uuid, .first c (.connect p) uuid true ∈ es ∧ p.payload.clientId = k.key ∧
      (cfg.requireAuth = true → ∃ u pw v, p.payload.userName = some u ∧
        p.payload.password = some pw ∧ cfg.validator = some v ∧ v u pw = true) := by
  induction es using snoc_induction generalizing k with
  | h0 => simp [Server.run, Server.init, Map.get] at h
  | hs l e ih =>
    have lift : ∀ k', (Server.init.run cfg l).conns.get c = some k' → k' = k →
        ∃ p uuid, .first c (.connect p) uuid true ∈ l ++ [e] ∧ p.payload.clientId = k.key ∧
        (cfg.requireAuth = true → ∃ u pw v, p.payload.userName = some u ∧
          p.payload.password = some pw ∧ cfg.validator = some v ∧ v u pw = true) := by
      rintro k' hk rfl
      obtain ⟨p, uuid, h1, h2⟩ := ih _ hk
      exact ⟨p, uuid, List.mem_append_left _ h1, h2⟩
    rw [run_snoc] at h
    have loc : ∀ c', LocalTo c' e → ∃ p uuid, .first c (.connect p) uuid true ∈ l ++ [e] ∧
        p.payload.clientId = k.key ∧
        (cfg.requireAuth = true → ∃ u pw v, p.payload.userName = some u ∧
          p.payload.password = some pw ∧ cfg.validator = some v ∧ v u pw = true) := by
      intro c' he
      rcases (step_local cfg (Server.init.run cfg l) he).conns with e1 | e1
      · rw [e1] at h; exact lift k h rfl
      · rw [e1] at h; exact lift k (get_erase_some _ _ _ _ h) rfl
    cases e with
    | first c' p uuid w =>
      rcases step_first_cases cfg (Server.init.run cfg l) c' p uuid w with ⟨h', _⟩ | ⟨q, rfl, hq, h'⟩
      · rw [h'] at h; exact lift k h rfl
      · rw [h'] at h
        obtain ⟨r, hr⟩ := start_effect (Server.init.run cfg l) c' q uuid w
        rw [hr.conns] at h
        cases w with
        | false => exact lift k h rfl
        | true =>
          simp only [if_true, Map.get_insert] at h
          by_cases hc : c' = c
          · subst hc
            simp only [if_true, Option.some.injEq] at h
            exact ⟨q, uuid, by simp, by rw [← h], hq.2⟩
          · rw [if_neg hc] at h; exact lift k h rfl
    | recv c' p => exact loc c' (.recv p)
    | deliver c' f => exact loc c' (.deliver f)
    | close c' => exact loc c' .close
    | abort c' => exact lift k (get_erase_some _ _ _ _ h) rfl
    | restart => simp [Server.step, Map.get] at h

/-- In every history, a connection that is open got a CONNECT as its first packet whose CONNACK was
written. -/
theorem C46_open_connections (cfg : AuthConfig) (es : List Event) (c : Nat)
    (h : (Server.init.run cfg es).isOpen c) :
    ∃ p uuid, .first c (.connect p) uuid true ∈ es := by
  obtain ⟨k, hk⟩ := h
  obtain ⟨p, uuid, h1, _⟩ := open_of_connect cfg es c k hk
  exact ⟨p, uuid, h1⟩

/-- In every history of a server that requires authentication, a connection that is open presented
credentials that the configured validator accepts. -/
theorem C47_open_connections (cfg : AuthConfig) (hr : cfg.requireAuth = true) (es : List Event)
    (c : Nat) (h : (Server.init.run cfg es).isOpen c) :
    ∃ p uuid u pw v, .first c (.connect p) uuid true ∈ es ∧ p.payload.userName = some u ∧
      p.payload.password = some pw ∧ cfg.validator = some v ∧ v u pw = true := by
  obtain ⟨k, hk⟩ := h
  obtain ⟨p, uuid, h1, _, h2⟩ := open_of_connect cfg es c k hk
  obtain ⟨u, pw, v, h3, h4, h5, h6⟩ := h2 hr
  exact ⟨p, uuid, u, pw, v, h1, h3, h4, h5, h6⟩

example : exServer.isOpen 0 := by
  obtain ⟨s, hs⟩ := exServer_at
  obtain ⟨k, hk, _⟩ := at_eq_some.mp hs
  exact ⟨k, hk⟩

/-! ## C35: what reaches the broker -/

/-- In every history, every publication that a client brought to the broker comes from a PUBLISH
packet on a connection that was open at that moment, its topic is a legal topic name, and the message
carries the packet's fields. -/
theorem C35_publications (cfg : AuthConfig) (es : List Event) (c : Nat) (t : Str) (m : Message)
    (h : .publish (.client c) t m ∈ (Server.init.run cfg es).world.log) :
    ValidTopic t ∧ ∃ es1 es2 p, es = es1 ++ .recv c (.publish p) :: es2 ∧
      (Server.init.run cfg es1).isOpen c ∧ p.topicName = t ∧
      m = ⟨p.packetId, t, p.dup, p.qos, p.retain, p.payload⟩ := by
  induction es using snoc_induction with
  | h0 => simp [Server.run, Server.init] at h
  | hs l e ih =>
    rw [run_snoc, step_log, List.mem_append] at h
    rcases h with h | h
    · obtain ⟨h1, es1, es2, p, h2, h3⟩ := ih h
      exact ⟨h1, es1, es2 ++ [e], p, by simp [h2], h3⟩
    · have hw : ∀ c' s, Call.publish (.client c) t m ∉ willCalls c' s := by
        intro c' s hc
        unfold willCalls at hc
        cases hs : s.will <;> simp [hs] at hc
      cases e with
      | first c' p uuid w =>
        cases p <;> simp only [eventCalls, List.not_mem_nil] at h
        split at h <;> simp at h
      | recv c' p =>
        simp only [eventCalls] at h
        cases ha : (Server.init.run cfg l).at c' with
        | none => simp [ha] at h
        | some s =>
          simp only [ha, List.mem_append] at h
          rcases h with h | h
          · cases p <;> simp only [packetCalls, List.not_mem_nil] at h
            · rename_i p
              by_cases hv : ValidTopic p.topicName
              · rw [if_pos hv] at h
                simp only [List.mem_singleton, Call.publish.injEq, Source.client.injEq] at h
                obtain ⟨rfl, rfl, rfl⟩ := h
                obtain ⟨k, hk, _⟩ := at_eq_some.mp ha
                exact ⟨hv, l, [], p, rfl, ⟨k, hk⟩, rfl, rfl⟩
              · rw [if_neg hv] at h; simp at h
            · simp at h
          · split at h
            · simp at h
            · exact absurd h (hw _ _)
      | deliver c' f => simp [eventCalls] at h
      | close c' =>
        simp only [eventCalls] at h
        cases ha : (Server.init.run cfg l).at c' with
        | none => simp [ha] at h
        | some s => simp only [ha] at h; exact absurd h (hw _ _)
      | abort c' => simp [eventCalls] at h
      | restart => simp [eventCalls] at h

example : Call.publish (.client 0) (str "a/b") ⟨some 7, str "a/b", false, .exactlyOnce, false, some (str "22")⟩ ∈
    (exServer.run exCfg [.recv 0 (.publish exPublish)]).world.log := by decide +kernel

/-! ## C45: sessions are not shared -/

/-- The identifier of an open connection is the one in the CONNECT that opened it, and stays the same
while the connection is open. -/
theorem C45_clientOf (cfg : AuthConfig) (srv : Server) (c : Nat) (p : ConnectPacket) (uuid : Str)
    (h : Admitted cfg srv c p) :
    (srv.step cfg (.first c (.connect p) uuid true)).1.clientOf c = some p.payload.clientId ∧
    ∀ srv' e id, srv'.clientOf c = some id → (Server.step cfg srv' e).1.isOpen c →
      (Server.step cfg srv' e).1.clientOf c = some id := by
  constructor
  · rw [step_first h]
    obtain ⟨r, hr⟩ := start_effect srv c p uuid true
    simp [clientOf, hr.conns, Map.get_insert]
  · intro srv' e id hid ho
    obtain ⟨k, hk⟩ := ho
    have hk' : srv'.conns.get c = some k → (Server.step cfg srv' e).1.clientOf c = some id := by
      intro hk'
      simp only [clientOf, hk] at hid ⊢
      simpa [hk'] using hid
    have loc : ∀ c', LocalTo c' e → (Server.step cfg srv' e).1.clientOf c = some id := by
      intro c' he
      rcases (step_local cfg srv' he).conns with e1 | e1
      · rw [e1] at hk; exact hk' hk
      · rw [e1] at hk; exact hk' (get_erase_some _ _ _ _ hk)
    cases e with
    | first c' q uuid w =>
      rcases step_first_cases cfg srv' c' q uuid w with ⟨h', _⟩ | ⟨q, rfl, hq, h'⟩
      · rw [h'] at hk; exact hk' hk
      · have hne : c' ≠ c := by
          rintro rfl
          simp only [clientOf, Option.map_eq_some_iff] at hid
          obtain ⟨k0, h0, _⟩ := hid
          exact hq.1 ⟨k0, h0⟩
        obtain ⟨r, hr⟩ := start_effect srv' c' q uuid w
        rw [h', hr.conns] at hk
        cases w with
        | false => exact hk' hk
        | true =>
          simp only [if_true, Map.get_insert, if_neg hne] at hk
          exact hk' hk
    | recv c' p => exact loc c' (.recv p)
    | deliver c' f => exact loc c' (.deliver f)
    | close c' => exact loc c' .close
    | abort c' => exact hk' (get_erase_some _ _ _ _ hk)
    | restart => simp [Server.step, Map.get] at hk

/-- Two open connections whose clients gave different identifiers work on different sessions: nothing
that happens on one of them (packets, deliveries, its end) changes what the session of the other one
contains.  Missing from C45: clients that give the empty identifier share a session
(`C45_empty_ids_false`). -/
theorem C45_isolated_partial (cfg : AuthConfig) (srv : Server) (hr : srv.Reachable cfg)
    (c1 c2 : Nat) (id1 id2 : Str) (h1 : srv.clientOf c1 = some id1) (h2 : srv.clientOf c2 = some id2)
    (hne : id1 ≠ id2) (e : Event)
    (he : (∃ p, e = .recv c2 p) ∨ (∃ f, e = .deliver c2 f) ∨ e = .close c2 ∨ e = .abort c2) :
    (srv.step cfg e).1.at c1 = srv.at c1 := by
  simp only [clientOf, Option.map_eq_some_iff] at h1 h2
  obtain ⟨k1, hk1, rfl⟩ := h1
  obtain ⟨k2, hk2, rfl⟩ := h2
  have hses : k1.session ≠ k2.session := fun h => hne (hr.inv.shared _ _ _ _ hk1 hk2 h)
  have hcc : c2 ≠ c1 := by rintro rfl; rw [hk1] at hk2; cases hk2; exact hne rfl
  have key : LocalEffect srv (srv.step cfg e).1 c2 → (srv.step cfg e).1.at c1 = srv.at c1 := by
    intro hl
    have hc : (srv.step cfg e).1.conns.get c1 = some k1 := by
      rcases hl.conns with e1 | e1
      · rw [e1]; exact hk1
      · rw [e1, Map.get_erase, if_neg hcc]; exact hk1
    have hh : (srv.step cfg e).1.heap.get k1.session = srv.heap.get k1.session := by
      rcases hl.heap with e1 | ⟨k, s, s', hk, _, e1⟩
      · rw [e1]
      · rw [hk2] at hk; cases hk
        rw [e1, Map.get_insert, if_neg (Ne.symm hses)]
    simp [Server.at, hc, hk1, hh]
  rcases he with ⟨p, rfl⟩ | ⟨f, rfl⟩ | rfl | rfl
  · exact key (step_local cfg srv (.recv p))
  · exact key (step_local cfg srv (.deliver f))
  · exact key (step_local cfg srv .close)
  · have : (srv.step cfg (.abort c2)).1.conns.get c1 = srv.conns.get c1 := by
      simp [Server.step, Map.get_erase, hcc]
    simp [Server.at, this]
    rfl

/-- A server with clients `x` (connection 0) and `y` (connection 1). -/
def twoClients : Server := exServer.run exCfg [.first 1 (.connect (exConnect (str "y") true)) (str "v") true]

theorem exServer_reachable : exServer.Reachable exCfg := ⟨_, rfl⟩

example : twoClients.Reachable exCfg ∧ twoClients.clientOf 0 = some (str "x") ∧
    twoClients.clientOf 1 = some (str "y") :=
  ⟨⟨_, (run_append _ _ _ _).symm⟩, by decide +kernel, by decide +kernel⟩

/-- C45 is false for empty identifiers: after two clients connected with an empty identifier (the
second one without clean start), both connections work on the same session, although each was told
an identifier of its own. -/
theorem C45_empty_ids_false (cfg : AuthConfig) (srv : Server) (hr : srv.Reachable cfg) (c1 c2 : Nat)
    (hc : c1 ≠ c2) (p1 p2 : ConnectPacket) (uuid1 uuid2 : Str) (h1 : Admitted cfg srv c1 p1)
    (h2 : Admitted cfg srv c2 p2) (e1 : p1.payload.clientId = []) (e2 : p2.payload.clientId = [])
    (hcl : p2.flags.cleanStart = false) :
    let srv' := srv.run cfg [.first c1 (.connect p1) uuid1 true, .first c2 (.connect p2) uuid2 true]
    (∃ s, srv'.at c1 = some s ∧ srv'.at c2 = some s) ∧
    ∀ q : SubscribePacket, (srv'.step cfg (.recv c2 (.subscribe q))).1.at c1 =
      (srv'.step cfg (.recv c2 (.subscribe q))).1.at c2 := by
  intro srv'
  obtain ⟨r, hS⟩ := start_effect srv c1 p1 uuid1 true
  have hstep : (srv.step cfg (.first c1 (.connect p1) uuid1 true)).1 = (srv.start c1 p1 uuid1 true).1 := by
    rw [step_first h1]
  have hinv1 : Inv (srv.start c1 p1 uuid1 true).1 := hr.inv.start hS
  generalize hsrv1 : (srv.start c1 p1 uuid1 true).1 = srv1 at *
  have hconn1 : srv1.conns.get c1 = some ⟨r, []⟩ := by
    rw [hS.conns]; simp [Map.get_insert, e1]
  have hses1 : srv1.sessions.get [] = some r := by
    rcases hS.table with ⟨_, a, _, b, _⟩ | ⟨_, _, d⟩
    · rw [b, ← e1]; exact a
    · rw [d, if_pos e1]
  have h2' : Admitted cfg srv1 c2 p2 := by
    refine ⟨?_, h2.2⟩
    rintro ⟨k, hk⟩
    rw [hS.conns] at hk
    simp only [if_true, Map.get_insert, if_neg hc] at hk
    exact h2.1 ⟨k, hk⟩
  have hsrv' : srv' = (srv1.start c2 p2 uuid2 true).1 := by
    show ((srv.step cfg _).1.step cfg _).1 = _
    rw [hstep, step_first h2']
  obtain ⟨r', hS'⟩ := start_effect srv1 c2 p2 uuid2 true
  have hr' : r' = r := by
    rcases hS'.table with ⟨_, a, _⟩ | ⟨a, _, _⟩
    · rw [e2, hses1] at a; exact (Option.some.inj a).symm
    · -- the session exists, so no new one is made
      exfalso
      have hx := (enter_discard srv1 p2).2.2.2.2
      have hen : (srv1.discard p2.payload.clientId p2.flags.cleanStart) = srv1 := by
        rw [hcl]; rfl
      obtain ⟨s, hs⟩ := (hinv1.table _ _ hses1).2
      have : ((srv1.discard p2.payload.clientId p2.flags.cleanStart).enter p2).2.1 = r := by
        rw [hen]; simp [Server.enter, e2, hses1, hs]
      obtain ⟨x, hx1⟩ := hS'.heap
      rcases hS'.table with ⟨_, b, _⟩ | ⟨_, b, d⟩
      · rw [e2, hses1] at b
        have := (hinv1.table _ _ hses1).1
        rw [Option.some.inj b] at this; omega
      · have hf : (srv1.start c2 p2 uuid2 true).1.fresh = srv1.fresh := by
          show ((srv1.discard p2.payload.clientId p2.flags.cleanStart).enter p2).1.fresh = _
          rw [hen]; simp [Server.enter, e2, hses1, hs]
        omega
  subst hr'
  have hc1 : srv'.conns.get c1 = some ⟨r', []⟩ := by
    rw [hsrv', hS'.conns]
    simp only [if_true, Map.get_insert, if_neg (Ne.symm hc)]
    exact hconn1
  have hc2 : srv'.conns.get c2 = some ⟨r', []⟩ := by
    rw [hsrv', hS'.conns]; simp [Map.get_insert, e2]
  have hat : srv'.at c1 = srv'.at c2 := by simp [Server.at, hc1, hc2]
  obtain ⟨x, hx⟩ := hS'.heap
  have hh : srv'.heap.get r' = some x := by
    rw [hsrv', hx]; exact (Map.get_insert _ _ _ _).trans (if_pos rfl)
  have hat2 : srv'.at c2 = some x := by simp [Server.at, hc2, hh]
  refine ⟨⟨x, hat.trans hat2, hat2⟩, fun q => ?_⟩
  have hopen := (C34_answers cfg srv' c2 x hat2 (.subscribe q) (by simp)).1 trivial
  obtain ⟨⟨k, hk⟩, _⟩ := hopen
  have hl := step_local cfg srv' (c := c2) (.recv (.subscribe q))
  have hsame : (srv'.step cfg (.recv c2 (.subscribe q))).1.conns = srv'.conns := by
    rcases hl.conns with e1 | e1
    · exact e1
    · rw [e1, Map.get_erase] at hk; simp at hk
  simp [Server.at, hsame, hc1, hc2]

example : Admitted exCfg Server.init 0 (exConnect [] false) ∧
    Admitted exCfg Server.init 1 (exConnect [] false) := by
  constructor <;>
  exact ⟨by rintro ⟨k, hk⟩; simp [Server.init, Map.get] at hk,
    fun _ => ⟨str "u", str "p", _, rfl, rfl, rfl, by decide +kernel⟩⟩

end Mercurio
