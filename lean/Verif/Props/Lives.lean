import Verif.Model.Lives
import Verif.Props.Assigned

/-!
# C117: what survives when the server is stopped and started again
-/

namespace Mercurio

open Spec Server

theorem lifeRun_append (cfg : AuthConfig) (srv : Server) (a b : List LifeEvent) :
    srv.lifeRun cfg (a ++ b) = (srv.lifeRun cfg a).lifeRun cfg b := List.foldl_append

theorem lifeRun_during (cfg : AuthConfig) (es : List Event) : ∀ srv : Server,
    srv.lifeRun cfg (es.map .during) = srv.run cfg es := by
  induction es with
  | nil => intro srv; rfl
  | cons e es ih => intro srv; exact ih _

theorem lifeRun_again (cfg : AuthConfig) (hs : List LifeEvent) (es : List Event) :
    Server.init.lifeRun cfg (hs ++ .again :: es.map .during) = Server.init.run cfg es := by
  rw [lifeRun_append]
  exact lifeRun_during cfg es _

/-- C117 (partial): however often the server has been started, what it does is what a server does that was started
once: in particular everything said of reachable servers (C24 to C48, C62 and others) holds after a start as well.
Missing, because it is false: that it remembers anything. -/
theorem C117_works_partial (cfg : AuthConfig) (hs : List LifeEvent) :
    (Server.init.lifeRun cfg hs).Reachable cfg := by
  induction hs using snoc_induction with
  | h0 => exact ⟨[], rfl⟩
  | hs hs e ih =>
    rw [lifeRun_append]
    cases e with
    | during e =>
      obtain ⟨es, h⟩ := ih
      exact ⟨es ++ [e], by rw [run_snoc, ← h]; rfl⟩
    | again => exact ⟨[], rfl⟩

/-- C117 is false for sessions, always: whatever happened before the start (the client may have had a session with
subscriptions and unacknowledged messages), a client that connects for the first time since is told that there is no
session, is sent nothing again and has no subscriptions, although it does not ask for a clean start. -/
theorem C117_sessions_false (cfg : AuthConfig) (hs : List LifeEvent) (es : List Event) (c : Nat) (q : ConnectPacket)
    (uuid : Str) (hne : q.payload.clientId ≠ [])
    (hfirst : ∀ c x u w, Event.first c x u w ∈ es → w = true ∧ u ≠ q.payload.clientId ∧
      ∀ y, x = .connect y → y.payload.clientId ≠ q.payload.clientId) :
    let srv := Server.init.lifeRun cfg (hs ++ .again :: es.map .during)
    Admitted cfg srv c q →
    let r := srv.step cfg (.first c (.connect q) uuid true)
    r.2.sent = [.connAck (connAckOf q uuid false)] ∧ ∃ s, r.1.at c = some s ∧ s.filters = [] := by
  intro srv ha r
  have e : srv = Server.init.run cfg es := lifeRun_again cfg hs es
  rw [e] at ha
  have hnot : ¬ CameBefore cfg q.payload.clientId es := by
    rintro ⟨es1, d, y, u, es2, rfl, _, hy⟩
    exact (hfirst d (.connect y) u true (by simp)).2.2 y rfl hy
  obtain ⟨r1, r2, _⟩ := remembered cfg hne es (fun c x u w h => ⟨(hfirst c x u w h).1, (hfirst c x u w h).2.1⟩)
  have hload : (Server.init.run cfg es).store.loadSession q.payload.clientId = none := by
    cases h : (Server.init.run cfg es).store.loadSession q.payload.clientId with
    | none => rfl
    | some st => exact absurd (r1.mp (by rw [h]; rfl)) hnot
  have hmem : (Server.init.run cfg es).sessions.get q.payload.clientId = none := by
    cases h : (Server.init.run cfg es).sessions.get q.payload.clientId with
    | none => rfl
    | some st => exact absurd (r2 (by rw [h]; rfl)) hnot
  have hr : r = (Server.init.run cfg es).step cfg (.first c (.connect q) uuid true) := by
    show srv.step cfg (.first c (.connect q) uuid true) = _
    rw [e]
  obtain ⟨present, rest, g1, g2⟩ := C44_session_present cfg _ c q uuid ha
  obtain ⟨ack, g3⟩ := C41_only_from_storage cfg _ c q uuid ha (Or.inr (Or.inr hload))
  have hp : present = false := by
    cases hb : present with
    | false => rfl
    | true =>
      obtain ⟨_, ⟨x, hx⟩ | ⟨x, hx⟩⟩ := g2.mp hb
      · rw [hmem] at hx; cases hx
      · rw [hload] at hx; cases hx
  subst hp
  rw [g1] at g3
  simp only [List.cons.injEq] at g3
  refine ⟨by rw [hr, g1, g3.2], ?_⟩
  rw [hr, step_first ha]
  have hfind : ((Server.init.run cfg es).find q.payload.clientId q.flags.cleanStart).subscriptions = [] := by
    unfold Server.find
    rw [hmem, hload]
    split <;> rfl
  have hent : (((Server.init.run cfg es).discard q.payload.clientId q.flags.cleanStart).enter q).2.2.subscriptions = [] := by
    obtain ⟨_, _, _, _, h5⟩ := enter_discard (Server.init.run cfg es) q
    rcases h5 with ⟨_, h5, _⟩ | ⟨_, _, h5, _⟩
    · rw [hmem] at h5; cases h5
    · rw [h5]; rfl
  refine ⟨_, at_eq_some.mpr ⟨_, (Map.get_insert _ _ _ _).trans (if_pos rfl), (Map.get_insert _ _ _ _).trans (if_pos rfl)⟩, ?_⟩
  rw [restoreWill_filters, hfind]
  unfold Session.filters
  rw [restoreSubscriptions_nil, begin_subscriptions, hent]
  rfl

/-- C117 is false for retained messages, always: whatever was retained before the start, a client whose subscription
matches no topic with a message retained since is sent only messages published after it has subscribed. -/
theorem C117_retained_false (cfg : AuthConfig) (hs : List LifeEvent) (es : List Event) (c : Nat)
    (p : SubscribePacket) (f : Str) (hf : f ∈ p.payload.map (·.topicFilter)) (hvf : ValidFilter f) :
    let srv := Server.init.lifeRun cfg (hs ++ .again :: es.map .during)
    let srv1 := (srv.step cfg (.recv c (.subscribe p))).1
    srv.isOpen c → (∀ t, Matches f t → retainedOf t (published cfg Server.init es) = none) →
    ∀ later, CalmRun cfg c f srv1 later → (∀ x ∈ published cfg srv1 later, ValidTopic x.1) →
      (srv1.delivered cfg c f later).Sublist ((matching f (published cfg srv1 later)).map (forwarded f)) := by
  intro srv srv1 hopen hn later hc hv
  have e : srv = Server.init.run cfg es := lifeRun_again cfg hs es
  have hr : srv.Reachable cfg := ⟨es, e⟩
  obtain ⟨topics, _, t2, t3⟩ := C112_newest_sixteen cfg srv hr c hopen p f hf hvf later hc hv
  have hl : Call.publications srv.world.log = published cfg Server.init es := by
    rw [e]; rfl
  rw [hl] at t2 t3
  have : topics = [] := by
    cases topics with
    | nil => rfl
    | cons t ts =>
      obtain ⟨g1, g2⟩ := (t2 t).mp List.mem_cons_self
      rw [hn t g1] at g2; cases g2
  subst this
  rw [t3]
  exact (drawn_sublist cfg c f later srv1 ⟨[], []⟩).map _

/-! A client `x` subscribes to `a/+` in a session it keeps, a QoS 1 message is sent to it that it does not acknowledge, and
a message is retained on `a/b`; then the server is started again. -/

/-- Before the start. -/
def exFirstLife : List Event := [.first 0 (.connect (exConnect (str "x") false)) (str "u") true,
  .recv 0 (.subscribe ⟨7, none, [⟨str "a/+", {}⟩]⟩),
  .recv 0 (.publish { qos := .atLeastOnce, retain := true, topicName := str "a/b", packetId := some 1, payload := some [1] }),
  .deliver 0 (str "a/+"), .close 0]
/-- After it: another client has come and published, nothing retained. -/
def exSecondLife : List Event := [.first 1 (.connect (exConnect (str "y") false)) (str "v") true,
  .recv 1 (.publish { topicName := str "a/b", payload := some [2] })]
/-- Both. -/
def exLives : List LifeEvent := exFirstLife.map .during ++ .again :: exSecondLife.map .during

/-- Without the start, the client finds its session, and somebody who subscribes is sent the retained message. -/
example : ((Server.init.run {} (exFirstLife ++ exSecondLife)).step {}
      (.first 2 (.connect (exConnect (str "x") false)) (str "w") true)).2.sent =
        [.connAck (connAckOf (exConnect (str "x") false) (str "w") true)] ∧
    (((Server.init.run {} (exFirstLife ++ exSecondLife)).step {} (.recv 1 (.subscribe ⟨7, none, [⟨str "a/+", {}⟩]⟩))).1.delivered {} 1
      (str "a/+") [.deliver 1 (str "a/+")]).length = 1 := by decide +kernel

example : Admitted {} (Server.init.lifeRun {} exLives) 2 (exConnect (str "x") false) ∧
    (∀ c x u w, Event.first c x u w ∈ exSecondLife → w = true ∧ u ≠ str "x" ∧
      ∀ y, x = .connect y → y.payload.clientId ≠ str "x") ∧
    ((Server.init.lifeRun {} exLives).step {} (.first 2 (.connect (exConnect (str "x") false)) (str "w") true)).2.sent =
        [.connAck (connAckOf (exConnect (str "x") false) (str "w") false)] := by
  refine ⟨⟨?_, by simp⟩, ?_, by decide +kernel⟩
  · rw [isOpen_iff]; decide +kernel
  · intro c x u w h
    simp only [exSecondLife, List.mem_cons, Event.first.injEq, reduceCtorEq, List.not_mem_nil, or_false] at h
    obtain ⟨_, rfl, rfl, rfl⟩ := h
    refine ⟨rfl, by decide +kernel, ?_⟩
    intro y hy
    cases hy
    decide +kernel

example : (Server.init.lifeRun {} exLives).isOpen 1 ∧
    (∀ t, Matches (str "a/+") t → retainedOf t (published {} Server.init exSecondLife) = none) ∧
    (((Server.init.lifeRun {} exLives).step {} (.recv 1 (.subscribe ⟨7, none, [⟨str "a/+", {}⟩]⟩))).1.delivered {} 1
      (str "a/+") [.deliver 1 (str "a/+")]) = [] := by
  refine ⟨?_, ?_, by decide +kernel⟩
  · rw [isOpen_iff]; decide +kernel
  · intro t _
    have : published {} Server.init exSecondLife =
        [(str "a/b", ⟨none, str "a/b", false, .atMostOnce, false, some [2]⟩)] := by decide +kernel
    rw [this]
    simp [retainedOf, lastWith]

end Mercurio
