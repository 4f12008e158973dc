import Verif.Lemmas.ServerRun
import Verif.Props.Packets
import Verif.Props.Session
import Verif.Props.Tasks
import Verif.Props.Walk
import Verif.Spec.Alone

/-!
# C89: handling one event at a time is one of the ways in which connections run
-/

namespace Mercurio

open Spec

namespace Tasks

/-- The broker of a state without calls. -/
def Q (s : State) (b : Broker) : Prop :=
  s.calls.walk.calls = [] ∧ s.calls.stored = [] ∧ b = ⟨s.calls.walk.tree, s.calls.store⟩

/-- The tasks other than `c` are the same. -/
def Same (c : Nat) (s s' : State) : Prop := ∀ d, d ≠ c → s'.tasks.get d = s.tasks.get d

theorem Same.refl (c : Nat) (s : State) : Same c s s := fun _ _ => rfl

theorem Same.trans {c : Nat} {a b d : State} (h : Same c a b) (k : Same c b d) : Same c a d :=
  fun x hx => (k x hx).trans (h x hx)

theorem same_put (s : State) (c : Nat) (t : Task) : Same c s (s.put c t) :=
  fun _ hd => (Map.get_insert _ _ _ _).trans (if_neg (Ne.symm hd))

/-- Task `c` works from `s` to `s'` and sends `out`. -/
def Works (cfg : AuthConfig) (c : Nat) (s : State) (out : List Packet) (s' : State) : Prop :=
  ∃ es, (∀ e ∈ es, ∃ q, e = .work c q) ∧ s.run cfg es = some s' ∧ sentOn cfg c s es = out

theorem Works.refl (cfg : AuthConfig) (c : Nat) (s : State) : Works cfg c s [] s :=
  ⟨[], by simp, rfl, rfl⟩

theorem Works.step {cfg : AuthConfig} {c q : Nat} {s s1 s2 : State} {a b : List Packet}
    (h : s.step cfg (.work c q) = some (s1, a)) (k : Works cfg c s1 b s2) : Works cfg c s (a ++ b) s2 := by
  obtain ⟨es, h1, h2, h3⟩ := k
  refine ⟨.work c q :: es, ?_, ?_, ?_⟩
  · intro e he
    rcases List.mem_cons.mp he with rfl | he
    · exact ⟨q, rfl⟩
    · exact h1 e he
  · rw [State.run, h]; exact h2
  · rw [sentOn, h]
    simp only [Event.conn, if_pos]
    rw [h3]

theorem Works.one {cfg : AuthConfig} {c q : Nat} {s s1 : State} {a : List Packet}
    (h : s.step cfg (.work c q) = some (s1, a)) : Works cfg c s a s1 := by
  simpa using Works.step h (Works.refl cfg c s1)

theorem sentOn_append {cfg : AuthConfig} {c : Nat} {s s1 : State} {a b : List Event}
    (h : s.run cfg a = some s1) : sentOn cfg c s (a ++ b) = sentOn cfg c s a ++ sentOn cfg c s1 b := by
  induction a generalizing s with
  | nil => cases h; rfl
  | cons e a ih =>
    obtain ⟨s2, out, h1, h2⟩ := run_cons h
    rw [List.cons_append, sentOn, sentOn, h1]
    simp only
    rw [ih h2, List.append_assoc]

theorem Works.trans {cfg : AuthConfig} {c : Nat} {s s1 s2 : State} {a b : List Packet}
    (h : Works cfg c s a s1) (k : Works cfg c s1 b s2) : Works cfg c s (a ++ b) s2 := by
  obtain ⟨es, h1, h2, h3⟩ := h
  obtain ⟨fs, k1, k2, k3⟩ := k
  refine ⟨es ++ fs, ?_, ?_, ?_⟩
  · intro e he
    rcases List.mem_append.mp he with he | he
    · exact h1 e he
    · exact k1 e he
  · rw [run_append, h2]; exact k2
  · rw [sentOn_append h2, h3, k3]

/-- The walk of a publication that is not interrupted. -/
theorem routing_alone (cfg : AuthConfig) (c : Nat) (sess : Session) (p : Option PublishPacket) (m : Nat) :
    ∀ (s : State) (w : Walk.State Message), s.tasks.get c = some ⟨sess, .routing p⟩ →
      Walk.run s.calls.walk (List.replicate m (.work c) ++ [.finish c]) = some w →
      ∃ s1 : State, s1.calls = { s.calls with walk := w } ∧ s1.tasks = s.tasks ∧
        ∀ s2 out, s1.published c sess p = some (s2, out) → Works cfg c s out s2 := by
  induction m with
  | zero =>
    intro s w ht hw
    simp only [List.replicate_zero, List.nil_append, Walk.run, Walk.step] at hw
    cases hg : s.calls.walk.calls.get c with
    | none => rw [hg] at hw; cases hw
    | some k =>
      rw [hg] at hw
      obtain ⟨v, todo⟩ := k
      cases todo with
      | cons a as => cases hw
      | nil =>
        simp only [Option.some.injEq] at hw
        refine ⟨{ s with calls := { s.calls with walk := w }, log := s.log ++ [Calls.Event.finish c] }, rfl, rfl, ?_⟩
        intro s2 out h2
        refine Works.one (q := 0) ?_
        simp only [State.step, ht, State.work, hg, State.call, Calls.step, Calls.State.tree, Walk.step, hw,
          Option.bind_some]
        exact h2
  | succ m ih =>
    intro s w ht hw
    rw [List.replicate_succ, List.cons_append, Walk.run] at hw
    cases hg : s.calls.walk.calls.get c with
    | none => simp only [Walk.step, hg] at hw; cases hw
    | some k =>
      obtain ⟨v, todo⟩ := k
      cases todo with
      | nil => simp only [Walk.step, hg] at hw; cases hw
      | cons a as =>
        cases hs : Walk.step s.calls.walk (.work c) with
        | none => rw [hs] at hw; cases hw
        | some w1 =>
          rw [hs] at hw
          have h1 : s.step cfg (.work c 0) =
              some ({ s with calls := { s.calls with walk := w1 }, log := s.log ++ [Calls.Event.work c] }, []) := by
            simp only [State.step, ht, State.work, hg, State.call, Calls.step, Calls.State.tree, hs, Option.map_some]
          obtain ⟨s1, k1, k2, k3⟩ := ih { s with calls := { s.calls with walk := w1 }, log := s.log ++ [Calls.Event.work c] } w
            ht hw
          exact ⟨s1, k1, k2, fun s2 out h2 => by simpa using Works.step h1 (k3 s2 out h2)⟩

/-- A publication that is not interrupted, from its storage step on. -/
theorem publish_alone (cfg : AuthConfig) {s : State} {b : Broker} (hq : Q s b) (c : Nat) (sess : Session) (t : Str)
    (m : Message) (p : Option PublishPacket) :
    ∃ s0, s.call (.store c t m) = some s0 ∧ ∃ s1, Q s1 (b.publish t m) ∧ Same c s s1 ∧
      ∀ s2 out, s1.published c sess p = some (s2, out) → Works cfg c (s0.put c ⟨sess, .stored t m p⟩) out s2 := by
  obtain ⟨⟨⟨tree, subs, calls⟩, store, reads, stored⟩, tasks, log⟩ := s
  obtain ⟨h1, h2, h3⟩ := hq
  simp only at h1 h2 h3
  subst h1 h2 h3
  refine ⟨⟨⟨⟨tree, subs, []⟩, Broker.publishStore store t m, reads, [(c, (t, m))]⟩, tasks, log ++ [.store c t m]⟩,
    rfl, ?_⟩
  obtain ⟨n, hn⟩ := C82_alone (⟨tree, subs, []⟩ : Walk.State Message) rfl c t m
  rw [Walk.run] at hn
  have hb : Walk.step (⟨tree, subs, []⟩ : Walk.State Message) (.begin c t m) =
      some ⟨tree, subs, [(c, ⟨m, [.visit [] (splitLevels t)]⟩)]⟩ := rfl
  rw [hb] at hn
  simp only at hn
  have hstep : State.step cfg (State.put ⟨⟨⟨tree, subs, []⟩, Broker.publishStore store t m, reads, [(c, (t, m))]⟩,
      tasks, log ++ [.store c t m]⟩ c ⟨sess, .stored t m p⟩) (.work c 0) =
      some (State.put ⟨⟨⟨tree, subs, [(c, ⟨m, [.visit [] (splitLevels t)]⟩)]⟩, Broker.publishStore store t m, reads, []⟩,
        tasks.insert c ⟨sess, .stored t m p⟩, log ++ [.store c t m] ++ [.begin c t m]⟩ c ⟨sess, .routing p⟩, []) := by
    simp only [State.step, put_get, State.work]
    simp [State.call, State.put, Calls.step, Calls.State.tree, Walk.step, Map.get, Map.erase, Map.insert]
  obtain ⟨s1, k1, k2, k3⟩ := routing_alone cfg c sess p n
    (State.put ⟨⟨⟨tree, subs, [(c, ⟨m, [.visit [] (splitLevels t)]⟩)]⟩, Broker.publishStore store t m, reads, []⟩,
        tasks.insert c ⟨sess, .stored t m p⟩, log ++ [.store c t m] ++ [.begin c t m]⟩ c ⟨sess, .routing p⟩) _
    (put_get _ _ _) hn
  refine ⟨s1, ⟨?_, ?_, ?_⟩, ?_, ?_⟩
  · rw [k1]
  · rw [k1]; rfl
  · rw [k1]; rfl
  · intro d hd
    rw [k2]
    refine (same_put _ c _ d hd).trans ?_
    exact (Map.get_insert _ _ _ _).trans (if_neg (Ne.symm hd))
  · intro s2 out h2
    simpa using Works.step hstep (k3 s2 out h2)

/-- What the end of a connection does to the broker. -/
def endBroker (b : Broker) (sess : Session) : Broker :=
  match sess.will with
  | none => b
  | some w => { b.publish w.topic (Server.willMessage w) with
      store := (b.publish w.topic (Server.willMessage w)).store.deleteWill sess.clientId }

/-- The end of a connection that is not interrupted. -/
theorem ending_alone (cfg : AuthConfig) {s : State} {b : Broker} (hq : Q s b) (c : Nat) (sess : Session) :
    ∃ s0 s1 sess', s.ending c sess = some s0 ∧ Works cfg c s0 [] s1 ∧ Q s1 (endBroker b sess) ∧
      s1.tasks.get c = some ⟨sess', .ended⟩ ∧ Same c s s1 := by
  unfold State.ending endBroker
  cases hw : sess.will with
  | none => exact ⟨_, _, sess, rfl, Works.refl _ _ _, hq, put_get _ _ _, same_put _ _ _⟩
  | some w =>
    obtain ⟨s0, h1, s1, h2, h3, h4⟩ := publish_alone cfg hq c { sess with will := none } w.topic
      (Server.willMessage w) none
    simp only [h1]
    refine ⟨_, _, _, rfl, h4 _ _ rfl, ?_, put_get _ _ _, ?_⟩
    · obtain ⟨k1, k2, k3⟩ := h2
      exact ⟨k1, k2, by simp only [k3]; rfl⟩
    · exact h3.trans (same_put (s1.mapStore _) c _)

/-- The loop of SUBSCRIBE that is not interrupted. -/
theorem subscribing_alone (cfg : AuthConfig) (c : Nat) (p : SubscribePacket) (fs : List Str) :
    ∀ (s : State) (w : World) (sess : Session) (codes : List ReasonCode), Q s w.broker →
      s.tasks.get c = some ⟨sess, .subscribing p fs codes⟩ →
      ∃ s', Works cfg c s [] s' ∧ Q s' (sess.subscribeLoop w fs).2.1.broker ∧ Same c s s' ∧
        s'.tasks.get c = some ⟨(sess.subscribeLoop w fs).1,
          .subscribing p [] (codes ++ (sess.subscribeLoop w fs).2.2)⟩ := by
  induction fs with
  | nil =>
    intro s w sess codes hq ht
    exact ⟨s, Works.refl _ _ _, hq, Same.refl _ _, by simpa [Session.subscribeLoop] using ht⟩
  | cons f fs ih =>
    intro s w sess codes hq ht
    cases hv : validateSubscribeFilter f with
    | error e =>
      have h1 : s.step cfg (.work c 0) =
          some (s.put c ⟨sess, .subscribing p fs (codes ++ [.topicFilterInvalid])⟩, []) := by
        simp only [State.step, ht, State.work, hv]
      obtain ⟨s', k1, k2, k3, k4⟩ := ih (s.put c ⟨sess, .subscribing p fs (codes ++ [.topicFilterInvalid])⟩) w sess
        _ hq (put_get _ _ _)
      refine ⟨s', by simpa using Works.step h1 k1, ?_, (same_put _ _ _).trans k3, ?_⟩
      · simpa only [Session.subscribeLoop, hv] using k2
      · simpa [Session.subscribeLoop, hv] using k4
    | ok u =>
      obtain ⟨q, hfresh⟩ := fresh_key s.calls.walk.subs
      obtain ⟨⟨⟨tree, subs, calls⟩, store, reads, stored⟩, tasks, log⟩ := s
      obtain ⟨h1, h2, h3⟩ := hq
      simp only at h1 h2 h3 hfresh ht
      subst h1 h2
      let r := TopicTree.subscribe tree f
      let s1 : State := State.put ⟨⟨⟨r.1, subs.insert q r.2, []⟩, store, reads.insert q (f, none), []⟩, tasks,
        log ++ [.subTree q f]⟩ c ⟨sess, .reading p q f fs codes⟩
      have e1 : State.step cfg ⟨⟨⟨tree, subs, []⟩, store, reads, []⟩, tasks, log⟩ (.work c q) = some (s1, []) := by
        simp only [State.step, ht, State.work, hv, State.call, Calls.step, Calls.State.tree, Walk.step,
          List.isEmpty_nil, hfresh, Option.isNone_none, and_self, if_true, Option.map_some]
        rfl
      let s2 : State := State.put ⟨⟨⟨r.1, subs.insert q r.2, []⟩, store,
        (reads.insert q (f, none)).insert q (f, some (store.getRetained f)), []⟩,
        tasks.insert c ⟨sess, .reading p q f fs codes⟩, log ++ [.subTree q f] ++ [.subRead q]⟩ c
        ⟨{ sess with subscriptions := sess.subscriptions.insert f ⟨store.getRetained f, r.2⟩ },
          .subscribing p fs (codes ++ [.grantedQoS0])⟩
      have e2 : State.step cfg s1 (.work c 0) = some (s2, []) := by
        simp only [State.step, s1, put_get, State.work]
        simp only [State.call, State.put, Calls.step, Map.get_insert, if_true]
        rfl
      obtain ⟨s', k1, k2, k3, k4⟩ := ih s2 (sess.addSubscription w f).2 (sess.addSubscription w f).1
        (codes ++ [.grantedQoS0]) ⟨rfl, rfl, by
          simp only [Session.addSubscription, World.subscribe, Broker.subscribe, h3]; rfl⟩ (by
          simp only [s2, put_get]
          simp only [Session.addSubscription, World.subscribe, Broker.subscribe, h3]; rfl)
      refine ⟨s', by simpa using Works.step e1 (Works.step e2 k1), ?_, ?_, ?_⟩
      · simpa only [Session.subscribeLoop, hv] using k2
      · refine Same.trans (fun d hd => ?_) k3
        simp only [s2, State.put, Map.get_insert, if_neg (Ne.symm hd)]
      · simpa [Session.subscribeLoop, hv] using k4

/-! ## The server that handles one event at a time -/

theorem at_put {srv srv' : Server} (ha : OwnSessions srv) {c : Nat} {k : Conn} (hk : srv.conns.get c = some k)
    {sess : Session} (h1 : srv'.conns = srv.conns) (h2 : srv'.heap = srv.heap.insert k.session sess) :
    srv'.at c = some sess ∧ ∀ d, d ≠ c → srv'.at d = srv.at d := by
  constructor
  · simp [Server.at, h1, h2, hk, Map.get_insert]
  · intro d hd
    unfold Server.at
    rw [h1, h2]
    cases hg : srv.conns.get d with
    | none => rfl
    | some k' =>
      simp only [Map.get_insert]
      rw [if_neg fun he => hd (ha d c k' k hg hk he.symm)]

theorem at_erase {srv srv' : Server} (ha : OwnSessions srv) {c : Nat} {k : Conn} (hk : srv.conns.get c = some k)
    {sess : Session} (h1 : srv'.conns = srv.conns.erase c) (h2 : srv'.heap = srv.heap.insert k.session sess) :
    srv'.at c = none ∧ ∀ d, d ≠ c → srv'.at d = srv.at d := by
  constructor
  · simp [Server.at, h1, Map.get_erase]
  · intro d hd
    unfold Server.at
    rw [h1, h2, Map.get_erase, if_neg (Ne.symm hd)]
    cases hg : srv.conns.get d with
    | none => rfl
    | some k' =>
      simp only [Map.get_insert]
      rw [if_neg fun he => hd (ha d c k' k hg hk he.symm)]

theorem own_erase {srv srv' : Server} (ha : OwnSessions srv) {c : Nat} (h1 : srv'.conns = srv.conns.erase c) :
    OwnSessions srv' := by
  intro a d k k' h2 h3
  rw [h1, Map.get_erase] at h2 h3
  split at h2
  · cases h2
  · split at h3
    · cases h3
    · exact ha a d k k' h2 h3

theorem own_same {srv srv' : Server} (ha : OwnSessions srv) (h1 : srv'.conns = srv.conns) : OwnSessions srv' := by
  intro a d k k' h2 h3
  rw [h1] at h2 h3
  exact ha a d k k' h2 h3

theorem same_q {s : State} {srv : Server} (h : SameState s srv) : Q s srv.world.broker :=
  ⟨h.noCalls.1, h.noCalls.2, h.broker⟩

theorem same_of {s s' : State} {srv srv' : Server} (h : SameState s srv) {c : Nat} {t : Task}
    (hq : Q s' srv'.world.broker) (ho : Same c s s') (ht : s'.tasks.get c = some t) (hb : ¬ Busy t.phase)
    (hc : ∀ sess, srv'.at c = some sess ↔ t = ⟨sess, .idle⟩) (hd : ∀ d, d ≠ c → srv'.at d = srv.at d) :
    SameState s' srv' := by
  refine ⟨fun d => ?_, ⟨hq.1, hq.2.1⟩, hq.2.2, fun d sess => ?_⟩
  · by_cases he : d = c
    · subst he
      intro t' ht'
      rw [ht] at ht'
      cases ht'
      exact hb
    · intro t' ht'
      rw [ho d he] at ht'
      exact h.resting d t' ht'
  · by_cases he : d = c
    · subst he
      rw [hc, ht, Option.some.injEq]
    · rw [hd d he, ho d he]
      exact h.conns d sess

/-- The states agree after the end of connection `c`. -/
theorem same_finish (cfg : AuthConfig) {s s1 : State} {srv srv1 : Server} (h : SameState s srv)
    (ha : OwnSessions srv) {c : Nat} {k : Conn} (hk : srv.conns.get c = some k) (h1 : srv1.conns = srv.conns)
    (h2 : srv1.heap = srv.heap) (hq : Q s1 srv1.world.broker) (ho : Same c s s1) (sess : Session) :
    ∃ s2 s3, s1.ending c sess = some s2 ∧ Works cfg c s2 [] s3 ∧ SameState s3 (srv1.finish c k.session sess) ∧
      OwnSessions (srv1.finish c k.session sess) := by
  obtain ⟨s2, s3, sess', k1, k2, k3, k4, k5⟩ := ending_alone cfg hq c sess
  have hconns : (srv1.finish c k.session sess).conns = srv.conns.erase c := by
    unfold Server.finish
    cases sess.will <;> simp [h1]
  have hheap : ∃ se, (srv1.finish c k.session sess).heap = srv.heap.insert k.session se := by
    unfold Server.finish
    cases sess.will with
    | none => exact ⟨sess, by simp [h2]⟩
    | some w => exact ⟨{ sess with will := none }, by simp [h2]⟩
  obtain ⟨se, hheap⟩ := hheap
  have hbroker : (srv1.finish c k.session sess).world.broker = endBroker srv1.world.broker sess := by
    unfold Server.finish endBroker
    cases sess.will <;> rfl
  obtain ⟨a1, a2⟩ := at_erase ha hk hconns hheap
  refine ⟨s2, s3, k1, k2, ?_, own_erase ha hconns⟩
  refine same_of h (by rw [hbroker]; exact k3) (ho.trans k5) k4 (by simp [Busy]) ?_ a2
  intro se'
  rw [a1]
  constructor
  · intro h; cases h
  · intro h; cases h

/-- The states agree after connection `c` has gone on. -/
theorem same_goOn {s s' : State} {srv srv' : Server} (h : SameState s srv)
    (ha : OwnSessions srv) {c : Nat} {k : Conn} (hk : srv.conns.get c = some k) {sess : Session}
    (h1 : srv'.conns = srv.conns) (h2 : srv'.heap = srv.heap.insert k.session sess)
    (hq : Q s' srv'.world.broker) (ho : Same c s s') (ht : s'.tasks.get c = some ⟨sess, .idle⟩) :
    SameState s' srv' ∧ OwnSessions srv' := by
  obtain ⟨a1, a2⟩ := at_put ha hk h1 h2
  refine ⟨same_of h hq ho ht (by simp [Busy]) ?_ a2, own_same ha h1⟩
  intro se
  rw [a1]
  simp

/-- Handlers other than those of PUBLISH and SUBSCRIBE do not use the broker. -/
theorem simple_world {sess : Session} {w w' : World} {mgr : Option AuthManager} {c : Nat} {p : Packet}
    (hp : Simple p) : (sess.processIncoming w mgr c p).world = w ∧
    (sess.processIncoming w mgr c p).session = (sess.processIncoming w' mgr c p).session ∧
    (sess.processIncoming w mgr c p).result = (sess.processIncoming w' mgr c p).result := by
  cases p with
  | auth a => cases mgr <;> exact ⟨rfl, rfl, rfl⟩
  | _ => first | exact ⟨rfl, rfl, rfl⟩ | exact hp.elim

theorem recv_simple (cfg : AuthConfig) (srv : Server) (c r : Nat) (sess : Session) (p : Packet) (hp : Simple p) :
    srv.recv cfg c r sess p = (match (sess.processIncoming srv.world cfg.manager c p).result with
      | .error _ => (srv.finish c r (sess.processIncoming srv.world cfg.manager c p).session, {})
      | .ok res => ((srv.mapStore (Server.saveAfter (sess.processIncoming srv.world cfg.manager c p).session p)).put r
          (sess.processIncoming srv.world cfg.manager c p).session, { sent := res.toList })) := by
  have h := (simple_world (sess := sess) (w := srv.world) (w' := srv.world) (mgr := cfg.manager) (c := c) hp).1
  have e : srv.recv cfg c r sess p =
      (match (sess.processIncoming srv.world cfg.manager c p).result with
      | .error _ => (Server.finish { srv with world := (sess.processIncoming srv.world cfg.manager c p).world } c r
          (sess.processIncoming srv.world cfg.manager c p).session, {})
      | .ok res => ((Server.mapStore { srv with world := (sess.processIncoming srv.world cfg.manager c p).world }
          (Server.saveAfter (sess.processIncoming srv.world cfg.manager c p).session p)).put r
          (sess.processIncoming srv.world cfg.manager c p).session, { sent := res.toList })) := by
    cases p <;> first | rfl | exact hp.elim
  rw [e, h]

theorem arrive_alone (cfg : AuthConfig) {s : State} {srv : Server} (h : SameState s srv) (ha : OwnSessions srv)
    {c : Nat} {k : Conn} {sess : Session} (hk : srv.conns.get c = some k) (hs : srv.heap.get k.session = some sess)
    (p : Packet) : ∃ s1 out1 s2 out2, s.arrive cfg c sess p = some (s1, out1) ∧ Works cfg c s1 out2 s2 ∧
      SameState s2 (srv.recv cfg c k.session sess p).1 ∧ OwnSessions (srv.recv cfg c k.session sess p).1 ∧
      out1 ++ out2 = (srv.recv cfg c k.session sess p).2.sent := by
  have ht : s.tasks.get c = some ⟨sess, .idle⟩ := (h.conns c sess).mp (Server.at_eq_some.mpr ⟨k, hk, hs⟩)
  rcases packet_cases p with ⟨q, rfl⟩ | ⟨q, rfl⟩ | ⟨d, rfl⟩ | hp
  · simp only [State.arrive, State.beginPublish, Server.recv, Session.processIncoming, Session.handlePublish]
    cases hv : validatePublishTopic q.topicName with
    | error e =>
      obtain ⟨s2, s3, k1, k2, k3, k4⟩ := same_finish cfg h ha hk rfl rfl (same_q h) (Same.refl _ _) sess
      exact ⟨s2, [], s3, [], by simp [k1], k2, k3, k4, rfl⟩
    | ok u =>
      obtain ⟨s0, h1, s1, h2, h3, h4⟩ := publish_alone cfg (same_q h) c (sess.notePublish q) q.topicName
        (Session.messageOf q) (some q)
      simp only [h1, Option.map_some]
      cases hr : Session.publishResponse q with
      | ok res =>
        simp only
        refine ⟨_, _, _, _, rfl, h4 _ _ (by simp only [State.published, hr]; rfl), ?_⟩
        obtain ⟨k1, k2⟩ := same_goOn (s' := s1.put c ⟨sess.notePublish q, .idle⟩)
          (srv' := (Server.mapStore { srv with world := srv.world.publish (.client c) q.topicName (Session.messageOf q) }
            (Server.saveAfter (sess.notePublish q) (.publish q))).put k.session (sess.notePublish q))
          h ha hk rfl rfl h2 (h3.trans (same_put _ _ _)) (put_get _ _ _)
        exact ⟨k1, k2, rfl⟩
      | error e =>
        simp only
        obtain ⟨s2, s3, k1, k2, k3, k4⟩ := same_finish cfg
          (srv1 := { srv with world := srv.world.publish (.client c) q.topicName (Session.messageOf q) })
          h ha hk rfl rfl h2 h3 (sess.notePublish q)
        refine ⟨_, _, _, _, rfl, (h4 s2 [] (by simp only [State.published, hr, k1]; rfl)).trans k2, k3, k4, rfl⟩
  · simp only [State.arrive, Server.recv, Session.processIncoming, Session.handleSubscribe]
    obtain ⟨s1, k1, k2, k3, k4⟩ := subscribing_alone cfg c q (q.payload.map (·.topicFilter))
      (s.put c ⟨sess, .subscribing q (q.payload.map (·.topicFilter)) []⟩) srv.world sess []
      ⟨(same_q h).1, (same_q h).2.1, (same_q h).2.2⟩ (put_get _ _ _)
    have hstep := show s1.step cfg (.work c 0) = _ by
      simp only [State.step, k4, State.work, List.nil_append]
      rfl
    refine ⟨_, _, _, _, rfl, k1.trans (Works.one hstep), ?_⟩
    obtain ⟨j1, j2⟩ := same_goOn
      (s' := (s1.mapStore (Server.saveAfter (sess.subscribeLoop srv.world (q.payload.map (·.topicFilter))).1
        (.subscribe q))).put c ⟨(sess.subscribeLoop srv.world (q.payload.map (·.topicFilter))).1, .idle⟩)
      (srv' := (Server.mapStore { srv with world := (sess.subscribeLoop srv.world (q.payload.map (·.topicFilter))).2.1 }
        (Server.saveAfter (sess.subscribeLoop srv.world (q.payload.map (·.topicFilter))).1 (.subscribe q))).put
          k.session (sess.subscribeLoop srv.world (q.payload.map (·.topicFilter))).1)
      h ha hk rfl rfl ⟨k2.1, k2.2.1, by simp only [Server.world_put, Server.mapStore, World.mapStore, k2.2.2]; rfl⟩
      (((same_put _ _ _).trans k3).trans (same_put (s1.mapStore _) _ _)) (put_get _ _ _)
    obtain ⟨subs, hsub⟩ := subscribeLoop_session (q.payload.map (·.topicFilter)) sess srv.world
    refine ⟨j1, j2, ?_⟩
    simp [hsub]
  · simp only [State.arrive, Server.recv]
    obtain ⟨s2, s3, k1, k2, k3, k4⟩ := same_finish cfg (s1 := s.mapStore fun st => st.deleteWill sess.clientId)
      (srv1 := srv.mapStore fun st => st.deleteWill sess.clientId) h ha hk rfl rfl
      ⟨(same_q h).1, (same_q h).2.1, by simp only [Server.mapStore, World.mapStore, h.broker]; rfl⟩ (fun _ _ => rfl)
      { sess with will := none }
    simp only [State.ending, Option.some.injEq] at k1
    subst k1
    exact ⟨_, _, s3, [], rfl, k2, k3, k4, rfl⟩
  · rw [arrive_simple _ _ _ _ _ hp, recv_simple _ _ _ _ _ _ hp]
    obtain ⟨_, e2, e3⟩ := simple_world (sess := sess) (w := s.world) (w' := srv.world) (mgr := cfg.manager) (c := c) hp
    rw [e2, e3]
    cases hr : (sess.processIncoming srv.world cfg.manager c p).result with
    | error e =>
      obtain ⟨s2, s3, k1, k2, k3, k4⟩ := same_finish cfg h ha hk rfl rfl (same_q h) (Same.refl _ _)
        (sess.processIncoming srv.world cfg.manager c p).session
      exact ⟨s2, [], s3, [], by simp [k1], k2, k3, k4, rfl⟩
    | ok res =>
      refine ⟨_, _, _, _, rfl, Works.refl _ _ _, ?_⟩
      obtain ⟨j1, j2⟩ := same_goOn
        (s' := (s.mapStore (Server.saveAfter (sess.processIncoming srv.world cfg.manager c p).session p)).put c
          ⟨(sess.processIncoming srv.world cfg.manager c p).session, .idle⟩)
        (srv' := (srv.mapStore (Server.saveAfter (sess.processIncoming srv.world cfg.manager c p).session p)).put
          k.session (sess.processIncoming srv.world cfg.manager c p).session)
        h ha hk rfl rfl ⟨(same_q h).1, (same_q h).2.1, by simp only [Server.world_put, Server.mapStore, World.mapStore, h.broker]; rfl⟩
        (same_put (s.mapStore _) _ _) (put_get _ _ _)
      exact ⟨j1, j2, by simp⟩

theorem deliver_alone {s : State} {srv : Server} (h : SameState s srv) (ha : OwnSessions srv)
    {c : Nat} {k : Conn} {sess : Session} (hk : srv.conns.get c = some k) (f : Str) :
    (s.deliver c sess f = none ∧ srv.deliver c k.session sess f = (srv, {})) ∨
    ∃ s1, s.deliver c sess f = some (s1, (srv.deliver c k.session sess f).2.sent) ∧
      SameState s1 (srv.deliver c k.session sess f).1 ∧ OwnSessions (srv.deliver c k.session sess f).1 := by
  have e : srv.world.broker.tree = s.calls.walk.tree := by rw [h.broker]
  unfold State.deliver Server.deliver
  rw [e]
  cases sess.processOutgoing s.calls.walk.tree f with
  | idle => exact Or.inl ⟨rfl, rfl⟩
  | packet sess' p =>
    refine Or.inr ⟨_, rfl, ?_⟩
    exact same_goOn (s' := (s.mapStore (Server.saveOutgoing sess' p)).put c ⟨sess', .idle⟩)
      (srv' := (srv.mapStore (Server.saveOutgoing sess' p)).put k.session sess') h ha hk rfl rfl
      ⟨(same_q h).1, (same_q h).2.1, by simp only [Server.world_put, Server.mapStore, World.mapStore, h.broker]; rfl⟩
      (same_put (s.mapStore _) _ _) (put_get _ _ _)
  | panicked sess' =>
    refine Or.inr ⟨_, rfl, ?_, own_erase ha rfl⟩
    obtain ⟨a1, a2⟩ := at_erase (srv' := Server.put { srv with conns := srv.conns.erase c } k.session sess') ha hk
      rfl rfl
    refine same_of (s' := s.drop c sess') h ⟨(same_q h).1, (same_q h).2.1, (same_q h).2.2⟩ (same_put _ _ _) (put_get _ _ _) (by simp [Busy]) ?_ a2
    intro se
    rw [a1]
    constructor
    · intro h; cases h
    · intro h; cases h

/-- What a clean start does to a server that works one event at a time. -/
theorem start_clean {srv : Server} {c : Nat} {p : ConnectPacket} {uuid : Str} (hc : p.flags.cleanStart = true) :
    (srv.start c p uuid true).1.world.broker =
        { srv.world.broker with
          store := State.entering p ((Session.new p).begin uuid false).1 srv.world.broker.store } ∧
      (srv.start c p uuid true).1.conns = srv.conns.insert c ⟨srv.fresh, p.payload.clientId⟩ ∧
      (srv.start c p uuid true).1.heap = srv.heap.insert srv.fresh ((Session.new p).begin uuid false).1 ∧
      (srv.start c p uuid true).1.fresh = srv.fresh + 1 ∧
      (srv.start c p uuid true).2.sent = [.connAck ((Session.new p).begin uuid false).2] := by
  have he : (srv.discard p.payload.clientId p.flags.cleanStart).sessions.get p.payload.clientId = none := by
    simp [Server.discard, hc, Map.get_erase]
  simp only [Server.start, Server.find, hc, if_true, Server.Found.none]
  rw [hc] at he
  simp only [Server.enter, he]
  refine ⟨?_, ?_, ?_, ?_, ?_⟩
  · simp [Server.discard, State.entering, hc, Session.restoreSubscriptions, Server.mapStore, World.mapStore,
      Server.restoreWill]
  · simp [Server.discard]
  · simp [Server.discard, Session.restoreSubscriptions, Server.restoreWill]
  · simp [Server.discard]
  · simp

theorem sentOn_other {cfg : AuthConfig} {c d : Nat} {s : State} {es : List Event} (h : ∀ e ∈ es, e.conn = c)
    (hd : d ≠ c) : sentOn cfg d s es = [] := by
  induction es generalizing s with
  | nil => rfl
  | cons e es ih =>
    rw [sentOn]
    cases hs : s.step cfg e with
    | none => rfl
    | some r =>
      obtain ⟨s', out⟩ := r
      simp only
      rw [if_neg (by rw [h e List.mem_cons_self]; exact Ne.symm hd), ih fun e he => h e (List.mem_cons_of_mem _ he)]
      rfl

/-- One event, alone. -/
theorem event_alone (cfg : AuthConfig) {s : State} {srv : Server} (h : SameState s srv) (hi : Server.Inv srv)
    (ho : OwnSessions srv) (e : Mercurio.Event) (he : CleanHistory cfg [e])
    (hf : ∀ c, opened e = some c → s.tasks.get c = none) :
    ∃ es s' c, e.conn = some c ∧ (∀ x ∈ es, x.conn = c) ∧ s.run cfg es = some s' ∧
      SameState s' (srv.step cfg e).1 ∧ OwnSessions (srv.step cfg e).1 ∧
      (s.tasks.get c = none → es = [] ∨ opened e = some c) ∧ sentOn cfg c s es = (srv.step cfg e).2.sent := by
  have closed : ∀ c, (∀ sess, srv.at c ≠ some sess) → srv.conns.get c = none := by
    intro c hc
    cases hk : srv.conns.get c with
    | none => rfl
    | some k =>
      obtain ⟨sess, hs⟩ := (hi.conns c k hk).2
      exact absurd (Server.at_eq_some.mpr ⟨k, hk, hs⟩) (hc sess)
  have idle : ∀ {c : Nat} {e : Mercurio.Event}, e.conn = some c → srv.step cfg e = (srv, {}) →
      ∃ es s' c, e.conn = some c ∧ (∀ x ∈ es, x.conn = c) ∧ s.run cfg es = some s' ∧
      SameState s' (srv.step cfg e).1 ∧ OwnSessions (srv.step cfg e).1 ∧
      (s.tasks.get c = none → es = [] ∨ opened e = some c) ∧ sentOn cfg c s es = (srv.step cfg e).2.sent := by
    intro c e hc he
    rw [he]
    exact ⟨[], s, c, hc, by simp, rfl, h, ho, fun _ => Or.inl rfl, rfl⟩
  have none_at : ∀ c, srv.conns.get c = none → ∀ f, srv.onConn c f = (srv, {}) := by
    intro c hc f
    simp only [Server.onConn, hc]
  cases e with
  | first c p uuid written =>
    obtain ⟨q, rfl, hq, rfl, hauth⟩ := he.first c p uuid written List.mem_cons_self
    have hn := hf c rfl
    have hc : srv.conns.get c = none := closed c fun sess hs => by
      rw [(h.conns c sess).mp hs] at hn; cases hn
    have hstep : srv.step cfg (.first c (.connect q) uuid true) = srv.start c q uuid true := by
      have h2 : (cfg.requireAuth && !Server.authenticated cfg q) = false := by
        cases hr : cfg.requireAuth with
        | false => rfl
        | true => rw [hauth hr]; rfl
      simp only [Server.step, hc, Option.isSome_none, Bool.false_eq_true, if_false, Server.connect, h2]
    rw [hstep]
    obtain ⟨k1, k2, k3, _, k5⟩ := start_clean (srv := srv) (c := c) (p := q) (uuid := uuid) hq
    have hr : s.step cfg (.start c q uuid) = some ((s.mapStore (State.entering q ((Session.new q).begin uuid false).1)).put
        c ⟨((Session.new q).begin uuid false).1, .idle⟩, [.connAck ((Session.new q).begin uuid false).2]) := by
      simp only [State.step, hn]
    refine ⟨[.start c q uuid], _, c, rfl, by simp [Event.conn], by rw [State.run, hr]; rfl, ?_, ?_, fun _ => Or.inr rfl, ?_⟩
    · refine same_of (c := c) h ⟨(same_q h).1, (same_q h).2.1, by rw [k1, h.broker]; rfl⟩
        (same_put (s.mapStore _) _ _) (put_get _ _ _) (by simp [Busy]) ?_ ?_
      · intro se
        simp [Server.at, k2, k3, Map.get_insert]
      · intro d hd
        unfold Server.at
        rw [k2, k3, Map.get_insert, if_neg (Ne.symm hd)]
        cases hg : srv.conns.get d with
        | none => rfl
        | some k =>
          have := (hi.conns d k hg).1
          simp only [Map.get_insert]
          rw [if_neg (by omega)]
    · intro a d k k' h1 h2 h3
      rw [k2, Map.get_insert] at h1 h2
      split at h1
      · split at h2
        · subst_vars; rfl
        · cases h1
          have := (hi.conns d k' h2).1
          simp only at h3
          omega
      · split at h2
        · cases h2
          have := (hi.conns a k h1).1
          simp only at h3
          omega
        · exact ho a d k k' h1 h2 h3
    · rw [sentOn, hr, k5]
      simp [Event.conn, sentOn]
  | recv c p =>
    cases hk : srv.conns.get c with
    | none => exact idle (c := c) rfl (by simp only [Server.step, none_at c hk])
    | some k =>
      obtain ⟨sess, hs⟩ := (hi.conns c k hk).2
      have e : srv.step cfg (.recv c p) = srv.recv cfg c k.session sess p := by
        simp only [Server.step, Server.onConn, hk, hs]
      rw [e]
      obtain ⟨s1, out1, s2, out2, h1, ⟨es, h2, h3, h4⟩, h5, h6, h7⟩ := arrive_alone cfg h ho hk hs p
      have hst : s.step cfg (.arrive c p) = some (s1, out1) := by
        simp only [State.step, (h.conns c sess).mp (Server.at_eq_some.mpr ⟨k, hk, hs⟩)]
        exact h1
      refine ⟨.arrive c p :: es, s2, c, rfl, ?_, ?_, h5, h6,
        fun hn => absurd ((h.conns c sess).mp (Server.at_eq_some.mpr ⟨k, hk, hs⟩)) (by rw [hn]; simp), ?_⟩
      · intro x hx
        rcases List.mem_cons.mp hx with rfl | hx
        · rfl
        · obtain ⟨q, rfl⟩ := h2 x hx; rfl
      · rw [State.run, hst]; exact h3
      · rw [sentOn, hst]
        simp only [Event.conn, if_pos]
        rw [h4, h7]
  | deliver c f =>
    cases hk : srv.conns.get c with
    | none => exact idle (c := c) rfl (by simp only [Server.step, none_at c hk])
    | some k =>
      obtain ⟨sess, hs⟩ := (hi.conns c k hk).2
      have e : srv.step cfg (.deliver c f) = srv.deliver c k.session sess f := by
        simp only [Server.step, Server.onConn, hk, hs]
      rcases deliver_alone h ho hk (sess := sess) f with ⟨_, h1⟩ | ⟨s1, h1, h2, h3⟩
      · exact idle (c := c) rfl (e.trans h1)
      · rw [e]
        have hst : s.step cfg (.deliver c f) = some (s1, (srv.deliver c k.session sess f).2.sent) := by
          simp only [State.step, (h.conns c sess).mp (Server.at_eq_some.mpr ⟨k, hk, hs⟩)]
          exact h1
        refine ⟨[.deliver c f], s1, c, rfl, by simp [Event.conn], by rw [State.run, hst]; rfl, h2, h3,
          fun hn => absurd ((h.conns c sess).mp (Server.at_eq_some.mpr ⟨k, hk, hs⟩)) (by rw [hn]; simp), ?_⟩
        rw [sentOn, hst]
        simp [Event.conn, sentOn]
  | close c =>
    cases hk : srv.conns.get c with
    | none => exact idle (c := c) rfl (by simp only [Server.step, none_at c hk])
    | some k =>
      obtain ⟨sess, hs⟩ := (hi.conns c k hk).2
      have e : srv.step cfg (.close c) = (srv.finish c k.session sess, {}) := by
        simp only [Server.step, Server.onConn, hk, hs]
      rw [e]
      obtain ⟨s2, s3, k1, ⟨es, k2, k3, k4⟩, k5, k6⟩ := same_finish cfg h ho hk rfl rfl (same_q h) (Same.refl _ _) sess
      have hst : s.step cfg (.close c) = some (s2, []) := by
        simp only [State.step, (h.conns c sess).mp (Server.at_eq_some.mpr ⟨k, hk, hs⟩), k1, Option.map_some]
      refine ⟨.close c :: es, s3, c, rfl, ?_, ?_, k5, k6,
        fun hn => absurd ((h.conns c sess).mp (Server.at_eq_some.mpr ⟨k, hk, hs⟩)) (by rw [hn]; simp), ?_⟩
      · intro x hx
        rcases List.mem_cons.mp hx with rfl | hx
        · rfl
        · obtain ⟨q, rfl⟩ := k2 x hx; rfl
      · rw [State.run, hst]; exact k3
      · rw [sentOn, hst]
        simp only [Event.conn, if_pos]
        rw [k4]
        rfl
  | abort c => exact absurd List.mem_cons_self (he.goesOn.2 c)
  | restart => exact absurd List.mem_cons_self he.goesOn.1

theorem run_others {cfg : AuthConfig} {c : Nat} {es : List Event} (he : ∀ x ∈ es, x.conn = c) :
    ∀ {s s' : State}, s.run cfg es = some s' → Same c s s' := by
  induction es with
  | nil => intro s s' h; cases h; exact Same.refl _ _
  | cons e es ih =>
    intro s s' h
    obtain ⟨s1, out, h1, h2⟩ := run_cons h
    obtain ⟨new, hm⟩ := step_moves h1
    rw [he e List.mem_cons_self] at hm
    exact Same.trans (fun d hd => hm.others d hd) (ih (fun x hx => he x (List.mem_cons_of_mem _ hx)) h2)

theorem CleanHistory.tail {cfg : AuthConfig} {e : Mercurio.Event} {es : List Mercurio.Event}
    (h : CleanHistory cfg (e :: es)) : CleanHistory cfg [e] ∧ CleanHistory cfg es ∧
      ∀ c, opened e = some c → c ∉ es.filterMap opened := by
  obtain ⟨h1, h2, h3, h4⟩ := h
  refine ⟨⟨fun c p u w hm => h1 c p u w ?_, ?_, ?_, ?_⟩, ⟨fun c p u w hm => h1 c p u w (List.mem_cons_of_mem _ hm),
    ?_, fun hm => h3 (List.mem_cons_of_mem _ hm), fun c hm => h4 c (List.mem_cons_of_mem _ hm)⟩, ?_⟩
  · rcases List.mem_cons.mp hm with rfl | hm
    · exact List.mem_cons_self
    · cases hm
  · cases ho : opened e <;> simp [ho]
  · intro hm
    rcases List.mem_cons.mp hm with rfl | hm
    · exact h3 List.mem_cons_self
    · cases hm
  · intro c hm
    rcases List.mem_cons.mp hm with rfl | hm
    · exact h4 c List.mem_cons_self
    · cases hm
  · rw [List.filterMap_cons] at h2
    split at h2
    · exact h2
    · exact (List.nodup_cons.mp h2).2
  · intro c hc
    rw [List.filterMap_cons, hc] at h2
    exact (List.nodup_cons.mp h2).1

theorem history_alone (cfg : AuthConfig) (es : List Mercurio.Event) :
    ∀ {s : State} {srv : Server}, SameState s srv → Server.Inv srv → OwnSessions srv → CleanHistory cfg es →
      (∀ c ∈ es.filterMap opened, s.tasks.get c = none) →
      ∃ es' s', s.run cfg es' = some s' ∧ SameState s' (srv.run cfg es) ∧
        ∀ c, sentOn cfg c s es' = Server.sentTo cfg c srv es := by
  induction es with
  | nil => intro s srv h _ _ _ _; exact ⟨[], s, rfl, h, fun _ => rfl⟩
  | cons e es ih =>
    intro s srv h hi ho hc hf
    obtain ⟨c1, c2, c3⟩ := CleanHistory.tail hc
    obtain ⟨xs, s1, c, hx, k1, k2, k3, k4, k6, k5⟩ := event_alone cfg h hi ho e c1 fun c hoc =>
      hf c (List.mem_filterMap.mpr ⟨e, List.mem_cons_self, hoc⟩)
    have hrest : ∀ d ∈ es.filterMap opened, s1.tasks.get d = none := by
      intro d hd
      have h1 : s.tasks.get d = none := by
        obtain ⟨x, hxm, hxd⟩ := List.mem_filterMap.mp hd
        exact hf d (List.mem_filterMap.mpr ⟨x, List.mem_cons_of_mem _ hxm, hxd⟩)
      by_cases hdc : d = c
      · subst hdc
        rcases k6 h1 with rfl | h2
        · cases k2; exact h1
        · exact absurd hd (c3 d h2)
      · rw [run_others k1 k2 d hdc]; exact h1
    obtain ⟨ys, s2, j1, j2, j3⟩ := ih k3 (hi.step cfg e) k4 c2 hrest
    refine ⟨xs ++ ys, s2, ?_, j2, ?_⟩
    · rw [run_append, k2]; exact j1
    · intro d
      rw [sentOn_append k2, j3, Server.sentTo, hx]
      by_cases hdc : d = c
      · subst hdc; rw [if_pos rfl, k5]
      · rw [if_neg (by intro h; cases h; exact hdc rfl), sentOn_other k1 hdc]

end Tasks

open Tasks

/-- C89, that the step by step model is about the same server: the handling of a packet that no other
connection interrupts has the effect, and sends the packets, that `Server.step` describes. -/
theorem C89_alone (cfg : AuthConfig) (s : Tasks.State) (srv : Server) (h : SameState s srv) (ho : OwnSessions srv)
    (c : Nat) (hs : ∃ sess, srv.at c = some sess) (p : Packet) :
    ∃ es s', (∀ e ∈ es, ∃ q, e = .work c q) ∧ s.run cfg (.arrive c p :: es) = some s' ∧
      SameState s' (srv.step cfg (.recv c p)).1 ∧
      sentOn cfg c s (.arrive c p :: es) = (srv.step cfg (.recv c p)).2.sent := by
  obtain ⟨sess, hs⟩ := hs
  obtain ⟨k, hk, hg, e⟩ := Server.onConn_at hs fun r s => srv.recv cfg c r s p
  obtain ⟨s1, out1, s2, out2, h1, ⟨es, h2, h3, h4⟩, h5, _, h6⟩ := arrive_alone cfg h ho hk hg p
  have hst : s.step cfg (.arrive c p) = some (s1, out1) := by
    simp only [Tasks.State.step, (h.conns c sess).mp hs]
    exact h1
  refine ⟨es, s2, h2, ?_, ?_, ?_⟩
  · rw [Tasks.State.run, hst]; exact h3
  · simp only [Server.step]
    rw [e]; exact h5
  · rw [sentOn, hst]
    simp only [Tasks.Event.conn, if_pos, Server.step]
    rw [e, h4, h6]

/-- C89, that the step by step model is about the same server, for whole histories: in any history in which
clients connect with clean starts, whatever they send and however they leave, a server that handles one event
after the other is in a state that connections running at the same time can get into, and sends on each
connection what they can send. -/
theorem C89_histories (cfg : AuthConfig) (es : List Event) (h : CleanHistory cfg es) :
    ∃ es' s', Tasks.State.init.run cfg es' = some s' ∧ SameState s' (Server.init.run cfg es) ∧
      ∀ c, sentOn cfg c Tasks.State.init es' = Server.init.sentTo cfg c es := by
  refine history_alone cfg es ⟨?_, ⟨rfl, rfl⟩, rfl, ?_⟩ Server.Inv.init ?_ h fun _ _ => rfl
  · intro c t ht; cases ht
  · intro c sess
    constructor
    · intro h; cases h
    · intro h; cases h
  · intro c d k k' h; cases h

/-- A client with a will connects, subscribes, publishes, sends a PUBLISH without the packet identifier it needs
and is thrown out; another one is there all the time. -/
def aloneEvents : List Event :=
  [.first 0 (.connect (exConnect (str "x") true)) (str "u") true,
   .first 1 (.connect (exConnect (str "y") true)) (str "v") true,
   .recv 1 (.subscribe { packetId := 1, payload := [⟨str "#", { qos := .atMostOnce }⟩] }),
   .recv 0 (.publish samplePublish),
   .recv 0 (.publish { samplePublish with packetId := none }),
   .deliver 1 (str "#")]

example : CleanHistory {} aloneEvents := by
  refine ⟨?_, by decide, by decide, ?_⟩
  · intro c p uuid w h
    simp only [aloneEvents, List.mem_cons, List.not_mem_nil, or_false, Event.first.injEq, reduceCtorEq] at h
    rcases h with ⟨_, rfl, _, rfl⟩ | ⟨_, rfl, _, rfl⟩
    · exact ⟨_, rfl, rfl, rfl, fun h => by cases h⟩
    · exact ⟨_, rfl, rfl, rfl, fun h => by cases h⟩
  · intro c
    simp [aloneEvents]

example : ∃ s srv sess, SameState s srv ∧ OwnSessions srv ∧ srv.at 0 = some sess := by
  have h0 : SameState Tasks.State.init Server.init := by
    refine ⟨?_, ⟨rfl, rfl⟩, rfl, ?_⟩
    · intro c t ht; cases ht
    · intro c sess; exact ⟨fun h => (by cases h), fun h => (by cases h)⟩
  obtain ⟨es, s, c, _, _, _, h1, h2, _⟩ := event_alone {} h0 Server.Inv.init (by intro c d k k' h; cases h)
    (.first 0 (.connect (exConnect (str "x") true)) (str "u") true) (by
      refine ⟨?_, by decide, by decide, by intro c; simp⟩
      intro c p uuid w h
      simp only [List.mem_cons, List.not_mem_nil, or_false, Event.first.injEq] at h
      obtain ⟨_, rfl, _, rfl⟩ := h
      exact ⟨_, rfl, rfl, rfl, fun h => by cases h⟩) (fun _ _ => rfl)
  exact ⟨_, _, _, h1, h2, rfl⟩

/-- The packets sent are not none: an acknowledgement, and the message with the will behind it. -/
example : (Server.init.sentTo {} 0 aloneEvents).length = 2 ∧ (Server.init.sentTo {} 1 aloneEvents).length = 3 := by
  decide +kernel

end Mercurio
