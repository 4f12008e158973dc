import Verif.Spec.Tasks
import Verif.Props.Calls
import Verif.Props.Delivery

/-! # Lemmas: tasks of connections, step by step -/

namespace Mercurio

open Spec

namespace Calls

/-- Equal, except for parts of the storage that have nothing to do with retained messages. -/
structure Sim (a b : State) : Prop where
  walk : a.walk = b.walk
  reads : a.reads = b.reads
  stored : a.stored = b.stored
  store : a.store.retained = b.store.retained

theorem Sim.refl (a : State) : Sim a a := ⟨rfl, rfl, rfl, rfl⟩
theorem Sim.trans {a b c : State} (h : Sim a b) (k : Sim b c) : Sim a c :=
  ⟨h.walk.trans k.walk, h.reads.trans k.reads, h.stored.trans k.stored, h.store.trans k.store⟩
theorem Sim.symm {a b : State} (h : Sim a b) : Sim b a :=
  ⟨h.walk.symm, h.reads.symm, h.stored.symm, h.store.symm⟩

theorem publishStore_retained {a b : MemoryStore} (h : a.retained = b.retained) (t : Str) (m : Message) :
    (Broker.publishStore a t m).retained = (Broker.publishStore b t m).retained := by
  unfold Broker.publishStore
  split
  · split <;> simp [MemoryStore.storeRetained, h]
  · exact h

theorem getRetained_eq {a b : MemoryStore} (h : a.retained = b.retained) (f : Str) :
    a.getRetained f = b.getRetained f := by
  unfold MemoryStore.getRetained
  rw [h]

theorem sim_tree {a b a' : State} (h : Sim a b) {e : Walk.Event Message} (hs : a.tree e = some a') :
    ∃ b', b.tree e = some b' ∧ Sim a' b' := by
  obtain ⟨w, hw, rfl⟩ := tree_some hs
  refine ⟨{ b with walk := w }, ?_, ⟨rfl, h.reads, h.stored, h.store⟩⟩
  unfold State.tree
  rw [← h.walk, hw]

theorem sim_step {a b a' : State} (h : Sim a b) {e : Event} (hs : step a e = some a') :
    ∃ b', step b e = some b' ∧ Sim a' b' := by
  cases e with
  | subTree q f =>
    refine sim_tree (a := { a with reads := a.reads.insert q (f, none) })
      (b := { b with reads := b.reads.insert q (f, none) }) ⟨h.walk, ?_, h.stored, h.store⟩ hs
    simp only [h.reads]
  | subRead q =>
    simp only [step] at hs ⊢
    rw [← h.reads]
    cases hr : a.reads.get q with
    | none => rw [hr] at hs; cases hs
    | some x =>
      obtain ⟨f, y⟩ := x
      cases y with
      | some r => rw [hr] at hs; cases hs
      | none =>
        rw [hr] at hs
        cases hs
        exact ⟨_, rfl, ⟨h.walk, by rw [getRetained_eq h.store], h.stored, h.store⟩⟩
  | store k t m =>
    simp only [step] at hs ⊢
    rw [← h.stored, ← h.walk]
    split at hs
    · rename_i hc
      rw [if_pos hc]
      cases hs
      exact ⟨_, rfl, ⟨rfl, h.reads, rfl, publishStore_retained h.store t m⟩⟩
    · cases hs
  | begin k t m =>
    simp only [step] at hs ⊢
    rw [← h.stored]
    split at hs
    · rename_i hc
      rw [if_pos hc]
      exact sim_tree (a := { a with stored := a.stored.erase k })
        (b := { b with stored := a.stored.erase k }) ⟨h.walk, h.reads, rfl, h.store⟩ hs
    · cases hs
  | work k => exact sim_tree h hs
  | finish k => exact sim_tree h hs

theorem sim_run {a b a' : State} (h : Sim a b) {es : List Event} (hs : run a es = some a') :
    ∃ b', run b es = some b' ∧ Sim a' b' := by
  induction es generalizing a b with
  | nil => cases hs; exact ⟨b, rfl, h⟩
  | cons e es ih =>
    obtain ⟨a1, h1, h2⟩ := run_cons hs
    obtain ⟨b1, h3, h4⟩ := sim_step h h1
    obtain ⟨b', h5, h6⟩ := ih h4 h2
    exact ⟨b', by simp only [run, h3, h5], h6⟩

theorem run_one {a a' : State} {e : Event} (h : step a e = some a') : run a [e] = some a' := by
  simp only [run, h]

end Calls

namespace Tasks

/-- The task whose publication a step belongs to. -/
def owner : Calls.Event → Option Nat
  | .store k _ _ | .begin k _ _ | .work k | .finish k => some k
  | _ => none

/-- From `s` to `s'`, steps in the broker were taken as the log says, none of them for a publication of another
task, and no task other than `c` changed. -/
structure Moves (c : Nat) (new : List Calls.Event) (s s' : State) : Prop where
  log : s'.log = s.log ++ new
  calls : ∃ cs, Calls.run s.calls new = some cs ∧ Calls.Sim cs s'.calls
  others : ∀ c', c' ≠ c → s'.tasks.get c' = s.tasks.get c'
  own : ∀ e ∈ new, ∀ k, owner e = some k → k = c

theorem Moves.refl (c : Nat) (s : State) : Moves c [] s s :=
  ⟨by simp, ⟨_, rfl, Calls.Sim.refl _⟩, fun _ _ => rfl, by simp⟩

theorem Moves.trans {c : Nat} {a b : List Calls.Event} {s s' s'' : State} (h : Moves c a s s')
    (k : Moves c b s' s'') : Moves c (a ++ b) s s'' := by
  obtain ⟨cs, h1, h2⟩ := h.calls
  obtain ⟨cs', h3, h4⟩ := k.calls
  obtain ⟨cs'', h5, h6⟩ := Calls.sim_run h2.symm h3
  refine ⟨by rw [k.log, h.log, List.append_assoc], ⟨cs'', ?_, h6.symm.trans h4⟩,
    fun c' hc => (k.others c' hc).trans (h.others c' hc), fun e he => ?_⟩
  · rw [Calls.run_append, h1]
    exact h5
  · rcases List.mem_append.mp he with he | he
    · exact h.own e he
    · exact k.own e he

theorem moves_put (s : State) (c : Nat) (t : Task) : Moves c [] s (s.put c t) :=
  ⟨by simp [State.put], ⟨_, rfl, Calls.Sim.refl _⟩,
    fun _ hc => (Map.get_insert _ _ _ _).trans (if_neg (Ne.symm hc)), by simp⟩

theorem put_get (s : State) (c : Nat) (t : Task) : (s.put c t).tasks.get c = some t :=
  (Map.get_insert _ _ _ _).trans (if_pos rfl)

theorem moves_mapStore (s : State) (c : Nat) (g : MemoryStore → MemoryStore)
    (hg : ∀ st, (g st).retained = st.retained) : Moves c [] s (s.mapStore g) :=
  ⟨by simp [State.mapStore], ⟨_, rfl, ⟨rfl, rfl, rfl, (hg _).symm⟩⟩, fun _ _ => rfl, by simp⟩

theorem call_some {s s' : State} {e : Calls.Event} (h : s.call e = some s') :
    ∃ cs, Calls.step s.calls e = some cs ∧ s' = { s with calls := cs, log := s.log ++ [e] } := by
  unfold State.call at h
  cases hs : Calls.step s.calls e with
  | none => rw [hs] at h; cases h
  | some cs => rw [hs] at h; cases h; exact ⟨cs, rfl, rfl⟩

theorem moves_call {s s' : State} {e : Calls.Event} (h : s.call e = some s') (c : Nat)
    (ho : ∀ k, owner e = some k → k = c) : Moves c [e] s s' := by
  obtain ⟨cs, h1, rfl⟩ := call_some h
  exact ⟨rfl, ⟨cs, Calls.run_one h1, Calls.Sim.refl _⟩, fun _ _ => rfl, by simpa using ho⟩

theorem deleteWill_retained (st : MemoryStore) (cid : Str) : (st.deleteWill cid).retained = st.retained := rfl

theorem saveAfter_retained (sess : Session) (p : Packet) (st : MemoryStore) :
    (Server.saveAfter sess p st).retained = st.retained := by
  have h : ∀ id, (st.removeInflight sess.clientId id).retained = st.retained := by
    intro id
    unfold MemoryStore.removeInflight
    split <;> rfl
  cases p <;> first | rfl | exact h _

theorem saveOutgoing_retained (sess : Session) (p : PublishPacket) (st : MemoryStore) :
    (Server.saveOutgoing sess p st).retained = st.retained := by
  unfold Server.saveOutgoing
  cases p.packetId with
  | none => rfl
  | some id => cases p.qos <;> rfl

theorem entering_retained (p : ConnectPacket) (sess : Session) (st : MemoryStore) :
    (State.entering p sess st).retained = st.retained := by
  unfold State.entering Server.saveStart
  cases sess.will <;> cases p.flags.cleanStart <;> rfl

theorem map_fst_some {o : Option State} {s' : State} {out : List Packet}
    (h : (o.map fun s => (s, ([] : List Packet))) = some (s', out)) : o = some s' ∧ out = [] := by
  cases o with
  | none => cases h
  | some s =>
    simp only [Option.map_some, Option.some.injEq, Prod.mk.injEq] at h
    exact ⟨by rw [h.1], h.2.symm⟩

/-- What the end of a connection does. -/
theorem ending_some {s s' : State} {c : Nat} {sess : Session} (h : s.ending c sess = some s') :
    (sess.will = none ∧ s' = s.drop c sess) ∨
    ∃ w s1, sess.will = some w ∧ s.call (.store c w.topic (Server.willMessage w)) = some s1 ∧
      s' = s1.put c ⟨{ sess with will := none }, .stored w.topic (Server.willMessage w) none⟩ := by
  unfold State.ending at h
  cases hw : sess.will with
  | none => rw [hw] at h; cases h; exact Or.inl ⟨rfl, rfl⟩
  | some w =>
    rw [hw] at h
    simp only at h
    cases hc : s.call (.store c w.topic (Server.willMessage w)) with
    | none => rw [hc] at h; cases h
    | some s1 => rw [hc] at h; cases h; exact Or.inr ⟨w, s1, rfl, hc, rfl⟩

theorem moves_ending {s s' : State} {c : Nat} {sess : Session} (h : s.ending c sess = some s') :
    ∃ new, Moves c new s s' := by
  rcases ending_some h with ⟨_, rfl⟩ | ⟨w, s1, _, h1, rfl⟩
  · exact ⟨_, moves_put _ _ _⟩
  · exact ⟨_, (moves_call h1 c (by rintro k ⟨⟩ <;> rfl)).trans (moves_put _ _ _)⟩

/-- The packets whose handling is one step. -/
def Simple : Packet → Prop
  | .publish _ | .subscribe _ | .disconnect _ => False
  | _ => True

theorem arrive_simple (cfg : AuthConfig) (s : State) (c : Nat) (sess : Session) (p : Packet) (hp : Simple p) :
    s.arrive cfg c sess p = (match (sess.processIncoming s.world cfg.manager c p).result with
      | .error _ => (s.ending c (sess.processIncoming s.world cfg.manager c p).session).map fun s => (s, [])
      | .ok res => some ((s.mapStore (Server.saveAfter (sess.processIncoming s.world cfg.manager c p).session p)).put c
          ⟨(sess.processIncoming s.world cfg.manager c p).session, .idle⟩, res.toList)) := by
  cases p <;> first | rfl | exact hp.elim

theorem packet_cases (p : Packet) : (∃ q, p = .publish q) ∨ (∃ q, p = .subscribe q) ∨ (∃ d, p = .disconnect d) ∨
    Simple p := by
  cases p <;> simp [Simple]

theorem moves_arrive {cfg : AuthConfig} {s s' : State} {c : Nat} {sess : Session} {p : Packet} {out : List Packet}
    (h : s.arrive cfg c sess p = some (s', out)) : ∃ new, Moves c new s s' := by
  rcases packet_cases p with ⟨q, rfl⟩ | ⟨q, rfl⟩ | ⟨d, rfl⟩ | hp
  · obtain ⟨h, _⟩ := map_fst_some h
    unfold State.beginPublish at h
    split at h
    · exact moves_ending h
    · split at h
      · rename_i s1 h1
        cases h
        exact ⟨_, (moves_call h1 c (by rintro k ⟨⟩ <;> rfl)).trans (moves_put _ _ _)⟩
      · cases h
  · simp only [State.arrive] at h
    cases h
    exact ⟨_, moves_put _ _ _⟩
  · simp only [State.arrive] at h
    cases h
    exact ⟨_, (moves_mapStore _ _ _ fun st => deleteWill_retained st _).trans (moves_put _ _ _)⟩
  · rw [arrive_simple _ _ _ _ _ hp] at h
    split at h
    · exact moves_ending (map_fst_some h).1
    · cases h
      exact ⟨_, (moves_mapStore _ _ _ (saveAfter_retained _ _)).trans (moves_put _ _ _)⟩

theorem moves_published {s s' : State} {c : Nat} {sess : Session} {p : Option PublishPacket} {out : List Packet}
    (h : s.published c sess p = some (s', out)) : ∃ new, Moves c new s s' := by
  cases p with
  | none =>
    simp only [State.published] at h
    cases h
    exact ⟨_, (moves_mapStore _ _ _ fun st => deleteWill_retained st _).trans (moves_put _ _ _)⟩
  | some p =>
    simp only [State.published] at h
    split at h
    · cases h; exact ⟨_, moves_put _ _ _⟩
    · exact moves_ending (map_fst_some h).1

theorem moves_work {s s' : State} {c q : Nat} {sess : Session} {ph : Phase} {out : List Packet}
    (h : s.work c q sess ph = some (s', out)) (ht : s.tasks.get c = some ⟨sess, ph⟩) : ∃ new, Moves c new s s' := by
  cases ph with
  | idle => cases h
  | ended => cases h
  | stored t m p =>
    simp only [State.work] at h
    cases hc : s.call (.begin c t m) with
    | none => rw [hc] at h; cases h
    | some s1 =>
      rw [hc] at h
      cases h
      exact ⟨_, (moves_call hc c (by rintro k ⟨⟩ <;> rfl)).trans (moves_put _ _ _)⟩
  | routing p =>
    simp only [State.work] at h
    split at h
    · cases hc : s.call (.finish c) with
      | none => rw [hc] at h; cases h
      | some s1 =>
        rw [hc] at h
        obtain ⟨new, h1⟩ := moves_published h
        exact ⟨_, (moves_call hc c (by rintro k ⟨⟩ <;> rfl)).trans h1⟩
    · exact ⟨_, moves_call (map_fst_some h).1 c (by rintro k ⟨⟩ <;> rfl)⟩
  | subscribing p todo codes =>
    cases todo with
    | nil =>
      simp only [State.work] at h
      cases h
      exact ⟨_, (moves_mapStore _ _ _ (saveAfter_retained _ _)).trans (moves_put _ _ _)⟩
    | cons f fs =>
      simp only [State.work] at h
      split at h
      · cases h; exact ⟨_, moves_put _ _ _⟩
      · cases hc : s.call (.subTree q f) with
        | none => rw [hc] at h; cases h
        | some s1 =>
          rw [hc] at h
          cases h
          exact ⟨_, (moves_call hc c (by rintro k ⟨⟩ <;> rfl)).trans (moves_put _ _ _)⟩
  | reading p q' f fs codes =>
    simp only [State.work] at h
    split at h
    · cases h
    · rename_i s1 hc
      split at h
      · cases h
        exact ⟨_, (moves_call hc c (by rintro k ⟨⟩ <;> rfl)).trans (moves_put _ _ _)⟩
      · cases h

theorem moves_deliver {s s' : State} {c : Nat} {sess : Session} {f : Str} {out : List Packet}
    (h : s.deliver c sess f = some (s', out)) : Moves c [] s s' := by
  unfold State.deliver at h
  split at h
  · cases h
  · cases h
    exact (moves_mapStore _ _ _ (saveOutgoing_retained _ _)).trans (moves_put _ _ _)
  · cases h
    exact moves_put _ _ _

/-- What a step can look like. -/
theorem step_inv {cfg : AuthConfig} {s s' : State} {e : Event} {out : List Packet}
    (h : s.step cfg e = some (s', out)) :
    (∃ c p uuid, e = .start c p uuid ∧ s.tasks.get c = none ∧
      s' = (s.mapStore (State.entering p ((Session.new p).begin uuid false).1)).put c
        ⟨((Session.new p).begin uuid false).1, .idle⟩ ∧
      out = [.connAck ((Session.new p).begin uuid false).2]) ∨
    (∃ c p sess, e = .arrive c p ∧ s.tasks.get c = some ⟨sess, .idle⟩ ∧ s.arrive cfg c sess p = some (s', out)) ∨
    (∃ c q sess ph, e = .work c q ∧ s.tasks.get c = some ⟨sess, ph⟩ ∧ s.work c q sess ph = some (s', out)) ∨
    (∃ c f sess, e = .deliver c f ∧ s.tasks.get c = some ⟨sess, .idle⟩ ∧ s.deliver c sess f = some (s', out)) ∨
    (∃ c sess, e = .close c ∧ s.tasks.get c = some ⟨sess, .idle⟩ ∧ s.ending c sess = some s' ∧ out = []) := by
  cases e with
  | start c p uuid =>
    simp only [State.step] at h
    cases hg : s.tasks.get c with
    | some t => rw [hg] at h; cases h
    | none => rw [hg] at h; cases h; exact Or.inl ⟨c, p, uuid, rfl, hg, rfl, rfl⟩
  | arrive c p =>
    simp only [State.step] at h
    split at h
    · rename_i sess hg; exact Or.inr (Or.inl ⟨c, p, sess, rfl, hg, h⟩)
    · cases h
  | work c q =>
    simp only [State.step] at h
    split at h
    · rename_i sess ph hg; exact Or.inr (Or.inr (Or.inl ⟨c, q, sess, ph, rfl, hg, h⟩))
    · cases h
  | deliver c f =>
    simp only [State.step] at h
    split at h
    · rename_i sess hg; exact Or.inr (Or.inr (Or.inr (Or.inl ⟨c, f, sess, rfl, hg, h⟩)))
    · cases h
  | close c =>
    simp only [State.step] at h
    split at h
    · rename_i sess hg
      obtain ⟨h1, h2⟩ := map_fst_some h
      exact Or.inr (Or.inr (Or.inr (Or.inr ⟨c, sess, rfl, hg, h1, h2⟩)))
    · cases h

theorem step_moves {cfg : AuthConfig} {s s' : State} {e : Event} {out : List Packet}
    (h : s.step cfg e = some (s', out)) : ∃ new, Moves e.conn new s s' := by
  rcases step_inv h with ⟨c, p, u, rfl, _, rfl, _⟩ | ⟨c, p, sess, rfl, _, h1⟩ | ⟨c, q, sess, ph, rfl, h0, h1⟩ |
    ⟨c, f, sess, rfl, _, h1⟩ | ⟨c, sess, rfl, _, h1, _⟩
  · exact ⟨_, (moves_mapStore _ _ _ (entering_retained _ _)).trans (moves_put _ _ _)⟩
  · exact moves_arrive h1
  · exact moves_work h1 h0
  · exact ⟨_, moves_deliver h1⟩
  · exact moves_ending h1

theorem run_cons {cfg : AuthConfig} {s s' : State} {e : Event} {es : List Event}
    (h : s.run cfg (e :: es) = some s') : ∃ s1 out, s.step cfg e = some (s1, out) ∧ s1.run cfg es = some s' := by
  simp only [State.run] at h
  cases hs : s.step cfg e with
  | none => rw [hs] at h; cases h
  | some x => rw [hs] at h; exact ⟨x.1, x.2, rfl, h⟩

theorem run_append {cfg : AuthConfig} (s : State) (a b : List Event) :
    s.run cfg (a ++ b) = (s.run cfg a).bind fun s' => s'.run cfg b := by
  induction a generalizing s with
  | nil => rfl
  | cons e es ih =>
    simp only [List.cons_append, State.run]
    cases s.step cfg e with
    | none => rfl
    | some x => exact ih x.1

theorem run_split {cfg : AuthConfig} {s s' : State} {a b : List Event} (h : s.run cfg (a ++ b) = some s') :
    ∃ s1, s.run cfg a = some s1 ∧ s1.run cfg b = some s' := by
  rw [run_append] at h
  cases h1 : s.run cfg a with
  | none => rw [h1] at h; cases h
  | some s1 => rw [h1] at h; exact ⟨s1, rfl, h⟩

theorem run_one {cfg : AuthConfig} {s s' : State} {e : Event} (h : s.run cfg [e] = some s') :
    ∃ out, s.step cfg e = some (s', out) := by
  obtain ⟨s1, out, h1, h2⟩ := run_cons h
  cases h2
  exact ⟨out, h1⟩

/-- The log of a run, and the broker's part of the state. -/
theorem run_log {cfg : AuthConfig} {s s' : State} {es : List Event} (h : s.run cfg es = some s') :
    ∃ new cs, s'.log = s.log ++ new ∧ Calls.run s.calls new = some cs ∧ Calls.Sim cs s'.calls := by
  induction es generalizing s with
  | nil => cases h; exact ⟨[], _, by simp, rfl, Calls.Sim.refl _⟩
  | cons e es ih =>
    obtain ⟨s1, out, h1, h2⟩ := run_cons h
    obtain ⟨new, hm⟩ := step_moves h1
    obtain ⟨new', cs', k1, k2, k3⟩ := ih h2
    obtain ⟨cs, m1, m2⟩ := hm.calls
    obtain ⟨cs'', m3, m4⟩ := Calls.sim_run m2.symm k2
    refine ⟨new ++ new', cs'', by rw [k1, hm.log, List.append_assoc], ?_, m4.symm.trans k3⟩
    rw [Calls.run_append, m1]
    exact m3

/-- After a history from the start, the log is a run of the broker, and leads to the broker's state. -/
theorem log_sound {cfg : AuthConfig} {s : State} {es : List Event} (h : State.init.run cfg es = some s) :
    ∃ cs, Calls.run Calls.init s.log = some cs ∧ Calls.Sim cs s.calls := by
  obtain ⟨new, cs, h1, h2, h3⟩ := run_log h
  have : s.log = new := h1
  exact ⟨cs, by rw [this]; exact h2, h3⟩

/-! ## The state of a task and its running call -/

/-- Task `c` has no running `publish`. -/
def Free (cs : Calls.State) (c : Nat) : Prop := cs.stored.get c = none ∧ cs.walk.calls.get c = none

/-- The running calls of task `c` are as its phase says. -/
def OkTask (cs : Calls.State) (c : Nat) : Option Task → Prop
  | some ⟨_, .stored t m _⟩ => cs.stored.get c = some (t, m) ∧ cs.walk.calls.get c = none
  | some ⟨_, .routing _⟩ => cs.stored.get c = none ∧ ∃ k, cs.walk.calls.get c = some k
  | some ⟨_, .reading _ q f _ _⟩ => Free cs c ∧ cs.reads.get q = some (f, none) ∧ ∃ r, cs.walk.subs.get q = some r
  | _ => Free cs c

/-- The number of the `subscribe` call a task is in. -/
def readingOf : Option Task → Option Nat
  | some ⟨_, .reading _ q _ _ _⟩ => some q
  | _ => none

/-- All tasks other than `c` are fine. -/
structure Others (s : State) (c : Nat) : Prop where
  ok : ∀ c', c' ≠ c → OkTask s.calls c' (s.tasks.get c')
  apart : ∀ c1 c2, c1 ≠ c → c2 ≠ c → c1 ≠ c2 → ∀ q, readingOf (s.tasks.get c1) = some q →
    readingOf (s.tasks.get c2) ≠ some q

/-- All tasks are fine. -/
structure Good (s : State) : Prop where
  ok : ∀ c, OkTask s.calls c (s.tasks.get c)
  apart : ∀ c1 c2, c1 ≠ c2 → ∀ q, readingOf (s.tasks.get c1) = some q → readingOf (s.tasks.get c2) ≠ some q

theorem Good.others {s : State} (h : Good s) (c : Nat) : Others s c :=
  ⟨fun c' _ => h.ok c', fun c1 c2 _ _ h3 => h.apart c1 c2 h3⟩

theorem Others.put {s : State} {c : Nat} (h : Others s c) (t : Task) : Others (s.put c t) c := by
  have hg : ∀ c', c' ≠ c → (s.put c t).tasks.get c' = s.tasks.get c' := (moves_put s c t).others
  refine ⟨fun c' hc => ?_, fun c1 c2 h1 h2 h3 => ?_⟩
  · rw [hg c' hc]; exact h.ok c' hc
  · rw [hg c1 h1, hg c2 h2]; exact h.apart c1 c2 h1 h2 h3

theorem OkTask.same {a b : Calls.State} {c : Nat} {t : Option Task} (h : OkTask a c t)
    (hs : b.stored.get c = a.stored.get c) (hc : b.walk.calls.get c = a.walk.calls.get c)
    (hr : ∀ q f r, readingOf t = some q → a.reads.get q = some (f, none) → a.walk.subs.get q = some r →
      b.reads.get q = some (f, none) ∧ b.walk.subs.get q = some r) : OkTask b c t := by
  cases t with
  | none => exact ⟨hs.trans h.1, hc.trans h.2⟩
  | some t =>
    obtain ⟨sess, ph⟩ := t
    cases ph with
    | stored t m p => exact ⟨hs.trans h.1, hc.trans h.2⟩
    | routing p => obtain ⟨h1, k, h2⟩ := h; exact ⟨hs.trans h1, k, hc.trans h2⟩
    | reading p q f fs codes =>
      obtain ⟨h1, h2, r, h3⟩ := h
      obtain ⟨h4, h5⟩ := hr q f r rfl h2 h3
      exact ⟨⟨hs.trans h1.1, hc.trans h1.2⟩, h4, r, h5⟩
    | idle => exact ⟨hs.trans h.1, hc.trans h.2⟩
    | ended => exact ⟨hs.trans h.1, hc.trans h.2⟩
    | subscribing p todo codes => exact ⟨hs.trans h.1, hc.trans h.2⟩

theorem Others.mapStore {s : State} {c : Nat} (h : Others s c) (g : MemoryStore → MemoryStore) :
    Others (s.mapStore g) c := ⟨h.ok, h.apart⟩

/-- A step in the broker leaves the publications of other tasks alone. -/
theorem calls_frame {cs cs' : Calls.State} {e : Calls.Event} (h : Calls.step cs e = some cs') {c : Nat}
    (ho : owner e ≠ some c) : cs'.stored.get c = cs.stored.get c ∧ cs'.walk.calls.get c = cs.walk.calls.get c := by
  cases e with
  | subTree q f =>
    obtain ⟨w, hw, rfl⟩ := Calls.tree_some h
    simp only [Walk.step] at hw
    split at hw
    · cases hw; exact ⟨rfl, rfl⟩
    · cases hw
  | subRead q =>
    simp only [Calls.step] at h
    split at h
    · cases h; exact ⟨rfl, rfl⟩
    · cases h
  | store k t m =>
    simp only [Calls.step] at h
    split at h
    · cases h
      refine ⟨(Map.get_insert _ _ _ _).trans (if_neg fun hk => ho (by rw [← hk]; rfl)), rfl⟩
    · cases h
  | begin k t m =>
    simp only [Calls.step] at h
    split at h
    · obtain ⟨w, hw, rfl⟩ := Calls.tree_some h
      have hk : ¬ k = c := fun hk => ho (by rw [← hk]; rfl)
      simp only [Walk.step] at hw
      split at hw
      · cases hw
      · cases hw
        exact ⟨(Map.get_erase _ _ _).trans (if_neg hk), (Map.get_insert _ _ _ _).trans (if_neg hk)⟩
    · cases h
  | work k =>
    obtain ⟨w, hw, rfl⟩ := Calls.tree_some h
    have hk : ¬ k = c := fun hk => ho (by rw [← hk]; rfl)
    simp only [Walk.step] at hw
    split at hw
    · cases hw
      exact ⟨rfl, (Map.get_insert _ _ _ _).trans (if_neg hk)⟩
    · cases hw
  | finish k =>
    obtain ⟨w, hw, rfl⟩ := Calls.tree_some h
    have hk : ¬ k = c := fun hk => ho (by rw [← hk]; rfl)
    simp only [Walk.step] at hw
    split at hw
    · cases hw
      exact ⟨rfl, (Map.get_erase _ _ _).trans (if_neg hk)⟩
    · cases hw

theorem Others.call {s s' : State} {c : Nat} (h : Others s c) {e : Calls.Event} (hs : s.call e = some s')
    (ho : ∀ c', owner e = some c' → c' = c)
    (hr : ∀ q, e = .subRead q → ∀ c', c' ≠ c → readingOf (s.tasks.get c') ≠ some q) : Others s' c := by
  obtain ⟨cs, h1, rfl⟩ := call_some hs
  refine ⟨fun c' hc => ?_, h.apart⟩
  obtain ⟨h2, h3⟩ := calls_frame h1 (c := c') (fun h => hc (ho c' h))
  refine (h.ok c' hc).same h2 h3 fun q f r k1 k2 k3 => ?_
  obtain ⟨k4, k5⟩ := Calls.step_subs h1 k3
  exact ⟨(Calls.step_parts h1).2.2.2 q f k2 k5 (fun he => hr q he c' hc k1), k4⟩

theorem good_put {s : State} {c : Nat} (h : Others s c) {t : Task} (hok : OkTask s.calls c (some t))
    (hr : ∀ q, readingOf (some t) = some q → ∀ c', c' ≠ c → readingOf (s.tasks.get c') ≠ some q) :
    Good (s.put c t) := by
  have ho := h.put t
  have hc := put_get s c t
  refine ⟨fun c' => ?_, fun c1 c2 h3 q k1 k2 => ?_⟩
  · by_cases he : c' = c
    · subst he; rw [hc]; exact hok
    · exact ho.ok c' he
  · by_cases e1 : c1 = c
    · subst e1
      rw [hc] at k1
      rw [(moves_put s c1 t).others c2 (Ne.symm h3)] at k2
      exact hr q k1 c2 (Ne.symm h3) k2
    · by_cases e2 : c2 = c
      · subst e2
        rw [hc] at k2
        rw [(moves_put s c2 t).others c1 h3] at k1
        exact hr q k2 c1 h3 k1
      · exact ho.apart c1 c2 e1 e2 h3 q k1 k2

theorem call_tasks {s s' : State} {e : Calls.Event} (h : s.call e = some s') : s'.tasks = s.tasks := by
  obtain ⟨cs, _, rfl⟩ := call_some h
  rfl

/-- The storage step of a publication. -/
theorem store_own {s s' : State} {c : Nat} {t : Str} {m : Message} (h : s.call (.store c t m) = some s') :
    Free s.calls c ∧ s'.calls.stored.get c = some (t, m) ∧ s'.calls.walk.calls.get c = none := by
  obtain ⟨cs, h1, rfl⟩ := call_some h
  simp only [Calls.step] at h1
  split at h1
  · rename_i hc
    cases h1
    refine ⟨⟨Option.isNone_iff_eq_none.mp hc.1, Option.isNone_iff_eq_none.mp hc.2⟩,
      (Map.get_insert _ _ _ _).trans (if_pos rfl), Option.isNone_iff_eq_none.mp hc.2⟩
  · cases h1

/-- The beginning of its walk. -/
theorem begin_own {s s' : State} {c : Nat} {t : Str} {m : Message} (h : s.call (.begin c t m) = some s') :
    s'.calls.stored.get c = none ∧ s'.calls.walk.calls.get c = some ⟨m, [.visit [] (splitLevels t)]⟩ := by
  obtain ⟨cs, h1, rfl⟩ := call_some h
  simp only [Calls.step] at h1
  split at h1
  · obtain ⟨w, hw, rfl⟩ := Calls.tree_some h1
    simp only [Walk.step] at hw
    split at hw
    · cases hw
    · cases hw
      exact ⟨(Map.get_erase _ _ _).trans (if_pos rfl), (Map.get_insert _ _ _ _).trans (if_pos rfl)⟩
  · cases h1

/-- A step of its walk. -/
theorem work_own {s s' : State} {c : Nat} (h : s.call (.work c) = some s') :
    s'.calls.stored = s.calls.stored ∧ ∃ v a as, s.calls.walk.calls.get c = some ⟨v, a :: as⟩ ∧
      s'.calls.walk.calls.get c = some ⟨v, (Walk.act s.calls.walk.tree v a).2 ++ as⟩ := by
  obtain ⟨cs, h1, rfl⟩ := call_some h
  obtain ⟨w, hw, rfl⟩ := Calls.tree_some h1
  simp only [Walk.step] at hw
  split at hw
  · rename_i v a as hg
    cases hw
    exact ⟨rfl, v, a, as, hg, (Map.get_insert _ _ _ _).trans (if_pos rfl)⟩
  · cases hw

/-- Its end. -/
theorem finish_own {s s' : State} {c : Nat} (h : s.call (.finish c) = some s') :
    s'.calls.stored = s.calls.stored ∧ s'.calls.walk.calls.get c = none := by
  obtain ⟨cs, h1, rfl⟩ := call_some h
  obtain ⟨w, hw, rfl⟩ := Calls.tree_some h1
  simp only [Walk.step] at hw
  split at hw
  · cases hw
    exact ⟨rfl, (Map.get_erase _ _ _).trans (if_pos rfl)⟩
  · cases hw

/-- The tree step of a subscription. -/
theorem subTree_own {s s' : State} {q : Nat} {f : Str} (h : s.call (.subTree q f) = some s') :
    s.calls.walk.calls = [] ∧ s.calls.walk.subs.get q = none ∧ s'.calls.stored = s.calls.stored ∧
      s'.calls.walk.calls = s.calls.walk.calls ∧ s'.calls.reads.get q = some (f, none) ∧
      s'.calls.walk.subs.get q = some (TopicTree.subscribe s.calls.walk.tree f).2 ∧
      s'.calls.walk.tree = (TopicTree.subscribe s.calls.walk.tree f).1 := by
  obtain ⟨cs, h1, rfl⟩ := call_some h
  obtain ⟨w, hw, rfl⟩ := Calls.tree_some h1
  simp only [Walk.step] at hw
  split at hw
  · rename_i hc
    cases hw
    exact ⟨List.isEmpty_iff.mp hc.1, Option.isNone_iff_eq_none.mp hc.2, rfl, rfl,
      (Map.get_insert _ _ _ _).trans (if_pos rfl), (Map.get_insert _ _ _ _).trans (if_pos rfl), rfl⟩
  · cases hw

/-- Its read of retained messages. -/
theorem subRead_own {s s' : State} {q : Nat} (h : s.call (.subRead q) = some s') :
    ∃ f, s.calls.reads.get q = some (f, none) ∧ s'.calls.walk = s.calls.walk ∧
      s'.calls.stored = s.calls.stored ∧
      s'.calls.reads.get q = some (f, some (s.calls.store.getRetained f)) := by
  obtain ⟨cs, h1, rfl⟩ := call_some h
  simp only [Calls.step] at h1
  split at h1
  · rename_i f hg
    cases h1
    exact ⟨f, hg, rfl, rfl, (Map.get_insert _ _ _ _).trans (if_pos rfl)⟩
  · cases h1

theorem Free.of_eq {a b : Calls.State} {c : Nat} (h : Free a c) (h1 : b.stored = a.stored)
    (h2 : b.walk.calls = a.walk.calls) : Free b c := ⟨by rw [h1]; exact h.1, by rw [h2]; exact h.2⟩

theorem good_ending {s s' : State} {c : Nat} {sess : Session} (h : s.ending c sess = some s') (ho : Others s c)
    (hf : Free s.calls c) : Good s' := by
  rcases ending_some h with ⟨_, rfl⟩ | ⟨w, s1, _, h1, rfl⟩
  · exact good_put ho hf (by intro q hq; cases hq)
  · have h2 := ho.call h1 (by rintro c' ⟨⟩; rfl) (by rintro q ⟨⟩)
    exact good_put h2 (store_own h1).2 (by intro q hq; cases hq)

theorem good_step {cfg : AuthConfig} {s s' : State} {e : Event} {out : List Packet}
    (h : s.step cfg e = some (s', out)) (hg : Good s) : Good s' := by
  rcases step_inv h with ⟨c, p, u, rfl, h0, rfl, _⟩ | ⟨c, p, sess, rfl, h0, h1⟩ | ⟨c, q, sess, ph, rfl, h0, h1⟩ |
    ⟨c, f, sess, rfl, h0, h1⟩ | ⟨c, sess, rfl, h0, h1, _⟩
  all_goals
    have hok := hg.ok c
    have ho := hg.others c
    rw [h0] at hok
  · exact good_put (ho.mapStore _) hok (by intro q hq; cases hq)
  · have hf : Free s.calls c := hok
    rcases packet_cases p with ⟨q, rfl⟩ | ⟨q, rfl⟩ | ⟨d, rfl⟩ | hp
    · obtain ⟨h1, _⟩ := map_fst_some h1
      unfold State.beginPublish at h1
      split at h1
      · exact good_ending h1 ho hf
      · split at h1
        · rename_i s1 h2
          cases h1
          have h3 := ho.call h2 (by rintro c' ⟨⟩; rfl) (by rintro q ⟨⟩)
          exact good_put h3 (store_own h2).2 (by intro q hq; cases hq)
        · cases h1
    · simp only [State.arrive] at h1
      cases h1
      exact good_put ho hf (by intro q hq; cases hq)
    · simp only [State.arrive] at h1
      cases h1
      exact good_put (ho.mapStore _) hf (by intro q hq; cases hq)
    · rw [arrive_simple _ _ _ _ _ hp] at h1
      split at h1
      · exact good_ending (map_fst_some h1).1 ho hf
      · cases h1
        exact good_put (ho.mapStore _) hf (by intro q hq; cases hq)
  · cases ph with
    | idle => cases h1
    | ended => cases h1
    | stored t m p =>
      simp only [State.work] at h1
      cases hc : s.call (.begin c t m) with
      | none => rw [hc] at h1; cases h1
      | some s1 =>
        rw [hc] at h1
        cases h1
        obtain ⟨k1, k2⟩ := begin_own hc
        exact good_put (ho.call hc (by rintro c' ⟨⟩; rfl) (by rintro q ⟨⟩)) ⟨k1, _, k2⟩ (by intro q hq; cases hq)
    | routing p =>
      obtain ⟨hs, k, hk⟩ := hok
      simp only [State.work] at h1
      split at h1
      · cases hc : s.call (.finish c) with
        | none => rw [hc] at h1; cases h1
        | some s1 =>
          rw [hc] at h1
          simp only [Option.bind_some] at h1
          obtain ⟨k1, k2⟩ := finish_own hc
          have ho1 := ho.call hc (by rintro c' ⟨⟩; rfl) (by rintro q ⟨⟩)
          have hf : Free s1.calls c := ⟨by rw [k1]; exact hs, k2⟩
          cases p with
          | none =>
            simp only [State.published] at h1
            cases h1
            exact good_put (ho1.mapStore _) hf (by intro q hq; cases hq)
          | some p =>
            simp only [State.published] at h1
            split at h1
            · cases h1; exact good_put ho1 hf (by intro q hq; cases hq)
            · exact good_ending (map_fst_some h1).1 ho1 hf
      · obtain ⟨hc, _⟩ := map_fst_some h1
        have ho1 := ho.call hc (by rintro c' ⟨⟩; rfl) (by rintro q ⟨⟩)
        obtain ⟨k1, v, a, as, _, k2⟩ := work_own hc
        have ht := call_tasks hc
        refine ⟨fun c' => ?_, fun c1 c2 h3 => ?_⟩
        · by_cases he : c' = c
          · subst he; rw [ht, h0]; exact ⟨by rw [k1]; exact hs, _, k2⟩
          · exact ho1.ok c' he
        · rw [ht]; exact hg.apart c1 c2 h3
    | subscribing p todo codes =>
      have hf : Free s.calls c := hok
      cases todo with
      | nil =>
        simp only [State.work] at h1
        cases h1
        exact good_put (ho.mapStore _) hf (by intro q hq; cases hq)
      | cons f fs =>
        simp only [State.work] at h1
        split at h1
        · cases h1; exact good_put ho hf (by intro q hq; cases hq)
        · cases hc : s.call (.subTree q f) with
          | none => rw [hc] at h1; cases h1
          | some s1 =>
            rw [hc] at h1
            cases h1
            obtain ⟨_, k0, k1, k2, k3, k4, _⟩ := subTree_own hc
            refine good_put (ho.call hc (by rintro c' ⟨⟩) (by rintro q ⟨⟩)) ⟨hf.of_eq k1 k2, k3, _, k4⟩ ?_
            intro q' hq' c' hc' hr
            cases hq'
            rw [call_tasks hc] at hr
            have := hg.ok c'
            cases ht : s.tasks.get c' with
            | none => rw [ht] at hr; cases hr
            | some t =>
              rw [ht] at hr this
              obtain ⟨se, ph⟩ := t
              cases ph with
              | reading p' q'' f' fs' codes' =>
                simp only [readingOf, Option.some.injEq] at hr
                subst hr
                obtain ⟨_, _, r, hr⟩ := this
                rw [k0] at hr
                cases hr
              | _ => cases hr
    | reading p q' f fs codes =>
      obtain ⟨hf, hr, r, hs⟩ := hok
      simp only [State.work] at h1
      split at h1
      · cases h1
      · rename_i s1 hc
        obtain ⟨f', j0, j1, j2, j3⟩ := subRead_own hc
        have ho1 := ho.call hc (by rintro c' ⟨⟩) (by
          rintro q0 he c' hc'
          cases he
          exact hg.apart c c' (Ne.symm hc') q' (by rw [h0]; rfl))
        split at h1
        · cases h1
          exact good_put ho1 (hf.of_eq j2 (by rw [j1])) (by intro q hq; cases hq)
        · cases h1
  · unfold State.deliver at h1
    split at h1
    · cases h1
    · cases h1
      exact good_put (ho.mapStore _) hok (by intro q hq; cases hq)
    · cases h1
      exact good_put ho hok (by intro q hq; cases hq)
  · exact good_ending h1 ho hok

theorem good_init : Good State.init :=
  ⟨fun _ => ⟨rfl, rfl⟩, fun _ _ _ _ h => by cases h⟩

theorem good_run {cfg : AuthConfig} {s s' : State} {es : List Event} (h : s.run cfg es = some s') (hg : Good s) :
    Good s' := by
  induction es generalizing s with
  | nil => cases h; exact hg
  | cons e es ih =>
    obtain ⟨s1, out, h1, h2⟩ := run_cons h
    exact ih h2 (good_step h1 hg)

/-! ## What a step of a task does -/

/-- The end of a connection. -/
inductive EndCase (s s' : State) (c : Nat) (sess : Session) : Prop
  | quiet (hw : sess.will = none) (ht : s'.tasks.get c = some ⟨sess, .ended⟩) (hl : s'.log = s.log)
      (hc : s'.calls = s.calls)
  | will (w : StoredWill) (hw : sess.will = some w)
      (ht : s'.tasks.get c = some ⟨{ sess with will := none }, .stored w.topic (Server.willMessage w) none⟩)
      (hl : s'.log = s.log ++ [.store c w.topic (Server.willMessage w)])

theorem end_case {s s' : State} {c : Nat} {sess : Session} (h : s.ending c sess = some s') :
    EndCase s s' c sess := by
  rcases ending_some h with ⟨h1, rfl⟩ | ⟨w, s1, h1, h2, rfl⟩
  · exact .quiet h1 (put_get _ _ _) rfl rfl
  · obtain ⟨cs, _, rfl⟩ := call_some h2
    exact .will w h1 (put_get _ _ _) rfl

/-- The next step in the handling of a packet, by phase. -/
inductive WorkCase (s s' : State) (c q : Nat) (sess : Session) : Phase → List Packet → Prop
  | begin (t : Str) (m : Message) (p : Option PublishPacket) (ht : s'.tasks.get c = some ⟨sess, .routing p⟩)
      (hl : s'.log = s.log ++ [.begin c t m])
      (hc : s'.calls.walk.calls.get c = some ⟨m, [.visit [] (splitLevels t)]⟩) :
      WorkCase s s' c q sess (.stored t m p) []
  | walk (p : Option PublishPacket) (v : Message) (a : Walk.Act) (as : List Walk.Act)
      (h0 : s.calls.walk.calls.get c = some ⟨v, a :: as⟩) (ht : s'.tasks.get c = some ⟨sess, .routing p⟩)
      (hl : s'.log = s.log ++ [.work c])
      (hc : s'.calls.walk.calls.get c = some ⟨v, (Walk.act s.calls.walk.tree v a).2 ++ as⟩) :
      WorkCase s s' c q sess (.routing p) []
  | will (ht : s'.tasks.get c = some ⟨sess, .ended⟩) (hl : s'.log = s.log ++ [.finish c]) :
      WorkCase s s' c q sess (.routing none) []
  | answered (p : PublishPacket) (res : Option Packet) (hr : Session.publishResponse p = .ok res)
      (ht : s'.tasks.get c = some ⟨sess, .idle⟩) (hl : s'.log = s.log ++ [.finish c]) :
      WorkCase s s' c q sess (.routing (some p)) res.toList
  | failed (p : PublishPacket) (e : Err) (s1 : State) (hr : Session.publishResponse p = .error e)
      (hl : s1.log = s.log ++ [.finish c]) (he : EndCase s1 s' c sess) :
      WorkCase s s' c q sess (.routing (some p)) []
  | suback (p : SubscribePacket) (codes : List ReasonCode) (ht : s'.tasks.get c = some ⟨sess, .idle⟩)
      (hl : s'.log = s.log) (hw : s'.calls.walk = s.calls.walk) :
      WorkCase s s' c q sess (.subscribing p [] codes) [.subAck
        { protocolVersion := sess.connect.protocolVersion, packetId := p.packetId, payload := codes }]
  | refused (p : SubscribePacket) (f : Str) (fs : List Str) (codes : List ReasonCode) (hv : ¬ ValidFilter f)
      (ht : s'.tasks.get c = some ⟨sess, .subscribing p fs (codes ++ [.topicFilterInvalid])⟩)
      (hl : s'.log = s.log) (hc : s'.calls = s.calls) :
      WorkCase s s' c q sess (.subscribing p (f :: fs) codes) []
  | tree (p : SubscribePacket) (f : Str) (fs : List Str) (codes : List ReasonCode) (hv : ValidFilter f)
      (ht : s'.tasks.get c = some ⟨sess, .reading p q f fs codes⟩) (hl : s'.log = s.log ++ [.subTree q f]) :
      WorkCase s s' c q sess (.subscribing p (f :: fs) codes) []
  | read (p : SubscribePacket) (q' : Nat) (f f' : Str) (fs : List Str) (codes : List ReasonCode) (rx : Receiver)
      (r : List Message) (h0 : s.calls.reads.get q' = some (f', none)) (hw : s'.calls.walk = s.calls.walk)
      (hs : s'.calls.walk.subs.get q' = some rx) (hr : s'.calls.reads.get q' = some (f', some r))
      (ht : s'.tasks.get c = some ⟨{ sess with subscriptions := sess.subscriptions.insert f ⟨r, rx⟩ },
          .subscribing p fs (codes ++ [.grantedQoS0])⟩)
      (hl : s'.log = s.log ++ [.subRead q']) :
      WorkCase s s' c q sess (.reading p q' f fs codes) []

theorem filter_ok_iff (f : Str) : validateSubscribeFilter f = .ok () ↔ ValidFilter f := C23_filter_iff f

theorem work_case {s s' : State} {c q : Nat} {sess : Session} {ph : Phase} {out : List Packet}
    (h : s.work c q sess ph = some (s', out)) (ht : s.tasks.get c = some ⟨sess, ph⟩) :
    WorkCase s s' c q sess ph out := by
  cases ph with
  | idle => cases h
  | ended => cases h
  | stored t m p =>
    simp only [State.work] at h
    cases hc : s.call (.begin c t m) with
    | none => rw [hc] at h; cases h
    | some s1 =>
      rw [hc] at h
      cases h
      have := begin_own hc
      obtain ⟨cs, _, rfl⟩ := call_some hc
      exact .begin t m p (put_get _ _ _) rfl this.2
  | routing p =>
    simp only [State.work] at h
    split at h
    · cases hc : s.call (.finish c) with
      | none => rw [hc] at h; cases h
      | some s1 =>
        rw [hc] at h
        simp only [Option.bind_some] at h
        obtain ⟨cs, _, rfl⟩ := call_some hc
        cases p with
        | none =>
          simp only [State.published] at h
          cases h
          exact .will (put_get _ _ _) rfl
        | some p =>
          simp only [State.published] at h
          split at h
          · rename_i res hr
            cases h
            exact .answered p res hr (put_get _ _ _) rfl
          · rename_i e hr
            obtain ⟨h1, rfl⟩ := map_fst_some h
            exact .failed p e _ hr rfl (end_case h1)
    · obtain ⟨hc, rfl⟩ := map_fst_some h
      obtain ⟨_, v, a, as, h2, h3⟩ := work_own hc
      obtain ⟨cs, _, rfl⟩ := call_some hc
      exact .walk p v a as h2 ht rfl h3
  | subscribing p todo codes =>
    cases todo with
    | nil =>
      simp only [State.work] at h
      cases h
      exact .suback p codes (put_get _ _ _) rfl rfl
    | cons f fs =>
      simp only [State.work] at h
      split at h
      · rename_i e hv
        cases h
        refine .refused p f fs codes (fun h => ?_) (put_get _ _ _) rfl rfl
        rw [← filter_ok_iff, hv] at h
        cases h
      · rename_i hv
        cases hc : s.call (.subTree q f) with
        | none => rw [hc] at h; cases h
        | some s1 =>
          rw [hc] at h
          cases h
          obtain ⟨cs, _, rfl⟩ := call_some hc
          exact .tree p f fs codes ((filter_ok_iff f).mp hv) (put_get _ _ _) rfl
  | reading p q' f fs codes =>
    simp only [State.work] at h
    split at h
    · cases h
    · rename_i s1 hc
      obtain ⟨f', j0, j1, j2, j3⟩ := subRead_own hc
      split at h
      · rename_i rx f2 r hs hr
        cases h
        rw [j3] at hr
        cases hr
        obtain ⟨cs, _, rfl⟩ := call_some hc
        exact .read p q' f f' fs codes rx _ j0 j1 hs j3 (put_get _ _ _) rfl
      · cases h

/-- The arrival of a packet. -/
inductive ArriveCase (cfg : AuthConfig) (s s' : State) (c : Nat) (sess : Session) : Packet → List Packet → Prop
  | publish (p : PublishPacket) (hv : ValidTopic p.topicName)
      (ht : s'.tasks.get c = some ⟨sess.notePublish p, .stored p.topicName (Session.messageOf p) (some p)⟩)
      (hl : s'.log = s.log ++ [.store c p.topicName (Session.messageOf p)]) (hw : s'.calls.walk = s.calls.walk) :
      ArriveCase cfg s s' c sess (.publish p) []
  | invalid (p : PublishPacket) (hv : ¬ ValidTopic p.topicName) (he : EndCase s s' c sess) :
      ArriveCase cfg s s' c sess (.publish p) []
  | subscribe (p : SubscribePacket)
      (ht : s'.tasks.get c = some ⟨sess, .subscribing p (p.payload.map (·.topicFilter)) []⟩)
      (hl : s'.log = s.log) (hc : s'.calls = s.calls) : ArriveCase cfg s s' c sess (.subscribe p) []
  | disconnect (d : DisconnectPacket) (ht : s'.tasks.get c = some ⟨{ sess with will := none }, .ended⟩)
      (hl : s'.log = s.log) : ArriveCase cfg s s' c sess (.disconnect d) []
  | handled (p : Packet) (hp : Simple p) (res : Option Packet)
      (hr : (sess.processIncoming s.world cfg.manager c p).result = .ok res)
      (ht : s'.tasks.get c = some ⟨(sess.processIncoming s.world cfg.manager c p).session, .idle⟩)
      (hl : s'.log = s.log) (hw : s'.calls.walk = s.calls.walk) : ArriveCase cfg s s' c sess p res.toList
  | failed (p : Packet) (hp : Simple p) (e : Err)
      (hr : (sess.processIncoming s.world cfg.manager c p).result = .error e)
      (he : EndCase s s' c (sess.processIncoming s.world cfg.manager c p).session) :
      ArriveCase cfg s s' c sess p []

theorem arrive_case {cfg : AuthConfig} {s s' : State} {c : Nat} {sess : Session} {p : Packet} {out : List Packet}
    (h : s.arrive cfg c sess p = some (s', out)) : ArriveCase cfg s s' c sess p out := by
  rcases packet_cases p with ⟨q, rfl⟩ | ⟨q, rfl⟩ | ⟨d, rfl⟩ | hp
  · obtain ⟨k, rfl⟩ := map_fst_some h
    unfold State.beginPublish at k
    split at k
    · rename_i e hv
      refine .invalid q (fun h => ?_) (end_case k)
      rw [ok_of_valid h] at hv
      cases hv
    · rename_i hv
      split at k
      · rename_i s1 h1
        cases k
        obtain ⟨cs, h2, rfl⟩ := call_some h1
        exact .publish q ((C22_publish_topic_iff _).mp hv) (put_get _ _ _) rfl (Calls.step_parts h2).1
      · cases k
  · simp only [State.arrive] at h
    cases h
    exact .subscribe q (put_get _ _ _) rfl rfl
  · simp only [State.arrive] at h
    cases h
    exact .disconnect d (put_get _ _ _) rfl
  · rw [arrive_simple _ _ _ _ _ hp] at h
    split at h
    · rename_i e he
      obtain ⟨k, rfl⟩ := map_fst_some h
      exact .failed p hp e he (end_case k)
    · rename_i res hr
      cases h
      exact .handled p hp res hr (put_get _ _ _) rfl rfl

end Tasks

end Mercurio
