import Verif.Lemmas.Tasks

/-!
# C89: connections handled at the same time
-/

namespace Mercurio

open Spec

namespace Tasks

/-! ## Answers -/

/-- How far the handling of packet `p` is, given the phase, and what has been sent. -/
def Handling (p : Packet) : Phase → List Packet → Prop
  | .idle, sent => Accepted p ∧ Answer p sent ∧ ∀ q, p = .subscribe q →
      ∀ a, sent = [.subAck a] → a.payload = q.payload.map fun e => subscribeCode e.topicFilter
  | .stored _ _ (some q), sent | .routing (some q), sent => p = .publish q ∧ ValidTopic q.topicName ∧ sent = []
  | .stored _ _ none, sent | .routing none, sent | .ended, sent => ¬ Accepted p ∧ sent = []
  | .subscribing q todo codes, sent => p = .subscribe q ∧ sent = [] ∧
      ∃ done, q.payload.map (·.topicFilter) = done ++ todo ∧ codes = done.map subscribeCode
  | .reading q _ f todo codes, sent => p = .subscribe q ∧ sent = [] ∧ ValidFilter f ∧
      ∃ done, q.payload.map (·.topicFilter) = done ++ f :: todo ∧ codes = done.map subscribeCode

theorem handling_end {s s' : State} {c : Nat} {sess : Session} (h : EndCase s s' c sess) {p : Packet}
    (hp : ¬ Accepted p) : ∃ t, s'.tasks.get c = some t ∧ Handling p t.phase [] := by
  cases h with
  | quiet hw ht hl hc => exact ⟨_, ht, hp, rfl⟩
  | will w hw ht hl => exact ⟨_, ht, hp, rfl⟩

theorem publishResponse_spec (q : PublishPacket) (hv : ValidTopic q.topicName) :
    (∀ res, Session.publishResponse q = .ok res → Accepted (.publish q) ∧ Answer (.publish q) res.toList) ∧
    (∀ e, Session.publishResponse q = .error e → ¬ Accepted (.publish q)) := by
  obtain ⟨h1, h2⟩ := processIncoming_result (Session.new (exConnect (str "x") true)) ⟨⟨TopicTree.new, MemoryStore.new⟩, []⟩ none 0
    (.publish q) (by simp) (by simp)
  simp only [Session.processIncoming, Session.handlePublish, ok_of_valid hv] at h1 h2
  constructor
  · intro res hr
    by_cases ha : Accepted (.publish q)
    · obtain ⟨res', h3, h4⟩ := h1 ha
      rw [hr] at h3
      cases h3
      exact ⟨ha, h4⟩
    · obtain ⟨e, he⟩ := h2 ha
      rw [hr] at he
      cases he
  · intro e hr ha
    obtain ⟨res', h3, _⟩ := h1 ha
    rw [hr] at h3
    cases h3

theorem handling_arrive {cfg : AuthConfig} {s s' : State} {c : Nat} {sess : Session} {p : Packet}
    {out : List Packet} (ha : ∀ a, p ≠ .auth a) (h : ArriveCase cfg s s' c sess p out) :
    ∃ t, s'.tasks.get c = some t ∧ Handling p t.phase out := by
  cases h with
  | publish p hv ht hl hw => exact ⟨_, ht, rfl, hv, rfl⟩
  | invalid p hv he => exact handling_end he (fun h => hv h.1)
  | subscribe p ht hl hc => exact ⟨_, ht, rfl, rfl, [], rfl, rfl⟩
  | disconnect d ht hl => exact ⟨_, ht, fun h => h, rfl⟩
  | handled p hp res hr ht hl hw =>
    have hd : ∀ d, p ≠ .disconnect d := by rintro d rfl; exact hp
    obtain ⟨h1, h2⟩ := processIncoming_result sess s.world cfg.manager c p hd ha
    refine ⟨_, ht, ?_⟩
    by_cases hacc : Accepted p
    · obtain ⟨res', h3, h4⟩ := h1 hacc
      rw [hr] at h3
      cases h3
      exact ⟨hacc, h4, by rintro q rfl; exact hp.elim⟩
    · obtain ⟨e, he⟩ := h2 hacc
      rw [hr] at he
      cases he
  | failed p hp e hr he =>
    have hd : ∀ d, p ≠ .disconnect d := by rintro d rfl; exact hp
    obtain ⟨h1, h2⟩ := processIncoming_result sess s.world cfg.manager c p hd ha
    refine handling_end he fun hacc => ?_
    obtain ⟨res', h3, _⟩ := h1 hacc
    rw [hr] at h3
    cases h3

theorem handling_work {s s' : State} {c q : Nat} {sess : Session} {ph : Phase} {out : List Packet} {p : Packet}
    {sent : List Packet} (h : WorkCase s s' c q sess ph out) (hh : Handling p ph sent) :
    ∃ t, s'.tasks.get c = some t ∧ Handling p t.phase (sent ++ out) := by
  cases h with
  | begin t m p' ht hl hc =>
    refine ⟨_, ht, ?_⟩
    rw [List.append_nil]
    cases p' <;> exact hh
  | walk p' v a as h0 ht hl hc =>
    refine ⟨_, ht, ?_⟩
    rw [List.append_nil]
    cases p' <;> exact hh
  | will ht hl => exact ⟨_, ht, by rw [List.append_nil]; exact hh⟩
  | answered p' res hr ht hl =>
    obtain ⟨rfl, hv, rfl⟩ := hh
    obtain ⟨h1, h2⟩ := (publishResponse_spec p' hv).1 res hr
    exact ⟨_, ht, h1, h2, by rintro q ⟨⟩⟩
  | failed p' e s1 hr hl he =>
    obtain ⟨rfl, hv, rfl⟩ := hh
    exact handling_end he ((publishResponse_spec p' hv).2 e hr)
  | suback p' codes ht hl hw =>
    obtain ⟨rfl, rfl, done, h1, h2⟩ := hh
    refine ⟨_, ht, trivial, ⟨_, rfl, rfl⟩, ?_⟩
    rintro q ⟨⟩ a ha
    cases ha
    simp only
    rw [h2, ← List.append_nil done, ← h1, List.map_map]
    rfl
  | refused p' f fs codes hv ht hl hc =>
    obtain ⟨rfl, rfl, done, h1, h2⟩ := hh
    refine ⟨_, ht, rfl, rfl, done ++ [f], by simp [h1], ?_⟩
    rw [h2, List.map_append, List.map_singleton, subscribeCode, if_neg hv]
  | tree p' f fs codes hv ht hl =>
    obtain ⟨rfl, rfl, done, h1, h2⟩ := hh
    exact ⟨_, ht, rfl, rfl, hv, done, h1, h2⟩
  | read p' q' f f' fs codes rx r h0 hw hs hr ht hl =>
    obtain ⟨rfl, rfl, hv, done, h1, h2⟩ := hh
    refine ⟨_, ht, rfl, rfl, done ++ [f], by simp [h1], ?_⟩
    rw [h2, List.map_append, List.map_singleton, subscribeCode, if_pos hv]

theorem handling_run {cfg : AuthConfig} {s s' : State} {c : Nat} {p : Packet} {es : List Event}
    (h : s.run cfg es = some s') (hes : ∀ e ∈ es, e.conn = c → ∃ q, e = .work c q) {t : Task} {sent : List Packet}
    (ht : s.tasks.get c = some t) (hh : Handling p t.phase sent) :
    ∃ t', s'.tasks.get c = some t' ∧ Handling p t'.phase (sent ++ sentOn cfg c s es) := by
  induction es generalizing s t sent with
  | nil => cases h; exact ⟨t, ht, by simpa [sentOn] using hh⟩
  | cons e es ih =>
    obtain ⟨s1, out, h1, h2⟩ := run_cons h
    have hes' : ∀ e ∈ es, e.conn = c → ∃ q, e = .work c q := fun e he => hes e (List.mem_cons_of_mem _ he)
    simp only [sentOn, h1]
    by_cases hc : e.conn = c
    · obtain ⟨q, rfl⟩ := hes e (by simp) hc
      rcases step_inv h1 with ⟨_, _, _, he, _⟩ | ⟨_, _, _, he, _⟩ | ⟨c', q', sess, ph, he, h0, h3⟩ |
        ⟨_, _, _, he, _⟩ | ⟨_, _, he, _⟩ <;> cases he
      rw [ht] at h0
      cases h0
      obtain ⟨t', k1, k2⟩ := handling_work (work_case h3 ht) hh
      rw [if_pos hc, ← List.append_assoc]
      exact ih h2 hes' k1 k2
    · obtain ⟨new, hm⟩ := step_moves h1
      rw [if_neg hc, List.nil_append]
      exact ih h2 hes' ((hm.others c (Ne.symm hc)).trans ht) hh

end Tasks

open Tasks

/-- C89: packets are handled at the same time on any number of connections, step by step, in any
interleaving.  Of a packet that arrives on connection `c` and is one a client may send, nothing is answered
while it is being handled, and when that is over what was sent is the answer to it, with one reason code per
filter for a SUBSCRIBE.  Any other packet is not answered, and the connection never takes a packet again. -/
theorem C89_answers (cfg : AuthConfig) (s0 s1 s : Tasks.State) (c : Nat) (p : Packet) (ha : ∀ a, p ≠ .auth a)
    (out : List Packet) (h1 : s0.step cfg (.arrive c p) = some (s1, out)) (es : List Tasks.Event)
    (hrun : s1.run cfg es = some s) (hes : ∀ e ∈ es, e.conn = c → ∃ q, e = .work c q) :
    let sent := out ++ sentOn cfg c s1 es
    ∃ t, s.tasks.get c = some t ∧
      (Accepted p → (Busy t.phase ∧ sent = []) ∨ (t.phase = .idle ∧ Answer p sent ∧ ∀ q, p = .subscribe q →
        ∀ a, sent = [.subAck a] → a.payload = q.payload.map fun e => subscribeCode e.topicFilter)) ∧
      (¬ Accepted p → t.phase ≠ .idle ∧ sent = []) := by
  intro sent
  rcases step_inv h1 with ⟨_, _, _, he, _⟩ | ⟨c', p', sess, he, h0, h3⟩ | ⟨_, _, _, _, he, _⟩ |
    ⟨_, _, _, he, _⟩ | ⟨_, _, he, _⟩ <;> cases he
  obtain ⟨t, k1, k2⟩ := handling_arrive ha (arrive_case h3)
  obtain ⟨t', k3, k4⟩ := handling_run hrun hes k1 k2
  refine ⟨t', k3, fun hacc => ?_, fun hacc => ?_⟩
  · obtain ⟨sess', ph⟩ := t'
    cases ph with
    | idle => exact Or.inr ⟨rfl, k4.2⟩
    | ended => exact absurd hacc k4.1
    | stored t m p' => cases p' with
      | none => exact absurd hacc k4.1
      | some q => exact Or.inl ⟨trivial, k4.2.2⟩
    | routing p' => cases p' with
      | none => exact absurd hacc k4.1
      | some q => exact Or.inl ⟨trivial, k4.2.2⟩
    | subscribing q todo codes => exact Or.inl ⟨trivial, k4.2.1⟩
    | reading q q' f todo codes => exact Or.inl ⟨trivial, k4.2.1⟩
  · obtain ⟨sess', ph⟩ := t'
    cases ph with
    | idle => exact absurd k4.1 hacc
    | ended => exact ⟨by simp, k4.2⟩
    | stored t m p' => cases p' with
      | none => exact ⟨by simp, k4.2⟩
      | some q => exact ⟨by simp, k4.2.2⟩
    | routing p' => cases p' with
      | none => exact ⟨by simp, k4.2⟩
      | some q => exact ⟨by simp, k4.2.2⟩
    | subscribing q todo codes => exact ⟨by simp, k4.2.1⟩
    | reading q q' f todo codes => exact ⟨by simp, k4.2.1⟩

/-! ## Progress -/

namespace Tasks

theorem splitOn_length (b : UInt8) (t : Str) : (splitOn b t).length = t.count b + 1 := by
  induction t with
  | nil => rfl
  | cons x t ih =>
    unfold splitOn
    by_cases hx : x = b
    · subst hx; simp [ih]
    · simp only [hx, if_false]
      rw [List.count_cons_of_ne (by simpa using hx)]
      cases h : splitOn b t with
      | nil => rw [h] at ih; simp at ih
      | cons l ls => rw [h] at ih; simpa using ih

theorem publishBound_eq (t : Str) : publishBound t = 2 + Walk.cost (splitLevels t).length := by
  unfold publishBound levelCount splitLevels
  rw [splitOn_length]
  have := Walk.cost_eq (t.count 0x2f + 1)
  omega

/-- What may still come after a publication. -/
def afterwards (sess : Session) : Option PublishPacket → Nat
  | none => 0
  | some _ => willBound sess.will

/-- A bound on the steps a walk has still to take. -/
def walkLeft : Option (Walk.Call Message) → Nat
  | some k => Walk.costs k.todo
  | none => 0

/-- A bound on the steps a task has still to take. -/
def left (cs : Calls.State) (c : Nat) (t : Task) : Nat :=
  match t.phase with
  | .idle | .ended => 0
  | .stored topic _ p => publishBound topic + afterwards t.session p
  | .routing p => walkLeft (cs.walk.calls.get c) + 1 + afterwards t.session p
  | .subscribing _ todo _ => 2 * todo.length + 1
  | .reading _ _ _ todo _ => 2 * todo.length + 2

theorem left_end {s s' : State} {c : Nat} {sess : Session} (h : EndCase s s' c sess) :
    ∃ t, s'.tasks.get c = some t ∧ left s'.calls c t ≤ willBound sess.will := by
  cases h with
  | quiet hw ht hl hc => exact ⟨_, ht, Nat.zero_le _⟩
  | will w hw ht hl => exact ⟨_, ht, by rw [hw]; exact Nat.le_refl _⟩

theorem processIncoming_will (sess : Session) (w : World) (m : Option AuthManager) (c : Nat) (p : Packet)
    (hp : Simple p) : (sess.processIncoming w m c p).session.will = sess.will := by
  cases p with
  | auth a =>
    simp only [Session.processIncoming, Session.handleAuth]
    cases m <;> rfl
  | publish p => exact hp.elim
  | subscribe p => exact hp.elim
  | _ => rfl

theorem notePublish_will (sess : Session) (p : PublishPacket) : (sess.notePublish p).will = sess.will := by
  unfold Session.notePublish
  split <;> rfl

theorem left_arrive {cfg : AuthConfig} {s s' : State} {c : Nat} {sess : Session} {p : Packet}
    {out : List Packet} (h : ArriveCase cfg s s' c sess p out) :
    ∃ t, s'.tasks.get c = some t ∧ left s'.calls c t ≤ handlingBound sess.will p := by
  cases h with
  | publish p hv ht hl hw =>
    refine ⟨_, ht, ?_⟩
    simp only [left, afterwards, handlingBound, notePublish_will]
    omega
  | invalid p hv he =>
    obtain ⟨t, h1, h2⟩ := left_end he
    exact ⟨t, h1, Nat.le_trans h2 (Nat.le_add_left _ _)⟩
  | subscribe p ht hl hc => exact ⟨_, ht, by simp [left, handlingBound]⟩
  | disconnect d ht hl => exact ⟨_, ht, Nat.zero_le _⟩
  | handled p hp res hr ht hl hw => exact ⟨_, ht, Nat.zero_le _⟩
  | failed p hp e hr he =>
    obtain ⟨t, h1, h2⟩ := left_end he
    rw [processIncoming_will _ _ _ _ _ hp] at h2
    refine ⟨t, h1, Nat.le_trans h2 ?_⟩
    cases p <;> first | exact Nat.le_refl _ | exact hp.elim

theorem left_work {s s' : State} {c q : Nat} {sess : Session} {ph : Phase} {out : List Packet}
    (h : WorkCase s s' c q sess ph out) :
    ∃ t, s'.tasks.get c = some t ∧ left s'.calls c t < left s.calls c ⟨sess, ph⟩ := by
  cases h with
  | begin t m p ht hl hc =>
    refine ⟨_, ht, ?_⟩
    have h1 : walkLeft (s'.calls.walk.calls.get c) = Walk.cost (splitLevels t).length := by
      rw [hc]; simp [walkLeft, Walk.costs, Walk.costOne]
    simp only [left, h1, publishBound_eq]
    omega
  | walk p v a as h0 ht hl hc =>
    refine ⟨_, ht, ?_⟩
    have := Walk.costs_act s.calls.walk.tree v a
    have h1 : walkLeft (s'.calls.walk.calls.get c) =
        Walk.costs (Walk.act s.calls.walk.tree v a).2 + Walk.costs as := by
      rw [hc]; exact Walk.costs_append _ _
    have h2 : walkLeft (s.calls.walk.calls.get c) = Walk.costOne a + Walk.costs as := by
      rw [h0]; rfl
    simp only [left, h1, h2]
    omega
  | will ht hl => exact ⟨_, ht, by simp only [left]; omega⟩
  | answered p res hr ht hl => exact ⟨_, ht, by simp only [left]; omega⟩
  | failed p e s1 hr hl he =>
    obtain ⟨t, h1, h2⟩ := left_end he
    refine ⟨t, h1, ?_⟩
    simp only [left, afterwards] at h2 ⊢
    omega
  | suback p codes ht hl hw => exact ⟨_, ht, by simp only [left]; omega⟩
  | refused p f fs codes hv ht hl hc => exact ⟨_, ht, by simp only [left, List.length_cons]; omega⟩
  | tree p f fs codes hv ht hl => exact ⟨_, ht, by simp only [left, List.length_cons]; omega⟩
  | read p q' f f' fs codes rx r h0 hw hs hr ht hl => exact ⟨_, ht, by simp only [left]; omega⟩

/-- A step of another connection does not touch the publication of this one. -/
theorem step_other {cfg : AuthConfig} {s s' : State} {e : Event} {out : List Packet}
    (h : s.step cfg e = some (s', out)) {c : Nat} (hc : e.conn ≠ c) :
    s'.tasks.get c = s.tasks.get c ∧ s'.calls.walk.calls.get c = s.calls.walk.calls.get c := by
  obtain ⟨new, hm⟩ := step_moves h
  refine ⟨hm.others c (Ne.symm hc), ?_⟩
  have key : ∀ ev s1, s.call ev = some s1 → owner ev ≠ some c →
      s1.calls.walk.calls.get c = s.calls.walk.calls.get c := by
    intro ev s1 h1 h2
    obtain ⟨cs, h3, rfl⟩ := call_some h1
    exact (calls_frame h3 h2).2
  have hend : ∀ (s0 : State) sess s1, s0.ending e.conn sess = some s1 →
      s1.calls.walk.calls.get c = s0.calls.walk.calls.get c := by
    intro s0 sess s1 h1
    rcases ending_some h1 with ⟨_, rfl⟩ | ⟨w, s2, _, h2, rfl⟩
    · rfl
    · obtain ⟨cs, h3, rfl⟩ := call_some h2
      exact (calls_frame h3 (fun h => hc (Option.some.inj h))).2
  rcases step_inv h with ⟨c', p, u, rfl, h0, rfl, _⟩ | ⟨c', p, sess, rfl, h0, h1⟩ | ⟨c', q, sess, ph, rfl, h0, h1⟩ |
    ⟨c', f, sess, rfl, h0, h1⟩ | ⟨c', sess, rfl, h0, h1, _⟩
  · rfl
  · rcases packet_cases p with ⟨q, rfl⟩ | ⟨q, rfl⟩ | ⟨d, rfl⟩ | hp
    · obtain ⟨h1, _⟩ := map_fst_some h1
      unfold State.beginPublish at h1
      split at h1
      · exact hend _ _ _ h1
      · split at h1
        · rename_i s1 h2
          cases h1
          have := key _ _ h2 (fun h => hc (Option.some.inj h))
          exact this
        · cases h1
    · simp only [State.arrive] at h1
      cases h1
      rfl
    · simp only [State.arrive] at h1
      cases h1
      rfl
    · rw [arrive_simple _ _ _ _ _ hp] at h1
      split at h1
      · exact hend _ _ _ (map_fst_some h1).1
      · cases h1
        rfl
  · cases ph with
    | idle => cases h1
    | ended => cases h1
    | stored t m p =>
      simp only [State.work] at h1
      cases hk : s.call (.begin c' t m) with
      | none => rw [hk] at h1; cases h1
      | some s1 =>
        rw [hk] at h1
        cases h1
        have := key _ _ hk (fun h => hc (Option.some.inj h))
        exact this
    | routing p =>
      simp only [State.work] at h1
      split at h1
      · cases hk : s.call (.finish c') with
        | none => rw [hk] at h1; cases h1
        | some s1 =>
          rw [hk] at h1
          simp only [Option.bind_some] at h1
          have k1 := key _ _ hk (fun h => hc (Option.some.inj h))
          cases p with
          | none =>
            simp only [State.published] at h1
            cases h1
            exact k1
          | some p =>
            simp only [State.published] at h1
            split at h1
            · cases h1; exact k1
            · exact (hend _ _ _ (map_fst_some h1).1).trans k1
      · exact key _ _ (map_fst_some h1).1 (fun h => hc (Option.some.inj h))
    | subscribing p todo codes =>
      cases todo with
      | nil =>
        simp only [State.work] at h1
        cases h1
        rfl
      | cons f fs =>
        simp only [State.work] at h1
        split at h1
        · cases h1; rfl
        · cases hk : s.call (.subTree q f) with
          | none => rw [hk] at h1; cases h1
          | some s1 =>
            rw [hk] at h1
            cases h1
            have := key _ _ hk (fun h => by cases h)
            exact this
    | reading p q' f fs codes =>
      simp only [State.work] at h1
      split at h1
      · cases h1
      · rename_i s1 hk
        split at h1
        · cases h1
          have := key _ _ hk (fun h => by cases h)
          exact this
        · cases h1
  · unfold State.deliver at h1
    split at h1
    · cases h1
    · cases h1; rfl
    · cases h1; rfl
  · exact hend _ _ _ h1

theorem left_run {cfg : AuthConfig} {s s' : State} {c : Nat} {es : List Event}
    (h : s.run cfg es = some s') (hes : ∀ e ∈ es, e.conn = c → ∃ q, e = .work c q) {t : Task}
    (ht : s.tasks.get c = some t) :
    ∃ t', s'.tasks.get c = some t' ∧ worksOf c es + left s'.calls c t' ≤ left s.calls c t := by
  induction es generalizing s t with
  | nil => cases h; exact ⟨t, ht, by simp [worksOf]⟩
  | cons e es ih =>
    obtain ⟨s1, out, h1, h2⟩ := run_cons h
    have hes' : ∀ e ∈ es, e.conn = c → ∃ q, e = .work c q := fun e he => hes e (List.mem_cons_of_mem _ he)
    have hw : worksOf c (e :: es) = worksOf c [e] + worksOf c es := by
      unfold worksOf
      rw [← List.countP_append]
      rfl
    rw [hw]
    by_cases hc : e.conn = c
    · obtain ⟨q, rfl⟩ := hes e (by simp) hc
      rcases step_inv h1 with ⟨_, _, _, he, _⟩ | ⟨_, _, _, he, _⟩ | ⟨c', q', sess, ph, he, h0, h3⟩ |
        ⟨_, _, _, he, _⟩ | ⟨_, _, he, _⟩ <;> cases he
      rw [ht] at h0
      cases h0
      obtain ⟨t1, k1, k2⟩ := left_work (work_case h3 ht)
      obtain ⟨t', k3, k4⟩ := ih h2 hes' k1
      refine ⟨t', k3, ?_⟩
      have : worksOf c [.work c q] = 1 := by simp [worksOf]
      omega
    · obtain ⟨k1, k2⟩ := step_other h1 hc
      obtain ⟨t', k3, k4⟩ := ih h2 hes' (k1.trans ht)
      refine ⟨t', k3, ?_⟩
      have h5 : worksOf c [e] = 0 := by
        cases e <;> simp_all [worksOf, Event.conn]
      have h6 : left s1.calls c t = left s.calls c t := by simp only [left, k2]
      omega

theorem fresh_key {V : Type} (m : Map Nat V) : ∃ q, m.get q = none := by
  refine ⟨m.keys.sum + 1, ?_⟩
  cases hg : m.get (m.keys.sum + 1) with
  | none => rfl
  | some v =>
    have hk := (Map.get_isSome m _).mp (by rw [hg]; rfl)
    have : ∀ (l : List Nat) x, x ∈ l → x ≤ l.sum := by
      intro l x hx
      induction l with
      | nil => cases hx
      | cons a l ih =>
        rw [List.sum_cons]
        rcases List.mem_cons.mp hx with rfl | hx
        · omega
        · have := ih hx; omega
    have := this _ _ hk
    omega

theorem some_key {V : Type} {m : Map Nat V} (h : m ≠ []) : ∃ k v, m.get k = some v := by
  cases m with
  | nil => exact absurd rfl h
  | cons e m => exact ⟨e.1, e.2, by simp [Map.get]⟩

theorem can_store {s : State} {c : Nat} (h : Free s.calls c) (t : Str) (m : Message) :
    ∃ s', s.call (.store c t m) = some s' := by
  unfold State.call
  simp [Calls.step, h.1, h.2]

theorem can_end {s : State} {c : Nat} (h : Free s.calls c) (sess : Session) : ∃ s', s.ending c sess = some s' := by
  unfold State.ending
  cases sess.will with
  | none => exact ⟨_, rfl⟩
  | some w =>
    obtain ⟨s', h1⟩ := can_store h w.topic (Server.willMessage w)
    exact ⟨_, by simp [h1]; rfl⟩

/-- A task inside `publish` can go on. -/
theorem routing_goes_on {s : State} (hg : Good s) {c : Nat} {sess : Session} {p : Option PublishPacket}
    (ht : s.tasks.get c = some ⟨sess, .routing p⟩) (q : Nat) : ∃ r, s.work c q sess (.routing p) = some r := by
  have hok := hg.ok c
  rw [ht] at hok
  obtain ⟨h1, ⟨v, todo⟩, h2⟩ := hok
  simp only [State.work, h2]
  cases todo with
  | nil =>
    have hc : ∃ s1, s.call (.finish c) = some s1 := by
      unfold State.call
      simp [Calls.step, Calls.State.tree, Walk.step, h2]
    obtain ⟨s1, hc⟩ := hc
    obtain ⟨k1, k2⟩ := finish_own hc
    simp only [hc, Option.bind_some]
    cases p with
    | none => exact ⟨_, rfl⟩
    | some p =>
      simp only [State.published]
      cases Session.publishResponse p with
      | ok res => exact ⟨_, rfl⟩
      | error e =>
        obtain ⟨s', h3⟩ := can_end (s := s1) (c := c) ⟨by rw [k1]; exact h1, k2⟩ sess
        exact ⟨(s', []), by simp [h3]⟩
  | cons a as =>
    have hc : ∃ s1, s.call (.work c) = some s1 := by
      unfold State.call
      simp [Calls.step, Calls.State.tree, Walk.step, h2]
    obtain ⟨s1, hc⟩ := hc
    exact ⟨(s1, []), by simp [hc]⟩

end Tasks

/-- C89: on a connection with the given will, the handling of a packet is over after a bounded number of
steps, whatever the other connections do in between: less than 5 · 2ⁿ for a publication to a topic with `n`
levels, about two per filter of a SUBSCRIBE. -/
theorem C89_bounded (cfg : AuthConfig) (s0 s1 s : Tasks.State) (c : Nat) (p : Packet) (sess : Session)
    (ht : s0.tasks.get c = some ⟨sess, .idle⟩) (out : List Packet)
    (h1 : s0.step cfg (.arrive c p) = some (s1, out)) (es : List Tasks.Event) (hrun : s1.run cfg es = some s)
    (hes : ∀ e ∈ es, e.conn = c → ∃ q, e = .work c q) : worksOf c es ≤ handlingBound sess.will p := by
  rcases step_inv h1 with ⟨_, _, _, he, _⟩ | ⟨c', p', sess', he, h0, h3⟩ | ⟨_, _, _, _, he, _⟩ |
    ⟨_, _, _, he, _⟩ | ⟨_, _, he, _⟩ <;> cases he
  rw [ht] at h0
  cases h0
  obtain ⟨t, k1, k2⟩ := left_arrive (arrive_case h3)
  obtain ⟨t', k3, k4⟩ := left_run hrun hes k1
  omega

/-- C89: at every time, a connection that is handling a packet can take its next step, or it waits for
another one to leave the topic tree, which can take its next step.  So no set of connections ever blocks
itself. -/
theorem C89_progress (cfg : AuthConfig) (es : List Tasks.Event) (s : Tasks.State)
    (hrun : Tasks.State.init.run cfg es = some s) (c : Nat) (t : Task) (ht : s.tasks.get c = some t)
    (hb : Busy t.phase) :
    (∃ q, (s.step cfg (.work c q)).isSome) ∨
    ∃ k t', k ≠ c ∧ s.tasks.get k = some t' ∧ Busy t'.phase ∧ ∀ q, (s.step cfg (.work k q)).isSome := by
  have hg := good_run hrun good_init
  have hok := hg.ok c
  rw [ht] at hok
  obtain ⟨sess, ph⟩ := t
  simp only [State.step, ht]
  cases ph with
  | idle => exact hb.elim
  | ended => exact hb.elim
  | stored topic m p =>
    left
    refine ⟨0, ?_⟩
    simp [State.work, State.call, Calls.step, Calls.State.tree, Walk.step, hok.1, hok.2]
  | routing p =>
    left
    obtain ⟨r, hr⟩ := routing_goes_on hg ht 0
    exact ⟨0, by rw [hr]; rfl⟩
  | subscribing p todo codes =>
    cases todo with
    | nil => exact Or.inl ⟨0, rfl⟩
    | cons f fs =>
      simp only [State.work]
      cases hv : validateSubscribeFilter f with
      | error e => exact Or.inl ⟨0, rfl⟩
      | ok u =>
        by_cases he : s.calls.walk.calls = []
        · obtain ⟨q, hq⟩ := fresh_key s.calls.walk.subs
          left
          refine ⟨q, ?_⟩
          simp [State.call, Calls.step, Calls.State.tree, Walk.step, he, hq]
        · right
          obtain ⟨k, v, hk⟩ := some_key he
          have hk' := hg.ok k
          have hne : k ≠ c := by
            rintro rfl
            have hf : Free s.calls k := hok
            rw [hf.2] at hk
            cases hk
          cases hs : s.tasks.get k with
          | none => rw [hs] at hk'; rw [hk'.2] at hk; cases hk
          | some t' =>
            rw [hs] at hk'
            obtain ⟨sess', ph'⟩ := t'
            cases ph' with
            | routing p' =>
              refine ⟨k, ⟨sess', .routing p'⟩, hne, hs, trivial, fun q => ?_⟩
              obtain ⟨r, hr⟩ := routing_goes_on hg hs q
              rw [hs]
              exact Option.isSome_iff_exists.mpr ⟨r, hr⟩
            | stored t m p' => rw [hk'.2] at hk; cases hk
            | reading _ _ _ _ _ => rw [hk'.1.2] at hk; cases hk
            | idle => rw [hk'.2] at hk; cases hk
            | ended => rw [hk'.2] at hk; cases hk
            | subscribing _ _ _ => rw [hk'.2] at hk; cases hk
  | reading p q f fs codes =>
    left
    refine ⟨0, ?_⟩
    obtain ⟨_, h1, r, h2⟩ := hok
    simp [State.work, State.call, Calls.step, h1, h2, Map.get_insert]

/-! ## What reaches the broker -/

namespace Tasks

theorem storedBy_eq (k : Nat) (es : List Calls.Event) : storedBy k es = Calls.storesBy k es := by
  induction es with
  | nil => rfl
  | cons e es ih => cases e <;> simp only [storedBy, Calls.storesBy, ih]

theorem storedBy_append (k : Nat) (a b : List Calls.Event) :
    storedBy k (a ++ b) = storedBy k a ++ storedBy k b := by
  simp only [storedBy_eq, Calls.storesBy_append]

theorem storedBy_others {c k : Nat} (hk : k ≠ c) (es : List Calls.Event)
    (h : ∀ e ∈ es, ∀ k, owner e = some k → k = c) : storedBy k es = [] := by
  induction es with
  | nil => rfl
  | cons e es ih =>
    have ih := ih (fun e he => h e (List.mem_cons_of_mem _ he))
    cases e with
    | store k' t m =>
      simp only [storedBy]
      rw [if_neg, ih]
      rintro rfl
      exact hk (h (.store k' t m) (by simp) k' rfl)
    | _ => exact ih

theorem arrivals_append (c : Nat) (a b : List Event) : arrivals c (a ++ b) = arrivals c a ++ arrivals c b := by
  induction a with
  | nil => rfl
  | cons e es ih =>
    cases e with
    | arrive k p =>
      cases p with
      | publish p =>
        simp only [List.cons_append, arrivals]
        split
        · rw [ih]; rfl
        · exact ih
      | _ => exact ih
    | _ => exact ih

theorem arrivals_other {c : Nat} {e : Event} (h : e.conn ≠ c) : arrivals c [e] = [] := by
  cases e with
  | arrive k p =>
    cases p with
    | publish p => simp only [arrivals]; rw [if_neg]; exact fun hk => h hk.1
    | _ => rfl
  | _ => rfl

/-- A delivery on connection `c` broke it off. -/
def Broke (cfg : AuthConfig) (c : Nat) (es : List Event) : Prop :=
  ∃ a f b s s', es = a ++ .deliver c f :: b ∧ State.init.run cfg a = some s ∧
    s.step cfg (.deliver c f) = some (s', [])

/-- What connection `c` has given the broker, by phase. -/
def PubPhase (cfg : AuthConfig) (c : Nat) (p : ConnectPacket) (es : List Event) (log : List Calls.Event) (t : Task) :
    Prop :=
  match t.phase with
  | .stored _ _ none | .routing none => ∃ w, willOfConnect p = some w ∧
      storedBy c log = arrivals c es ++ [(w.topic, Server.willMessage w)]
  | .ended => (∃ w, willOfConnect p = some w ∧
      storedBy c log = arrivals c es ++ [(w.topic, Server.willMessage w)]) ∨
      (storedBy c log = arrivals c es ∧
        (willOfConnect p = none ∨ (∃ d, .arrive c (.disconnect d) ∈ es) ∨ Broke cfg c es))
  | _ => storedBy c log = arrivals c es ∧ t.session.will = willOfConnect p

theorem PubPhase.ext {cfg : AuthConfig} {c : Nat} {p : ConnectPacket} {es : List Event} {log log' : List Calls.Event}
    {t : Task} (h : PubPhase cfg c p es log t) (e : Event) (ha : arrivals c [e] = [])
    (hl : storedBy c log' = storedBy c log) : PubPhase cfg c p (es ++ [e]) log' t := by
  have h1 : arrivals c (es ++ [e]) = arrivals c es := by rw [arrivals_append, ha, List.append_nil]
  obtain ⟨sess, ph⟩ := t
  have hb : Broke cfg c es → Broke cfg c (es ++ [e]) := by
    rintro ⟨a, f, b, s, s', k1, k2⟩
    exact ⟨a, f, b ++ [e], s, s', by rw [k1, List.append_assoc]; rfl, k2⟩
  cases ph with
  | stored t m q => cases q <;> simpa only [PubPhase, h1, hl] using h
  | routing q => cases q <;> simpa only [PubPhase, h1, hl] using h
  | ended =>
    simp only [PubPhase, h1, hl] at h ⊢
    rcases h with h | ⟨h2, h3 | ⟨d, h3⟩ | h3⟩
    · exact Or.inl h
    · exact Or.inr ⟨h2, Or.inl h3⟩
    · exact Or.inr ⟨h2, Or.inr (Or.inl ⟨d, List.mem_append_left _ h3⟩)⟩
    · exact Or.inr ⟨h2, Or.inr (Or.inr (hb h3))⟩
  | idle => simpa only [PubPhase, h1, hl] using h
  | subscribing _ _ _ => simpa only [PubPhase, h1, hl] using h
  | reading _ _ _ _ _ => simpa only [PubPhase, h1, hl] using h

theorem PubPhase.end {cfg : AuthConfig} {c : Nat} {p : ConnectPacket} {es : List Event} {s s' : State}
    {sess : Session} (h : EndCase s s' c sess) (h1 : storedBy c s.log = arrivals c es)
    (h2 : sess.will = willOfConnect p) : ∃ t, s'.tasks.get c = some t ∧ PubPhase cfg c p es s'.log t := by
  cases h with
  | quiet hw ht hl hc =>
    exact ⟨_, ht, Or.inr ⟨by rw [hl]; exact h1, Or.inl (by rw [← h2]; exact hw)⟩⟩
  | will w hw ht hl =>
    refine ⟨_, ht, w, by rw [← h2]; exact hw, ?_⟩
    rw [hl, storedBy_append, h1]
    simp [storedBy]

/-- What connection `c` has given the broker. -/
def Pub (cfg : AuthConfig) (c : Nat) (es : List Event) (s : State) : Prop :=
  match s.tasks.get c with
  | none => (∀ p u, .start c p u ∉ es) ∧ storedBy c s.log = [] ∧ arrivals c es = []
  | some t => ∃ p, (∀ p' u, .start c p' u ∈ es → p' = p) ∧ PubPhase cfg c p es s.log t

theorem pub_some {cfg : AuthConfig} {c : Nat} {es : List Event} {s : State} {t : Task}
    (ht : s.tasks.get c = some t) {p : ConnectPacket} (h1 : ∀ p' u, .start c p' u ∈ es → p' = p)
    (h2 : PubPhase cfg c p es s.log t) : Pub cfg c es s := by
  unfold Pub
  rw [ht]
  exact ⟨p, h1, h2⟩

theorem pub_work {cfg : AuthConfig} {s s' : State} {c q : Nat} {sess : Session} {ph : Phase} {out : List Packet}
    {p : ConnectPacket} {es : List Event} (h : WorkCase s s' c q sess ph out)
    (hp : PubPhase cfg c p es s.log ⟨sess, ph⟩) :
    ∃ t, s'.tasks.get c = some t ∧ PubPhase cfg c p es s'.log t := by
  cases h with
  | begin t m p' ht hl hc =>
    refine ⟨_, ht, ?_⟩
    cases p' <;> simpa only [PubPhase, hl, storedBy_append, storedBy, List.append_nil] using hp
  | walk p' v a as h0 ht hl hc =>
    refine ⟨_, ht, ?_⟩
    cases p' <;> simpa only [PubPhase, hl, storedBy_append, storedBy, List.append_nil] using hp
  | will ht hl =>
    refine ⟨_, ht, Or.inl ?_⟩
    simpa only [PubPhase, hl, storedBy_append, storedBy, List.append_nil] using hp
  | answered p' res hr ht hl =>
    refine ⟨_, ht, ?_⟩
    simpa only [PubPhase, hl, storedBy_append, storedBy, List.append_nil] using hp
  | failed p' e s1 hr hl he =>
    exact PubPhase.end he (by rw [hl, storedBy_append, hp.1]; simp [storedBy]) hp.2
  | suback p' codes ht hl hw => exact ⟨_, ht, by simpa only [PubPhase, hl] using hp⟩
  | refused p' f fs codes hv ht hl hc => exact ⟨_, ht, by simpa only [PubPhase, hl] using hp⟩
  | tree p' f fs codes hv ht hl =>
    refine ⟨_, ht, ?_⟩
    simpa only [PubPhase, hl, storedBy_append, storedBy, List.append_nil] using hp
  | read p' q' f f' fs codes rx r h0 hw hs hr ht hl =>
    refine ⟨_, ht, ?_⟩
    simpa only [PubPhase, hl, storedBy_append, storedBy, List.append_nil] using hp

theorem pub_arrive {cfg : AuthConfig} {s s' : State} {c : Nat} {sess : Session} {pk : Packet} {out : List Packet}
    {p : ConnectPacket} {es : List Event} (h : ArriveCase cfg s s' c sess pk out)
    (hp : PubPhase cfg c p es s.log ⟨sess, .idle⟩) :
    ∃ t, s'.tasks.get c = some t ∧ PubPhase cfg c p (es ++ [.arrive c pk]) s'.log t := by
  obtain ⟨h1, h2⟩ := hp
  cases h with
  | publish pp hv ht hl hw =>
    refine ⟨_, ht, ?_, by rw [notePublish_will]; exact h2⟩
    rw [hl, storedBy_append, arrivals_append, h1]
    simp [storedBy, arrivals, hv, Session.messageOf]
  | invalid pp hv he =>
    refine PubPhase.end he ?_ h2
    rw [arrivals_append, h1]
    simp [arrivals, hv]
  | subscribe pp ht hl hc =>
    refine ⟨_, ht, ?_, h2⟩
    rw [hl, arrivals_append, h1]
    simp [arrivals]
  | disconnect d ht hl =>
    refine ⟨_, ht, Or.inr ⟨?_, Or.inr (Or.inl ⟨d, by simp⟩)⟩⟩
    rw [hl, arrivals_append, h1]
    simp [arrivals]
  | handled pp hs res hr ht hl hw =>
    refine ⟨_, ht, ?_, by rw [processIncoming_will _ _ _ _ _ hs]; exact h2⟩
    rw [hl, arrivals_append, h1]
    cases pk <;> first | exact hs.elim | simp [arrivals]
  | failed pp hs e hr he =>
    refine PubPhase.end he ?_ (by rw [processIncoming_will _ _ _ _ _ hs]; exact h2)
    rw [arrivals_append, h1]
    cases pk <;> first | exact hs.elim | simp [arrivals]

theorem run_snoc {cfg : AuthConfig} {s s' : State} {es : List Event} {e : Event}
    (h : s.run cfg (es ++ [e]) = some s') : ∃ s1 out, s.run cfg es = some s1 ∧ s1.step cfg e = some (s', out) := by
  obtain ⟨s1, h1, h2⟩ := run_split h
  obtain ⟨out, h3⟩ := run_one h2
  exact ⟨s1, out, h1, h3⟩

theorem begin_will (p : ConnectPacket) (uuid : Str) (b : Bool) :
    ((Session.new p).begin uuid b).1.will = willOfConnect p := by
  unfold Session.begin
  dsimp only
  split <;> rfl

theorem pub_run (cfg : AuthConfig) (c : Nat) (es : List Event) :
    ∀ s, State.init.run cfg es = some s → Pub cfg c es s := by
  induction es using snoc_induction with
  | h0 =>
    intro s h
    cases h
    exact ⟨by simp, rfl, rfl⟩
  | hs es e ih =>
    intro s' h
    obtain ⟨s, out, h0, h1⟩ := run_snoc h
    have hp := ih s h0
    by_cases hc : e.conn = c
    · have hno : ∀ p, (∀ p' u, .start c p' u ∈ es → p' = p) → (∀ p' u, e ≠ .start c p' u) →
          ∀ p' u, .start c p' u ∈ es ++ [e] → p' = p := by
        intro p k1 k2 p' u k3
        rcases List.mem_append.mp k3 with k3 | k3
        · exact k1 p' u k3
        · exact absurd (List.mem_singleton.mp k3).symm (k2 p' u)
      rcases step_inv h1 with ⟨c', p, u, rfl, k0, rfl, _⟩ | ⟨c', p, sess, rfl, k0, k1⟩ |
        ⟨c', q, sess, ph, rfl, k0, k1⟩ | ⟨c', f, sess, rfl, k0, k1⟩ | ⟨c', sess, rfl, k0, k1, _⟩
      all_goals
        have hcc : c' = c := hc
        subst hcc
        unfold Pub at hp
        rw [k0] at hp
      · refine pub_some (put_get _ _ _) (p := p) ?_ ⟨?_, begin_will p u false⟩
        · intro p' u' hm
          rcases List.mem_append.mp hm with hm | hm
          · exact absurd hm (hp.1 p' u')
          · cases List.mem_singleton.mp hm; rfl
        · show storedBy c' s.log = _
          rw [hp.2.1, arrivals_append, hp.2.2]
          rfl
      · obtain ⟨pc, j1, j2⟩ := hp
        obtain ⟨t, j3, j4⟩ := pub_arrive (arrive_case k1) j2
        exact pub_some j3 (hno pc j1 (by simp)) j4
      · obtain ⟨pc, j1, j2⟩ := hp
        obtain ⟨t, j3, j4⟩ := pub_work (work_case k1 k0) j2
        exact pub_some j3 (hno pc j1 (by simp)) (j4.ext _ rfl rfl)
      · obtain ⟨pc, j1, j2⟩ := hp
        have hlog := (moves_deliver k1).log
        rw [List.append_nil] at hlog
        have k2 := k1
        unfold State.deliver at k1
        rcases processOutgoing_cases sess s.calls.walk.tree f with
          ⟨z1, _⟩ | ⟨sta, m, stb, _, _, ⟨u, _, z1⟩ | ⟨_, z1⟩⟩
        · rw [z1] at k1; cases k1
        · rw [z1] at k1
          cases k1
          refine pub_some (put_get _ _ _) (hno pc j1 (by simp)) ⟨?_, j2.2⟩
          rw [hlog, arrivals_append, j2.1]
          simp [arrivals]
        · rw [z1] at k1
          cases k1
          refine pub_some (put_get _ _ _) (hno pc j1 (by simp)) (Or.inr ⟨?_, Or.inr (Or.inr ?_)⟩)
          · rw [hlog, arrivals_append, j2.1]
            simp [arrivals]
          · exact ⟨es, f, [], s, _, rfl, h0, h1⟩
      · obtain ⟨pc, j1, j2⟩ := hp
        obtain ⟨t, j3, j4⟩ := PubPhase.end (cfg := cfg) (es := es ++ [.close c']) (end_case k1)
          (by rw [arrivals_append, j2.1]; simp [arrivals]) j2.2
        exact pub_some j3 (hno pc j1 (by simp)) j4
    · obtain ⟨new, hm⟩ := step_moves h1
      have hl : storedBy c s'.log = storedBy c s.log := by
        rw [hm.log, storedBy_append, storedBy_others (Ne.symm hc) new hm.own, List.append_nil]
      have ha := arrivals_other hc
      have hst : ∀ p u, e ≠ .start c p u := by rintro p u rfl; exact hc rfl
      unfold Pub at hp ⊢
      rw [hm.others c (Ne.symm hc)]
      cases ht : s.tasks.get c with
      | none =>
        rw [ht] at hp
        refine ⟨fun p u hmem => ?_, hl.trans hp.2.1, by rw [arrivals_append, ha, hp.2.2]; rfl⟩
        rcases List.mem_append.mp hmem with k | k
        · exact hp.1 p u k
        · exact hst p u (List.mem_singleton.mp k).symm
      | some t =>
        rw [ht] at hp
        obtain ⟨pc, j1, j2⟩ := hp
        refine ⟨pc, fun p' u hmem => ?_, j2.ext e ha hl⟩
        rcases List.mem_append.mp hmem with k | k
        · exact j1 p' u k
        · exact absurd (List.mem_singleton.mp k).symm (hst p' u)

end Tasks

theorem announcedWill_eq (p : ConnectPacket) :
    announcedWill p = (willOfConnect p).map fun w => (w.topic, Server.willMessage w) := by
  unfold announcedWill willOfConnect
  cases p.flags.willFlag <;> cases p.payload.willTopic <;> rfl

/-- C89: what the broker is given for connection `c`, whatever the other connections do: the messages of the
PUBLISH packets with valid topics, each once, in the order in which they arrived; and, when the connection ends
in another way than by DISCONNECT, its will, after them. -/
theorem C89_published (cfg : AuthConfig) (es : List Tasks.Event) (s : Tasks.State)
    (hrun : Tasks.State.init.run cfg es = some s) (c : Nat) (p : ConnectPacket) (u : Str)
    (hs : .start c p u ∈ es) :
    ∃ t, s.tasks.get c = some t ∧
      ((storedBy c s.log = arrivals c es ∧ (t.phase = .ended → announcedWill p = none ∨
          (∃ d, .arrive c (.disconnect d) ∈ es) ∨ Broke cfg c es)) ∨
       ∃ w, announcedWill p = some w ∧ t.phase ≠ .idle ∧ storedBy c s.log = arrivals c es ++ [w]) := by
  simp only [announcedWill_eq, Option.map_eq_none_iff]
  have fin : ∀ {t : Task} {w : StoredWill}, willOfConnect p = some w → t.phase ≠ .idle →
      storedBy c s.log = arrivals c es ++ [(w.topic, Server.willMessage w)] →
      ∃ w, (willOfConnect p).map (fun w => (w.topic, Server.willMessage w)) = some w ∧ t.phase ≠ .idle ∧
        storedBy c s.log = arrivals c es ++ [w] :=
    fun h1 h2 h3 => ⟨_, by rw [h1]; rfl, h2, h3⟩
  have h := pub_run cfg c es s hrun
  unfold Pub at h
  cases ht : s.tasks.get c with
  | none => rw [ht] at h; exact absurd hs (h.1 p u)
  | some t =>
    rw [ht] at h
    obtain ⟨pc, h1, h2⟩ := h
    cases h1 p u hs
    refine ⟨t, rfl, ?_⟩
    obtain ⟨sess, ph⟩ := t
    cases ph with
    | stored t m q =>
      cases q with
      | none => obtain ⟨w, k1, k2⟩ := h2; exact Or.inr (fin k1 (by simp) k2)
      | some q => exact Or.inl ⟨h2.1, by simp⟩
    | routing q =>
      cases q with
      | none => obtain ⟨w, k1, k2⟩ := h2; exact Or.inr (fin k1 (by simp) k2)
      | some q => exact Or.inl ⟨h2.1, by simp⟩
    | ended =>
      rcases h2 with ⟨w, k1, k2⟩ | ⟨k1, k2⟩
      · exact Or.inr (fin k1 (by simp) k2)
      · exact Or.inl ⟨k1, fun _ => k2⟩
    | idle => exact Or.inl ⟨h2.1, by simp⟩
    | subscribing _ _ _ => exact Or.inl ⟨h2.1, by simp⟩
    | reading _ _ _ _ _ => exact Or.inl ⟨h2.1, by simp⟩

end Mercurio
