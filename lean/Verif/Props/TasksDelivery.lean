import Verif.Props.Tasks

/-!
# C89: what a subscriber is sent while connections are handled at the same time
-/

namespace Mercurio

open Spec

namespace Tasks

/-! ## Channels only grow -/

theorem walk_grows {s s' : Walk.State Message} {e : Walk.Event Message} (h : Walk.step s e = some s')
    {path : List Str} {sent : List Message} (hs : TopicNode.sentAt s.tree path = some sent) :
    ∃ more, TopicNode.sentAt s'.tree path = some (sent ++ more) := by
  cases e with
  | subscribe q f =>
    simp only [Walk.step] at h
    split at h
    · cases h
      exact ⟨[], by rw [List.append_nil]; exact TopicNode.sentAt_ensure _ _ _ _ hs⟩
    · cases h
  | begin k t m =>
    simp only [Walk.step] at h
    split at h
    · cases h
    · cases h; exact ⟨[], by rw [List.append_nil]; exact hs⟩
  | work k =>
    simp only [Walk.step] at h
    split at h
    · rename_i v a as hg
      cases h
      cases a with
      | send p =>
        show ∃ more, TopicNode.sentAt (TopicNode.send s.tree p v) path = _
        rw [TopicNode.sentAt_send]
        split
        · exact ⟨[v], by rw [hs]; rfl⟩
        · exact ⟨[], by rw [List.append_nil]; exact hs⟩
      | visit p rest =>
        refine ⟨[], ?_⟩
        rw [List.append_nil]
        simp only [Walk.act]
        split <;> exact hs
    · cases h
  | finish k =>
    simp only [Walk.step] at h
    split at h
    · cases h; exact ⟨[], by rw [List.append_nil]; exact hs⟩
    · cases h

theorem calls_grows {s s' : Calls.State} {es : List Calls.Event} (h : Calls.run s es = some s')
    {path : List Str} {sent : List Message} (hs : TopicNode.sentAt s.walk.tree path = some sent) :
    ∃ more, TopicNode.sentAt s'.walk.tree path = some (sent ++ more) := by
  induction es generalizing s sent with
  | nil => cases h; exact ⟨[], by rw [List.append_nil]; exact hs⟩
  | cons e es ih =>
    obtain ⟨s1, h1, h2⟩ := Calls.run_cons h
    have hp := (Calls.step_parts h1).1
    have key : ∃ more, TopicNode.sentAt s1.walk.tree path = some (sent ++ more) := by
      cases hw : Calls.toWalk e with
      | none =>
        rw [hw] at hp
        simp only at hp
        exact ⟨[], by rw [List.append_nil, hp]; exact hs⟩
      | some w => rw [hw] at hp; exact walk_grows hp hs
    obtain ⟨m1, k1⟩ := key
    obtain ⟨m2, k2⟩ := ih h2 k1
    exact ⟨m1 ++ m2, by rw [k2, List.append_assoc]⟩

/-! ## From the arrival of a SUBSCRIBE to the SUBACK -/

/-- The subscription `f` has been made since the log was `old`: call `q` took its tree step and its read, and the
session has the stream it was given. -/
def Got (old : List Calls.Event) (s : State) (sess : Session) (f : Str) : Prop :=
  ∃ q L0 L1 L2 r rx, s.log = L0 ++ .subTree q f :: (L1 ++ .subRead q :: L2) ∧ old <+: L0 ∧
    sess.subscriptions.get f = some ⟨r, rx⟩ ∧ s.calls.walk.subs.get q = some rx ∧
    s.calls.reads.get q = some (f, some r)

/-- Receivers and reads stay. -/
theorem Moves.keep {c : Nat} {new : List Calls.Event} {s s' : State} (h : Moves c new s s') {q : Nat}
    {rx : Receiver} (hq : s.calls.walk.subs.get q = some rx) :
    s'.calls.walk.subs.get q = some rx ∧ (∀ f r, s.calls.reads.get q = some (f, some r) →
      s'.calls.reads.get q = some (f, some r)) := by
  obtain ⟨cs, h1, h2⟩ := h.calls
  obtain ⟨k1, k2⟩ := Calls.run_subs h1 hq
  refine ⟨by rw [← h2.walk]; exact k1, fun f r hr => ?_⟩
  rw [← h2.reads]
  exact (Calls.run_reads h1 k2).1 r hr

theorem Got.move {c : Nat} {new old : List Calls.Event} {s s' : State} (h : Moves c new s s') {sess sess' : Session}
    {f : Str} (hg : Got old s sess f) (hs : sess'.subscriptions.get f = sess.subscriptions.get f) :
    Got old s' sess' f := by
  obtain ⟨q, L0, L1, L2, r, rx, h1, h2, h3, h4, h5⟩ := hg
  obtain ⟨k1, k2⟩ := h.keep h4
  exact ⟨q, L0, L1, L2 ++ new, r, rx, by rw [h.log, h1]; simp, h2, hs.trans h3, k1, k2 f r h5⟩

/-- How far a SUBSCRIBE has come. -/
def Subbing (old : List Calls.Event) (p : SubscribePacket) (s : State) (t : Task) : Prop :=
  match t.phase with
  | .subscribing p' todo _ => p' = p ∧ ∃ done, p.payload.map (·.topicFilter) = done ++ todo ∧
      ∀ f ∈ done, ValidFilter f → Got old s t.session f
  | .reading p' q g todo _ => p' = p ∧ (∃ done, p.payload.map (·.topicFilter) = done ++ g :: todo ∧
      ∀ f ∈ done, ValidFilter f → Got old s t.session f) ∧
      ∃ L0 L1, s.log = L0 ++ .subTree q g :: L1 ∧ old <+: L0
  | .idle => ∀ f ∈ p.payload.map (·.topicFilter), ValidFilter f → Got old s t.session f
  | _ => False

theorem Subbing.move {c : Nat} {new old : List Calls.Event} {s s' : State} (h : Moves c new s s')
    {p : SubscribePacket} {t : Task} (hs : Subbing old p s t) : Subbing old p s' t := by
  obtain ⟨sess, ph⟩ := t
  cases ph with
  | subscribing p' todo codes =>
    obtain ⟨h1, done, h2, h3⟩ := hs
    exact ⟨h1, done, h2, fun f hf hv => (h3 f hf hv).move h rfl⟩
  | reading p' q g todo codes =>
    obtain ⟨h1, ⟨done, h2, h3⟩, L0, L1, h4, h5⟩ := hs
    exact ⟨h1, ⟨done, h2, fun f hf hv => (h3 f hf hv).move h rfl⟩, L0, L1 ++ new, by rw [h.log, h4]; simp, h5⟩
  | idle => exact fun f hf hv => (hs f hf hv).move h rfl
  | _ => exact hs

theorem subbing_work {old : List Calls.Event} {s s' : State} {c q : Nat} {sess : Session} {ph : Phase}
    {out : List Packet} {p : SubscribePacket} (h : WorkCase s s' c q sess ph out) (hg : Good s)
    (ht : s.tasks.get c = some ⟨sess, ph⟩) (ho : old <+: s.log) {new : List Calls.Event}
    (hm : Moves c new s s') (hs : Subbing old p s ⟨sess, ph⟩) :
    ∃ t, s'.tasks.get c = some t ∧ Subbing old p s' t := by
  cases h with
  | begin t m p' ht hl hc => exact hs.elim
  | walk p' v a as h0 ht hl hc => exact hs.elim
  | will ht hl => exact hs.elim
  | answered p' res hr ht hl => exact hs.elim
  | failed p' e s1 hr hl he => exact hs.elim
  | suback p' codes ht' hl hw =>
    refine ⟨_, ht', ?_⟩
    obtain ⟨h1, done, h2, h3⟩ := hs
    rw [List.append_nil] at h2
    intro f hf hv
    rw [h2] at hf
    exact (h3 f hf hv).move hm rfl
  | refused p' f fs codes hv ht' hl hc =>
    refine ⟨_, ht', ?_⟩
    obtain ⟨h1, done, h2, h3⟩ := hs
    refine ⟨h1, done ++ [f], by rw [h2]; simp, fun g hgm hgv => ?_⟩
    rcases List.mem_append.mp hgm with hgm | hgm
    · exact (h3 g hgm hgv).move hm rfl
    · cases List.mem_singleton.mp hgm; exact absurd hgv hv
  | tree p' f fs codes hv ht' hl =>
    refine ⟨_, ht', ?_⟩
    obtain ⟨h1, done, h2, h3⟩ := hs
    exact ⟨h1, ⟨done, h2, fun g hgm hgv => (h3 g hgm hgv).move hm rfl⟩, s.log, [], hl, ho⟩
  | read p' q' f f' fs codes rx r h0 hw hsub hr ht' hl =>
    refine ⟨_, ht', ?_⟩
    obtain ⟨h1, ⟨done, h2, h3⟩, L0, L1, h4, h5⟩ := hs
    have hok := hg.ok c
    rw [ht] at hok
    obtain ⟨_, k1, _⟩ := hok
    rw [h0] at k1
    cases k1
    refine ⟨h1, done ++ [f], by rw [h2]; simp, fun g hgm hgv => ?_⟩
    by_cases hgf : g = f
    · subst hgf
      refine ⟨q', L0, L1, [], r, rx, by rw [hl, h4]; simp, h5, ?_, hsub, hr⟩
      exact (Map.get_insert _ _ _ _).trans (if_pos rfl)
    · rcases List.mem_append.mp hgm with hgm | hgm
      · exact (h3 g hgm hgv).move hm ((Map.get_insert _ _ _ _).trans (if_neg (Ne.symm hgf)))
      · exact absurd (List.mem_singleton.mp hgm) hgf

theorem run_log_prefix {cfg : AuthConfig} {s s' : State} {es : List Event} (h : s.run cfg es = some s') :
    s.log <+: s'.log := by
  obtain ⟨new, cs, h1, _⟩ := run_log h
  exact ⟨new, h1.symm⟩

theorem step_log_prefix {cfg : AuthConfig} {s s' : State} {e : Event} {out : List Packet}
    (h : s.step cfg e = some (s', out)) : s.log <+: s'.log := by
  obtain ⟨new, h1⟩ := step_moves h
  exact ⟨new, h1.log.symm⟩

theorem subbing_run {cfg : AuthConfig} {old : List Calls.Event} {s s' : State} {c : Nat} {p : SubscribePacket}
    {es : List Event} (h : s.run cfg es = some s') (hes : ∀ e ∈ es, e.conn = c → ∃ q, e = .work c q) (hg : Good s)
    (ho : old <+: s.log) {t : Task} (ht : s.tasks.get c = some t) (hs : Subbing old p s t) :
    ∃ t', s'.tasks.get c = some t' ∧ Subbing old p s' t' := by
  induction es generalizing s t with
  | nil => cases h; exact ⟨t, ht, hs⟩
  | cons e es ih =>
    obtain ⟨s1, out, h1, h2⟩ := run_cons h
    have hes' : ∀ e ∈ es, e.conn = c → ∃ q, e = .work c q := fun e he => hes e (List.mem_cons_of_mem _ he)
    have ho' := ho.trans (step_log_prefix h1)
    obtain ⟨new, hm⟩ := step_moves h1
    by_cases hc : e.conn = c
    · obtain ⟨q, rfl⟩ := hes e (by simp) hc
      rcases step_inv h1 with ⟨_, _, _, he, _⟩ | ⟨_, _, _, he, _⟩ | ⟨c', q', sess, ph, he, h0, h3⟩ |
        ⟨_, _, _, he, _⟩ | ⟨_, _, he, _⟩ <;> cases he
      rw [ht] at h0
      cases h0
      obtain ⟨t', k1, k2⟩ := subbing_work (work_case h3 ht) hg ht ho hm hs
      exact ih h2 hes' (good_step h1 hg) ho' k1 k2
    · exact ih h2 hes' (good_step h1 hg) ho' ((hm.others c (Ne.symm hc)).trans ht) (hs.move hm)

/-! ## From the SUBACK on -/

/-- Filters a SUBSCRIBE being handled has still to do. -/
def openFilters : Phase → List Str
  | .subscribing _ todo _ => todo
  | .reading _ _ g todo _ => g :: todo
  | _ => []

/-- The stream of the subscription `f` of connection `c`, made by call `q` with the retained messages `r0` and the
receiver `rx0`: the messages `D` have been sent, and what is ahead. -/
structure Follow (c : Nat) (f : Str) (q : Nat) (r0 : List Message) (rx0 : Receiver) (s : State) (D : List Message)
    (exact : Prop) where
  t : Task
  st : SubStream
  sent : List Message
  task : s.tasks.get c = some t
  stream : t.session.subscriptions.get f = some st
  receiver : s.calls.walk.subs.get q = some rx0
  path : st.rx.path = rx0.path
  channel : TopicNode.sentAt s.calls.walk.tree rx0.path = some sent
  next : st.rx.next ≤ sent.length
  start : rx0.next ≤ sent.length
  todo : f ∉ openFilters t.phase
  sub : (D ++ st.ahead sent).Sublist (r0 ++ sent.drop rx0.next)
  all : exact → t.phase ≠ .ended → D ++ st.ahead sent = r0 ++ sent.drop rx0.next

theorem ahead_append (st : SubStream) (a b : List Message) (h : st.rx.next ≤ a.length) :
    st.ahead (a ++ b) = st.ahead a ++ b := by
  unfold SubStream.ahead
  rw [List.drop_append_of_le_length h, List.append_assoc]

/-- A step that leaves the stream alone. -/
theorem Follow.quiet {c : Nat} {f : Str} {q : Nat} {r0 : List Message} {rx0 : Receiver} {s s' : State}
    {D : List Message} {X : Prop} (h : Follow c f q r0 rx0 s D X) {k : Nat} {new : List Calls.Event}
    (hm : Moves k new s s') {t' : Task} (ht : s'.tasks.get c = some t')
    (hst : t'.session.subscriptions.get f = h.t.session.subscriptions.get f) (htodo : f ∉ openFilters t'.phase)
    (hend : t'.phase ≠ .ended → h.t.phase ≠ .ended) :
    Nonempty (Follow c f q r0 rx0 s' D X) := by
  obtain ⟨cs, h1, h2⟩ := hm.calls
  obtain ⟨more, h3⟩ := calls_grows h1 h.channel
  rw [h2.walk] at h3
  refine ⟨⟨t', h.st, h.sent ++ more, ht, hst.trans h.stream, (hm.keep h.receiver).1, h.path, h3, ?_, ?_, htodo, ?_,
    fun hx he => ?_⟩⟩
  · have := h.next; rw [List.length_append]; omega
  · have := h.start; rw [List.length_append]; omega
  · rw [ahead_append _ _ _ h.next, List.drop_append_of_le_length h.start, ← List.append_assoc, ← List.append_assoc]
    exact h.sub.append (List.Sublist.refl _)
  · rw [ahead_append _ _ _ h.next, List.drop_append_of_le_length h.start, ← List.append_assoc, ← List.append_assoc,
      h.all hx (hend he)]

theorem processIncoming_stream (sess : Session) (w : World) (m : Option AuthManager) (c : Nat) (p : Packet)
    (hp : Simple p) (f : Str) (hu : ∀ u, p = .unsubscribe u → f ∉ u.payload) :
    (sess.processIncoming w m c p).session.subscriptions.get f = sess.subscriptions.get f := by
  cases p with
  | auth a =>
    simp only [Session.processIncoming, Session.handleAuth]
    cases m <;> rfl
  | publish p => exact hp.elim
  | subscribe p => exact hp.elim
  | unsubscribe u =>
    have hu := hu u rfl
    simp only [Session.processIncoming, Session.handleUnsubscribe]
    generalize sess.subscriptions = subs
    generalize u.payload = fs at hu
    induction fs generalizing subs with
    | nil => rfl
    | cons g fs ih =>
      simp only [Session.unsubscribeLoop]
      rw [ih (subs.erase g) (fun h => hu (List.mem_cons_of_mem _ h)), Map.get_erase, if_neg]
      rintro rfl
      exact hu (by simp)
  | _ => rfl

theorem notePublish_stream (sess : Session) (p : PublishPacket) :
    (sess.notePublish p).subscriptions = sess.subscriptions := by
  unfold Session.notePublish
  split <;> rfl

/-- The tasks an end leaves. -/
theorem end_task {s s' : State} {c : Nat} {sess : Session} (h : EndCase s s' c sess) :
    ∃ t, s'.tasks.get c = some t ∧ t.session.subscriptions = sess.subscriptions ∧ openFilters t.phase = [] := by
  cases h with
  | quiet hw ht hl hc => exact ⟨_, ht, rfl, rfl⟩
  | will w hw ht hl => exact ⟨_, ht, rfl, rfl⟩

theorem follow_step {cfg : AuthConfig} {c : Nat} {f : Str} {q : Nat} {r0 : List Message} {rx0 : Receiver}
    {s s' : State} {D : List Message} {X : Prop} {e : Event} {out : List Packet}
    (hs : s.step cfg e = some (s', out)) (h : Follow c f q r0 rx0 s D X)
    (hsub : ∀ p, e = .arrive c (.subscribe p) → f ∉ p.payload.map (·.topicFilter))
    (hunsub : ∀ p, e = .arrive c (.unsubscribe p) → f ∉ p.payload) :
    ∃ D', (if e = .deliver c f then out else []) = D'.map (forwarded f) ∧
      Nonempty (Follow c f q r0 rx0 s' (D ++ D') (X ∧ backlog s c f ≤ 16)) := by
  have weaken : Nonempty (Follow c f q r0 rx0 s' D X) → Nonempty (Follow c f q r0 rx0 s' (D ++ [])
      (X ∧ backlog s c f ≤ 16)) := by
    rintro ⟨k⟩
    rw [List.append_nil]
    exact ⟨{ k with all := fun hx => k.all hx.1 }⟩
  obtain ⟨new, hm⟩ := step_moves hs
  have htask := h.task
  by_cases hc : e.conn = c
  · rcases step_inv hs with ⟨c', p, u, rfl, k0, rfl, _⟩ | ⟨c', p, sess, rfl, k0, k1⟩ |
      ⟨c', q', sess, ph, rfl, k0, k1⟩ | ⟨c', g, sess, rfl, k0, k1⟩ | ⟨c', sess, rfl, k0, k1, _⟩
    all_goals
      have hcc : c' = c := hc
      subst hcc
      rw [k0] at htask
    · cases htask
    · have ht : h.t = ⟨sess, .idle⟩ := (Option.some.inj htask).symm
      rw [if_neg (by simp)]
      refine ⟨[], rfl, weaken ?_⟩
      have idle : ∀ {t' : Task}, t'.phase ≠ .ended → h.t.phase ≠ .ended := by rw [ht]; simp
      cases arrive_case k1 with
      | publish p hv ht' hl hw =>
        exact h.quiet hm ht' (by rw [ht]; simp only [notePublish_stream]) (by simp [openFilters]) (idle (t' := h.t) ∘ fun _ => by rw [ht]; simp)
      | invalid p hv he =>
        obtain ⟨t', j1, j2, j3⟩ := end_task he
        exact h.quiet hm j1 (by rw [ht, j2]) (by simp [j3]) (fun _ => by rw [ht]; simp)
      | subscribe p ht' hl hcc =>
        exact h.quiet hm ht' (by rw [ht]) (hsub p rfl) (fun _ => by rw [ht]; simp)
      | disconnect d ht' hl => exact h.quiet hm ht' (by rw [ht]) (by simp [openFilters]) (fun _ => by rw [ht]; simp)
      | handled p hp res hr ht' hl hw =>
        refine h.quiet hm ht' ?_ (by simp [openFilters]) (fun _ => by rw [ht]; simp)
        rw [ht]
        exact processIncoming_stream _ _ _ _ _ hp f (by rintro u rfl; exact hunsub u rfl)
      | failed p hp er hr he =>
        obtain ⟨t', j1, j2, j3⟩ := end_task he
        refine h.quiet hm j1 ?_ (by simp [j3]) (fun _ => by rw [ht]; simp)
        rw [ht, j2]
        exact processIncoming_stream _ _ _ _ _ hp f (by rintro u rfl; exact hunsub u rfl)
    · have ht : h.t = ⟨sess, ph⟩ := (Option.some.inj htask).symm
      have htodo := h.todo
      rw [ht] at htodo
      rw [if_neg (by simp)]
      refine ⟨[], rfl, weaken ?_⟩
      cases work_case k1 k0 with
      | begin t m p' ht' hl hcc =>
        exact h.quiet hm ht' (by rw [ht]) (by simp [openFilters]) (fun _ => by rw [ht]; simp)
      | walk p' v a as h0 ht' hl hcc =>
        exact h.quiet hm ht' (by rw [ht]) (by simp [openFilters]) (fun _ => by rw [ht]; simp)
      | will ht' hl => exact h.quiet hm ht' (by rw [ht]) (by simp [openFilters]) (fun _ => by rw [ht]; simp)
      | answered p' res hr ht' hl =>
        exact h.quiet hm ht' (by rw [ht]) (by simp [openFilters]) (fun _ => by rw [ht]; simp)
      | failed p' er s1 hr hl he =>
        obtain ⟨t', j1, j2, j3⟩ := end_task he
        exact h.quiet hm j1 (by rw [ht, j2]) (by simp [j3]) (fun _ => by rw [ht]; simp)
      | suback p' codes ht' hl hw =>
        exact h.quiet hm ht' (by rw [ht]) (by simp [openFilters]) (fun _ => by rw [ht]; simp)
      | refused p' g fs codes hv ht' hl hcc =>
        refine h.quiet hm ht' (by rw [ht]) (fun hf => htodo ?_) (fun _ => by rw [ht]; simp)
        exact List.mem_cons_of_mem _ hf
      | tree p' g fs codes hv ht' hl =>
        exact h.quiet hm ht' (by rw [ht]) htodo (fun _ => by rw [ht]; simp)
      | read p' q' g f' fs codes rx r h0 hw hsb hr ht' hl =>
        refine h.quiet hm ht' ?_ (fun hf => htodo (List.mem_cons_of_mem _ hf)) (fun _ => by rw [ht]; simp)
        rw [ht]
        refine (Map.get_insert _ _ _ _).trans (if_neg ?_)
        rintro rfl
        exact htodo (by simp [openFilters])
    · have ht : h.t = ⟨sess, .idle⟩ := (Option.some.inj htask).symm
      have hstream := h.stream
      rw [ht] at hstream
      have hbk : backlog s c' f = h.sent.length - h.st.rx.next := by
        unfold backlog
        rw [k0]
        simp only [hstream]
        rw [channelOf_eq (by rw [h.path]; exact h.channel)]
      by_cases hgf : g = f
      · subst hgf
        rw [if_pos rfl]
        unfold State.deliver at k1
        rcases processOutgoing_cases sess s.calls.walk.tree g with
          ⟨z1, _⟩ | ⟨sta, m, stb, z2, z3, z4⟩
        · rw [z1] at k1; cases k1
        · rw [hstream] at z2
          cases z2
          obtain ⟨q1, q2, q3, q4, q5, q6⟩ := poll_some (by rw [h.path]; exact h.channel) h.next z3
          have hlag : backlog s c' g ≤ 16 → m :: stb.ahead h.sent = h.st.ahead h.sent := by
            intro hb
            apply q6
            right
            rw [List.length_drop]
            omega
          have hins : ∀ (subs : Map Str SubStream), (subs.insert g stb).get g = some stb :=
            fun subs => (Map.get_insert _ _ _ _).trans (if_pos rfl)
          rcases z4 with ⟨u, _, z1⟩ | ⟨_, z1⟩
          · rw [z1] at k1
            cases k1
            refine ⟨[m], rfl, ⟨⟨_, stb, h.sent, put_get _ _ _, hins _, h.receiver, q1.trans h.path, h.channel, q2, h.start,
              by simp [openFilters], ?_, fun hx _ => ?_⟩⟩⟩
            · rw [List.append_assoc]
              exact ((List.Sublist.refl D).append q5).trans h.sub
            · rw [List.append_assoc, ← h.all hx.1 (by rw [ht]; simp), ← hlag hx.2]
              rfl
          · rw [z1] at k1
            cases k1
            refine ⟨[], rfl, ⟨⟨_, stb, h.sent, put_get _ _ _, hins _, h.receiver, q1.trans h.path, h.channel, q2, h.start,
              by simp [openFilters], ?_, fun _ he => absurd rfl he⟩⟩⟩
            rw [List.append_nil]
            exact ((List.Sublist.refl D).append ((List.sublist_cons_self m _).trans q5)).trans h.sub
      · rw [if_neg (by intro he; cases he; exact hgf rfl)]
        refine ⟨[], rfl, weaken ?_⟩
        unfold State.deliver at k1
        rcases processOutgoing_cases sess s.calls.walk.tree g with
          ⟨z1, _⟩ | ⟨sta, m, stb, z2, z3, ⟨u, _, z1⟩ | ⟨_, z1⟩⟩
        · rw [z1] at k1; cases k1
        · rw [z1] at k1
          cases k1
          refine h.quiet hm (put_get _ _ _) ?_ (by simp [openFilters]) (fun _ => by rw [ht]; simp)
          rw [ht]
          exact (Map.get_insert _ _ _ _).trans (if_neg hgf)
        · rw [z1] at k1
          cases k1
          refine h.quiet hm (put_get _ _ _) ?_ (by simp [openFilters]) (fun _ => by rw [ht]; simp)
          rw [ht]
          exact (Map.get_insert _ _ _ _).trans (if_neg hgf)
    · have ht : h.t = ⟨sess, .idle⟩ := (Option.some.inj htask).symm
      rw [if_neg (by simp)]
      obtain ⟨t', j1, j2, j3⟩ := end_task (end_case k1)
      exact ⟨[], rfl, weaken (h.quiet hm j1 (by rw [ht, j2]) (by simp [j3]) (fun _ => by rw [ht]; simp))⟩
  · rw [if_neg (by rintro rfl; exact hc rfl)]
    exact ⟨[], rfl, weaken (h.quiet hm ((hm.others c (Ne.symm hc)).trans htask) rfl h.todo (fun h => h))⟩

theorem follow_run {cfg : AuthConfig} {c : Nat} {f : Str} {q : Nat} {r0 : List Message} {rx0 : Receiver}
    {es : List Event} : ∀ {s s' : State} {D : List Message} {X : Prop}, s.run cfg es = some s' →
    Follow c f q r0 rx0 s D X →
    (∀ p, .arrive c (.subscribe p) ∈ es → f ∉ p.payload.map (·.topicFilter)) →
    (∀ p, .arrive c (.unsubscribe p) ∈ es → f ∉ p.payload) →
    ∃ D', sentFor cfg c f s es = D'.map (forwarded f) ∧
      Nonempty (Follow c f q r0 rx0 s' (D ++ D') (X ∧ NeverBehind cfg c f s es)) := by
  induction es with
  | nil =>
    intro s s' D X hrun h _ _
    cases hrun
    exact ⟨[], rfl, ⟨{ h with
      sub := by rw [List.append_nil]; exact h.sub
      all := fun hx he => by rw [List.append_nil]; exact h.all hx.1 he }⟩⟩
  | cons e es ih =>
    intro s s' D X hrun h hsub hunsub
    obtain ⟨s1, out, h1, h2⟩ := run_cons hrun
    obtain ⟨D1, k1, ⟨k2⟩⟩ := follow_step h1 h (fun p he => hsub p (by simp [he])) (fun p he => hunsub p (by simp [he]))
    obtain ⟨D2, k3, ⟨k4⟩⟩ := ih h2 k2 (fun p hp => hsub p (List.mem_cons_of_mem _ hp))
      (fun p hp => hunsub p (List.mem_cons_of_mem _ hp))
    refine ⟨D1 ++ D2, ?_, ⟨{ k4 with
      sub := by rw [← List.append_assoc]; exact k4.sub
      all := fun hx he => by
        rw [← List.append_assoc]
        exact k4.all ⟨⟨hx.1, hx.2.1⟩, hx.2.2 s1 out h1⟩ he }⟩⟩
    simp only [sentFor, h1, k1, k3, List.map_append]

/-! ## Everything together -/

theorem subbing_suback {cfg : AuthConfig} {es0 es1 : List Event} {c q0 : Nat} {p : SubscribePacket} {a : SubAckPacket}
    {o1 : List Packet} {s0 s1 s2 s3 : State} (h0 : State.init.run cfg es0 = some s0)
    (h1 : s0.step cfg (.arrive c (.subscribe p)) = some (s1, o1)) (h2 : s1.run cfg es1 = some s2)
    (hes1 : ∀ e ∈ es1, e.conn = c → ∃ q, e = .work c q)
    (h3 : s2.step cfg (.work c q0) = some (s3, [.subAck a])) :
    ∃ sess, s3.tasks.get c = some ⟨sess, .idle⟩ ∧
      ∀ f ∈ p.payload.map (·.topicFilter), ValidFilter f → Got s0.log s3 sess f := by
  have hg0 := good_run h0 good_init
  have hg1 := good_step h1 hg0
  have ha : ∃ t, s1.tasks.get c = some t ∧ Subbing s0.log p s1 t := by
    rcases step_inv h1 with ⟨_, _, _, he, _⟩ | ⟨c', p', sess, he, k0, k1⟩ | ⟨_, _, _, _, he, _⟩ |
      ⟨_, _, _, he, _⟩ | ⟨_, _, he, _⟩ <;> cases he
    simp only [State.arrive, Option.some.injEq, Prod.mk.injEq] at k1
    obtain ⟨rfl, _⟩ := k1
    exact ⟨_, put_get _ _ _, rfl, [], rfl, by simp⟩
  obtain ⟨t1, k1, k2⟩ := ha
  obtain ⟨t2, k3, k4⟩ := subbing_run h2 hes1 hg1 (step_log_prefix h1) k1 k2
  obtain ⟨new, hm⟩ := step_moves h3
  have ho := (step_log_prefix h1).trans (run_log_prefix h2)
  rcases step_inv h3 with ⟨_, _, _, he, _⟩ | ⟨_, _, _, he, _⟩ | ⟨c', q', sess, ph, he, k5, k6⟩ |
      ⟨_, _, _, he, _⟩ | ⟨_, _, he, _⟩ <;> cases he
  rw [k3] at k5
  cases k5
  have hw := work_case k6 k3
  obtain ⟨t3, k7, k8⟩ := subbing_work hw (good_run h2 hg1) k3 ho hm k4
  generalize hout : [Packet.subAck a] = out at hw
  cases hw with
  | suback p' codes ht hl hww =>
    rw [ht] at k7
    cases k7
    exact ⟨_, ht, k8⟩
  | answered p' res hr ht hl => exact k4.elim
  | _ => cases hout

/-- The stream at the time of the SUBACK. -/
theorem follow_start {cfg : AuthConfig} {es : List Event} {s : State} (hrun : State.init.run cfg es = some s)
    {c : Nat} {t : Task} (ht : s.tasks.get c = some t) (hidle : t.phase = .idle) {f : Str} {q : Nat}
    {L0 L1 : List Calls.Event} (hl : s.log = L0 ++ .subTree q f :: L1) {r : List Message} {rx : Receiver}
    (hst : t.session.subscriptions.get f = some ⟨r, rx⟩) (hq : s.calls.walk.subs.get q = some rx) :
    Nonempty (Follow c f q r rx s [] True) := by
  obtain ⟨cs, k1, k2⟩ := log_sound hrun
  rw [hl, Calls.run_append] at k1
  cases k3 : Calls.run Calls.init L0 with
  | none => rw [k3] at k1; cases k1
  | some sa =>
    rw [k3] at k1
    obtain ⟨sb, k4, k5⟩ := Calls.run_cons k1
    obtain ⟨base, k6, g, k7, _⟩ := Walk.good_run (Calls.step_parts k4).1 (Calls.run_walk k5)
    rw [k2.walk] at k6 k7
    rw [hq] at k6
    cases k6
    refine ⟨⟨t, _, _, ht, hst, hq, rfl, k7, by simp, by simp, by rw [hidle]; simp [openFilters], ?_, fun _ _ => rfl⟩⟩
    exact List.Sublist.refl _

/-- A connection that is there has started. -/
theorem started {cfg : AuthConfig} {k : Nat} {es : List Event} : ∀ {s : State} {t : Task},
    State.init.run cfg es = some s → s.tasks.get k = some t → ∃ p u, .start k p u ∈ es := by
  induction es using snoc_induction with
  | h0 => intro s t h ht; cases h; cases ht
  | hs es e ih =>
    intro s' t h ht
    obtain ⟨s, out, h0, h1⟩ := run_snoc h
    cases hk : s.tasks.get k with
    | some t0 =>
      obtain ⟨p, u, hm⟩ := ih h0 hk
      exact ⟨p, u, List.mem_append_left _ hm⟩
    | none =>
      obtain ⟨new, hm⟩ := step_moves h1
      by_cases hc : k = e.conn
      · rcases step_inv h1 with ⟨c', p, u, rfl, _⟩ | ⟨c', p, sess, rfl, k0, _⟩ |
          ⟨c', q', sess, ph, rfl, k0, _⟩ | ⟨c', g, sess, rfl, k0, _⟩ | ⟨c', sess, rfl, k0, _⟩
        · have hcc : k = c' := hc
          subst hcc
          exact ⟨p, u, by simp⟩
        all_goals
          have hcc : k = c' := hc
          subst hcc
          rw [k0] at hk
          cases hk
      · rw [hm.others k hc, hk] at ht
        cases ht

/-- What a connection stores has a valid topic. -/
theorem stored_valid {cfg : AuthConfig} {es : List Event} {s : State} (hrun : State.init.run cfg es = some s)
    (hw : ∀ k p u, .start k p u ∈ es → ∀ w, announcedWill p = some w → ValidTopic w.1) {k : Nat}
    {x : Str × Message} (hx : x ∈ storedBy k s.log) : ValidTopic x.1 := by
  have harr : ∀ x ∈ arrivals k es, ValidTopic x.1 := by
    clear hrun hw hx x
    induction es with
    | nil => simp [arrivals]
    | cons e es ih =>
      intro x hx
      cases e with
      | arrive k' p =>
        cases p with
        | publish p =>
          simp only [arrivals] at hx
          split at hx
          · rename_i hc
            rcases List.mem_cons.mp hx with rfl | hx
            · exact hc.2
            · exact ih x hx
          · exact ih x hx
        | _ => exact ih x hx
      | _ => exact ih x hx
  by_cases hs : ∃ p u, .start k p u ∈ es
  · obtain ⟨p, u, hs⟩ := hs
    obtain ⟨t, _, ⟨h1, _⟩ | ⟨w, h1, _, h2⟩⟩ := C89_published cfg es s hrun k p u hs
    · rw [h1] at hx; exact harr x hx
    · rw [h2] at hx
      rcases List.mem_append.mp hx with hx | hx
      · exact harr x hx
      · cases List.mem_singleton.mp hx
        exact hw k p u hs _ h1
  · have hp := pub_run cfg k es s hrun
    unfold Pub at hp
    cases ht : s.tasks.get k with
    | none => rw [ht] at hp; rw [hp.2.1] at hx; cases hx
    | some t => exact absurd (started hrun ht) hs

/-- A connection is in no publication if it is not handling a packet. -/
theorem quiet_free {s : State} (hg : Good s) {k : Nat} (hq : ∀ t, s.tasks.get k = some t → ¬ Busy t.phase) :
    Free s.calls k := by
  have hok := hg.ok k
  cases ht : s.tasks.get k with
  | none => rw [ht] at hok; exact hok
  | some t =>
    rw [ht] at hok
    have hq := hq t ht
    obtain ⟨sess, ph⟩ := t
    cases ph with
    | idle => exact hok
    | ended => exact hok
    | _ => exact absurd trivial hq

/-- What a connection has stored it has routed, except at most one message. -/
theorem stored_routed {cfg : AuthConfig} {es : List Event} {s : State} (hrun : State.init.run cfg es = some s) (k : Nat) :
    storedBy k s.log = walked k s.log ++ (s.calls.stored.get k).toList := by
  obtain ⟨cs, k1, k2⟩ := log_sound hrun
  rw [storedBy_eq, Calls.stores_walked k s.log cs k1, k2.stored]

theorem walked_prefix {k : Nat} {a b : List Calls.Event} (h : a <+: b) : walked k a <+: walked k b := by
  obtain ⟨l, rfl⟩ := h
  rw [Calls.walked_append]
  exact List.prefix_append _ _

end Tasks

open Tasks

/-- C89: connections are handled at the same time, their steps interleaved in any way.  A SUBSCRIBE that
contains the valid filter `f` arrives on connection `c` at `s0`, its SUBACK is sent at `s3`, and after that
the client neither subscribes to `f` again nor unsubscribes from it.  What it is due for `f` is: for each
topic that `f` matches, the retained message of a time between `s0` and `s3`; then an interleaving of the
messages that `f` matches of all connections.  Of the messages of connection `k`, in its order, those are
`parts k`: none that was routed when the SUBSCRIBE arrived, all that arrive after the SUBACK, except one
that is still being routed.  What is sent on `c` for `f` is never anything else, each once and in order.
As long as never more than 16 messages wait nothing is left out, and when nothing is left to send it is all. -/
theorem C89_delivery (cfg : AuthConfig) (es0 es1 es2 : List Tasks.Event) (c q0 : Nat) (p : SubscribePacket)
    (a : SubAckPacket) (o1 : List Packet) (s0 s1 s2 s3 s : Tasks.State)
    (h0 : Tasks.State.init.run cfg es0 = some s0)
    (h1 : s0.step cfg (.arrive c (.subscribe p)) = some (s1, o1))
    (h2 : s1.run cfg es1 = some s2) (hes1 : ∀ e ∈ es1, e.conn = c → ∃ q, e = .work c q)
    (h3 : s2.step cfg (.work c q0) = some (s3, [.subAck a]))
    (h4 : s3.run cfg es2 = some s)
    (f : Str) (hf : f ∈ p.payload.map (·.topicFilter)) (hv : ValidFilter f)
    (hsub : ∀ p, .arrive c (.subscribe p) ∈ es2 → f ∉ p.payload.map (·.topicFilter))
    (hunsub : ∀ p, .arrive c (.unsubscribe p) ∈ es2 → f ∉ p.payload)
    (hwill : ∀ k pc u, .start k pc u ∈ es0 ++ es1 ++ es2 → ∀ w, announcedWill pc = some w → ValidTopic w.1) :
    ∃ (seen : List Calls.Event) (topics : List Str) (live : List Message) (parts : Nat → List (Str × Message)),
      s0.log <+: seen ∧ seen <+: s3.log ∧ topics.Nodup ∧
      (∀ t, t ∈ topics ↔ Matches f t ∧ (retainedOf t (storeSteps seen)).isSome) ∧
      Interleaves live (fun k => Spec.matching f (parts k)) ∧
      (∀ k, ∃ old rest, storedBy k s.log = old ++ parts k ++ rest ∧
        (storedBy k s0.log).dropLast <+: old ∧ (Resting s0 k → storedBy k s0.log <+: old) ∧
        old <+: storedBy k s3.log ∧ rest.length ≤ 1 ∧ (Resting s k → rest = [])) ∧
      let due := ((topics.filterMap fun t => retainedOf t (storeSteps seen)) ++ live).map (forwarded f)
      (sentFor cfg c f s3 es2).Sublist due ∧
      ∃ t, s.tasks.get c = some t ∧ (t.phase ≠ .ended → NeverBehind cfg c f s3 es2 →
        sentFor cfg c f s3 es2 <+: due ∧
        (t.phase = .idle → s.step cfg (.deliver c f) = none → sentFor cfg c f s3 es2 = due)) := by
  obtain ⟨sess, k1, k2⟩ := subbing_suback h0 h1 h2 hes1 h3
  obtain ⟨q, L0, L1, L2, r, rx, g1, g2, g3, g4, g5⟩ := k2 f hf hv
  have hrun3 : Tasks.State.init.run cfg (es0 ++ .arrive c (.subscribe p) :: es1 ++ [.work c q0]) = some s3 := by
    rw [Tasks.run_append, Tasks.run_append, h0]
    simp only [Option.bind_some, Tasks.State.run, h1, h2, h3]
  have hrun : Tasks.State.init.run cfg (es0 ++ .arrive c (.subscribe p) :: es1 ++ [.work c q0] ++ es2) = some s := by
    rw [Tasks.run_append, hrun3]
    exact h4
  have hwill' : ∀ k pc u, .start k pc u ∈ es0 ++ .arrive c (.subscribe p) :: es1 ++ [.work c q0] ++ es2 →
      ∀ w, announcedWill pc = some w → ValidTopic w.1 := by
    intro k pc u hm
    exact hwill k pc u (by simpa using hm)
  obtain ⟨F⟩ := follow_start hrun3 k1 rfl g1 g3 g4
  obtain ⟨D, d1, ⟨G⟩⟩ := follow_run h4 F hsub hunsub
  rw [List.nil_append] at G
  obtain ⟨new, cs, n1, n2, n3⟩ := run_log h4
  obtain ⟨cs', m1, m2⟩ := log_sound hrun
  have hlog : s.log = L0 ++ .subTree q f :: (L1 ++ .subRead q :: (L2 ++ new)) := by
    rw [n1, g1]; simp
  have m1' := m1
  rw [hlog] at m1
  have hbegin : ∀ k t m, .begin k t m ∈ s.log → ValidTopic t := by
    intro k t m hm
    refine stored_valid hrun hwill' (k := k) (x := (t, m)) ?_
    rw [stored_routed hrun]
    exact List.mem_append_left _ (Calls.begin_walked hm)
  obtain ⟨rx', parts, p1, p2, p3⟩ := C88_live L0 (L1 ++ .subRead q :: (L2 ++ new)) q f cs' m1
    (fun k t m hm => hbegin k t m (by rw [hlog]; exact List.mem_append_right _ (List.mem_cons_of_mem _ hm)))
  obtain ⟨r', topics, r1, r2, r3, r4⟩ := C88_retained L0 L1 (L2 ++ new) q f hv cs' m1
  rw [m2.walk] at p1 p2 p3
  rw [m2.reads] at r1
  rw [G.receiver] at p1
  cases p1
  have hr : r' = r := by
    obtain ⟨_, z1⟩ := Calls.run_subs n2 g4
    have := (Calls.run_reads n2 z1).1 r g5
    rw [n3.reads, r1] at this
    cases this
    rfl
  subst hr
  rw [pending_eq _ _ _ G.channel] at p2
  have hseen : storeSteps (L0 ++ .subTree q f :: L1) = storeSteps (L0 ++ L1) := by
    rw [Calls.storeSteps_append, Calls.storeSteps_append]; rfl
  have hgood := good_run hrun good_init
  have hgood0 := good_run h0 good_init
  have hw : ∀ k, walked k s.log = walked k L0 ++ walked k (L1 ++ .subRead q :: (L2 ++ new)) := by
    intro k
    rw [hlog, Calls.walked_append]
    rfl
  -- the messages of each connection
  have hpart : ∀ k, ∃ W rest, parts k = Spec.matching f W ∧ storedBy k s.log = walked k L0 ++ W ++ rest ∧
      rest.length ≤ 1 ∧ (Resting s k → rest = []) := by
    intro k
    rcases p3 k with h | ⟨hb, h⟩
    · refine ⟨_, (s.calls.stored.get k).toList, h, ?_, ?_, fun hq => ?_⟩
      · rw [stored_routed hrun, hw]
      · cases s.calls.stored.get k <;> simp
      · rw [(quiet_free hgood hq).1]; rfl
    · have hst : s.calls.stored.get k = none := by
        have hok := hgood.ok k
        cases ht : s.tasks.get k with
        | none => rw [ht] at hok; exact hok.1
        | some t =>
          rw [ht] at hok
          obtain ⟨ss, ph⟩ := t
          cases ph with
          | stored t m p => rw [hok.2] at hb; cases hb
          | routing p => exact hok.1
          | reading => exact hok.1.1
          | _ => exact hok.1
      refine ⟨_, (walked k (L1 ++ .subRead q :: (L2 ++ new))).getLast?.toList, h, ?_, ?_, fun hq => ?_⟩
      · rw [stored_routed hrun, hw, hst, Option.toList_none, List.append_nil, List.append_assoc]
        refine congrArg (walked k L0 ++ ·) ?_
        generalize walked k _ = l
        induction l using snoc_induction with
        | h0 => rfl
        | hs l x _ => simp
      · cases (walked k (L1 ++ .subRead q :: (L2 ++ new))).getLast? <;> simp
      · rw [(quiet_free hgood hq).2] at hb; cases hb
  refine ⟨L0 ++ .subTree q f :: L1, topics, G.sent.drop rx.next, fun k => (hpart k).choose, ?_, ?_, r2, ?_, ?_, ?_, ?_⟩
  · exact g2.trans (List.prefix_append _ _)
  · exact ⟨.subRead q :: L2, by rw [g1]; simp⟩
  · intro t; rw [hseen]; exact r3 t
  · have : (fun k => Spec.matching f (hpart k).choose) = parts := by
      funext k
      obtain ⟨_, z1, _⟩ := (hpart k).choose_spec
      exact z1.symm
    rw [this]
    exact p2
  · intro k
    obtain ⟨rest, _, z2, z3, z4⟩ := (hpart k).choose_spec
    have hpre : walked k s0.log <+: walked k L0 := walked_prefix g2
    refine ⟨walked k L0, rest, z2, ?_, fun hq => ?_, ?_, z3, z4⟩
    · refine List.IsPrefix.trans ?_ hpre
      rw [stored_routed h0]
      cases s0.calls.stored.get k with
      | none => rw [Option.toList_none, List.append_nil]; exact List.dropLast_prefix _
      | some x => simp
    · rw [stored_routed h0, (quiet_free hgood0 hq).1, Option.toList_none, List.append_nil]
      exact hpre
    · rw [stored_routed hrun3]
      exact (walked_prefix ⟨_, g1.symm⟩).trans (List.prefix_append _ _)
  · rw [hseen, ← r4]
    refine ⟨?_, G.t, G.task, fun hne hnb => ?_⟩
    · rw [d1]
      exact (((List.sublist_append_left D _).trans G.sub).map _)
    · have hall := G.all ⟨trivial, hnb⟩ hne
      rw [d1, ← hall]
      refine ⟨by rw [List.map_append]; exact List.prefix_append _ _, fun hid hnone => ?_⟩
      have hdel : Tasks.State.deliver s c G.t.session f = none := by
        have ht : s.tasks.get c = some ⟨G.t.session, .idle⟩ := by rw [G.task, ← hid]
        simp only [Tasks.State.step, ht] at hnone
        exact hnone
      unfold Tasks.State.deliver at hdel
      rcases processOutgoing_cases G.t.session s.calls.walk.tree f with
        ⟨z1, z2⟩ | ⟨sta, m, stb, z2, z3, ⟨u, _, z1⟩ | ⟨_, z1⟩⟩
      · have hnil : G.st.ahead G.sent = [] := by
          refine (poll_none (by rw [G.path]; exact G.channel) G.next).mp ?_
          rcases z2 with z2 | ⟨st, z2, z3⟩
          · rw [G.stream] at z2; cases z2
          · rw [G.stream] at z2; cases z2; exact z3
        rw [hnil, List.append_nil]
      · rw [z1] at hdel; cases hdel
      · rw [z1] at hdel; cases hdel

namespace Tasks

/-- What arrives is stored. -/
theorem arrivals_stored_step {cfg : AuthConfig} {s s' : State} {e : Event} {out : List Packet} (k : Nat)
    (h : s.step cfg e = some (s', out)) :
    ∃ more, storedBy k s'.log = storedBy k s.log ++ more ∧ (arrivals k [e]).Sublist more := by
  obtain ⟨new, hm⟩ := step_moves h
  have hgrow : storedBy k s'.log = storedBy k s.log ++ storedBy k new := by rw [hm.log, storedBy_append]
  rcases step_inv h with ⟨_, _, _, rfl, _⟩ | ⟨c', p, sess, rfl, k0, k1⟩ | ⟨_, _, _, _, rfl, _⟩ |
    ⟨_, _, _, rfl, _⟩ | ⟨_, _, rfl, _⟩
  case inr.inl =>
    cases arrive_case k1 with
    | publish p hv ht hl hw =>
      rw [hl, storedBy_append]
      refine ⟨_, rfl, ?_⟩
      simp only [arrivals, storedBy]
      by_cases hc : c' = k
      · rw [if_pos ⟨hc, hv⟩, if_pos hc]
        exact List.Sublist.refl _
      · rw [if_neg (fun h => hc h.1), if_neg hc]
        exact List.Sublist.refl _
    | invalid p hv he =>
      refine ⟨_, hgrow, ?_⟩
      simp only [arrivals]
      rw [if_neg (fun h => hv h.2)]
      exact List.nil_sublist _
    | subscribe p ht hl hc => exact ⟨_, hgrow, List.nil_sublist _⟩
    | disconnect d ht hl => exact ⟨_, hgrow, List.nil_sublist _⟩
    | handled p hp res hr ht hl hw =>
      refine ⟨_, hgrow, ?_⟩
      cases p with
      | publish p => exact hp.elim
      | _ => exact List.nil_sublist _
    | failed p hp er hr he =>
      refine ⟨_, hgrow, ?_⟩
      cases p with
      | publish p => exact hp.elim
      | _ => exact List.nil_sublist _
  all_goals exact ⟨_, hgrow, List.nil_sublist _⟩

theorem arrivals_stored {cfg : AuthConfig} (k : Nat) {es : List Event} : ∀ {s s' : State}, s.run cfg es = some s' →
    ∃ more, storedBy k s'.log = storedBy k s.log ++ more ∧ (arrivals k es).Sublist more := by
  induction es with
  | nil => intro s s' h; cases h; exact ⟨[], by simp, List.nil_sublist _⟩
  | cons e es ih =>
    intro s s' h
    obtain ⟨s1, out, h1, h2⟩ := run_cons h
    obtain ⟨m1, k1, k2⟩ := arrivals_stored_step k h1
    obtain ⟨m2, k3, k4⟩ := ih h2
    refine ⟨m1 ++ m2, by rw [k3, k1, List.append_assoc], ?_⟩
    have : arrivals k (e :: es) = arrivals k [e] ++ arrivals k es := arrivals_append k [e] es
    rw [this]
    exact k2.append k4

theorem matching_sublist {f : Str} {a b : List (Str × Message)} (h : a.Sublist b) :
    (Spec.matching f a).Sublist (Spec.matching f b) := by
  unfold Spec.matching
  exact (h.filter _).map _

theorem suffix_of_prefix {α : Type} {a b c d : List α} (h : a ++ b = c ++ d) (hp : c <+: a) : b <:+ d := by
  obtain ⟨x, rfl⟩ := hp
  rw [List.append_assoc, List.append_cancel_left_eq] at h
  exact ⟨x, h⟩

end Tasks

/-- C89: in particular nothing is lost between the connections.  If the client has been sent everything, and
never more than 16 messages waited for it, then it has been sent every message that `f` matches and that
arrived after its SUBACK on a connection `k` that is done with it, those of one connection in order. -/
theorem C89_nothing_lost (cfg : AuthConfig) (es0 es1 es2 : List Tasks.Event) (c q0 : Nat) (p : SubscribePacket)
    (a : SubAckPacket) (o1 : List Packet) (s0 s1 s2 s3 s : Tasks.State)
    (h0 : Tasks.State.init.run cfg es0 = some s0)
    (h1 : s0.step cfg (.arrive c (.subscribe p)) = some (s1, o1))
    (h2 : s1.run cfg es1 = some s2) (hes1 : ∀ e ∈ es1, e.conn = c → ∃ q, e = .work c q)
    (h3 : s2.step cfg (.work c q0) = some (s3, [.subAck a]))
    (h4 : s3.run cfg es2 = some s)
    (f : Str) (hf : f ∈ p.payload.map (·.topicFilter)) (hv : ValidFilter f)
    (hsub : ∀ p, .arrive c (.subscribe p) ∈ es2 → f ∉ p.payload.map (·.topicFilter))
    (hunsub : ∀ p, .arrive c (.unsubscribe p) ∈ es2 → f ∉ p.payload)
    (hwill : ∀ k pc u, .start k pc u ∈ es0 ++ es1 ++ es2 → ∀ w, announcedWill pc = some w → ValidTopic w.1)
    (hnb : NeverBehind cfg c f s3 es2) (t : Task) (ht : s.tasks.get c = some t) (hidle : t.phase = .idle)
    (hdone : s.step cfg (.deliver c f) = none) (k : Nat) (hk : Resting s k) :
    ((Spec.matching f (arrivals k es2)).map (forwarded f)).Sublist (sentFor cfg c f s3 es2) := by
  obtain ⟨seen, topics, live, parts, _, _, _, _, hi, hp, _, t', ht', hall⟩ :=
    C89_delivery cfg es0 es1 es2 c q0 p a o1 s0 s1 s2 s3 s h0 h1 h2 hes1 h3 h4 f hf hv hsub hunsub hwill
  rw [ht] at ht'
  cases ht'
  rw [(hall (by rw [hidle]; simp) hnb).2 hidle hdone]
  refine List.Sublist.map _ ?_
  obtain ⟨old, rest, z1, _, _, z2, _, z3⟩ := hp k
  rw [z3 hk, List.append_nil] at z1
  obtain ⟨more, m1, m2⟩ := arrivals_stored k h4
  rw [m1] at z1
  have hsuf : more <:+ parts k := suffix_of_prefix z1 z2
  obtain ⟨g, g1, g2⟩ := hi
  have hlive : (Spec.matching f (parts k)).Sublist live := by
    have g2 : _ = Spec.matching f (parts k) := g2 k
    rw [← g1, ← g2]
    exact (List.filter_sublist).map _
  exact ((matching_sublist (m2.trans hsuf.sublist)).trans hlive).trans (List.sublist_append_right _ _)

/-! ## The hypotheses can be met -/

/-- A publication with QoS 1. -/
def exTaskPublish (retain : Bool) (payload : Str) (id : UInt16) : PublishPacket :=
  { qos := .atLeastOnce, retain := retain, topicName := str "a/b", packetId := some id, payload := some payload }

/-- Two clients; the second leaves a retained message. -/
def exTasks0 : List Tasks.Event :=
  [.start 0 (exConnect (str "x") true) (str "u"), .start 1 (exConnect (str "y") true) (str "v"),
   .arrive 1 (.publish (exTaskPublish true (str "1") 1)), .work 1 0, .work 1 0, .work 1 0]

/-- The first one subscribes, and while that is handled the second one publishes. -/
def exTasks1 : List Tasks.Event :=
  [.work 0 0, .arrive 1 (.publish (exTaskPublish false (str "2") 2)), .work 1 0, .work 0 0, .work 1 0,
   .work 0 0]

/-- The SUBACK has been sent; one more publication, and the deliveries. -/
def exTasks2 : List Tasks.Event :=
  [.deliver 0 (str "a/+"), .work 1 0, .work 1 0, .work 1 0, .work 1 0, .deliver 0 (str "a/+"),
   .arrive 1 (.publish (exTaskPublish false (str "3") 3)), .work 1 0, .work 1 0, .work 1 0, .work 1 0, .work 1 0,
   .work 1 0, .deliver 0 (str "a/+")]

/-- The SUBSCRIBE. -/
def exTasksSub : SubscribePacket := ⟨1, none, [⟨str "a/+", {}⟩, ⟨str "bad#", {}⟩]⟩

/-- A computable form of `NeverBehind`. -/
def neverBehindB (cfg : AuthConfig) (c : Nat) (f : Str) (s : Tasks.State) : List Tasks.Event → Bool
  | [] => decide (backlog s c f ≤ 16)
  | e :: es => decide (backlog s c f ≤ 16) &&
    match s.step cfg e with
    | some (s', _) => neverBehindB cfg c f s' es
    | none => true

theorem neverBehind_of {cfg : AuthConfig} {c : Nat} {f : Str} {es : List Tasks.Event} : ∀ {s : Tasks.State},
    neverBehindB cfg c f s es = true → NeverBehind cfg c f s es := by
  induction es with
  | nil => intro s h; have : backlog s c f ≤ 16 := of_decide_eq_true h; exact this
  | cons e es ih =>
    intro s h
    simp only [neverBehindB, Bool.and_eq_true, decide_eq_true_eq] at h
    refine ⟨h.1, fun s' out hs => ih ?_⟩
    rw [hs] at h
    exact h.2

/-- The client is sent the retained message, the one published while its SUBSCRIBE was handled and the one
published after the SUBACK, and all hypotheses are met. -/
example : ∃ s0 s1 s2 s3 s a o1 t, Tasks.State.init.run {} exTasks0 = some s0 ∧
    s0.step {} (.arrive 0 (.subscribe exTasksSub)) = some (s1, o1) ∧ s1.run {} exTasks1 = some s2 ∧
    s2.step {} (.work 0 0) = some (s3, [.subAck a]) ∧ s3.run {} exTasks2 = some s ∧
    NeverBehind {} 0 (str "a/+") s3 exTasks2 ∧ s.tasks.get 0 = some t ∧ t.phase = .idle ∧
    s.step {} (.deliver 0 (str "a/+")) = none ∧ Resting s 1 ∧
    (sentFor {} 0 (str "a/+") s3 exTasks2).map (fun | .publish p => p.payload | _ => none) =
      [some (str "1"), some (str "2"), some (str "3")] ∧
    a.payload = [.grantedQoS0, .topicFilterInvalid] := by
  refine ⟨?_, ?_, ?_, ?_, ?_, ?_, ?_, ?_, ?_, ?_, ?_, ?_, ?_, neverBehind_of ?_, ?_, ?_, ?_, ?_, ?_, ?_⟩
  rotate_left 8
  · rfl
  · rfl
  · rfl
  · rfl
  · rfl
  · decide +kernel
  · rfl
  · rfl
  · rfl
  · intro t ht
    cases ht
    exact id
  · decide +kernel
  · decide +kernel

example : (∀ e ∈ exTasks1, e.conn = 0 → ∃ q, e = .work 0 q) ∧
    str "a/+" ∈ exTasksSub.payload.map (·.topicFilter) ∧ ValidFilter (str "a/+") ∧
    (∀ p, .arrive 0 (.subscribe p) ∉ exTasks2) ∧ (∀ p, .arrive 0 (.unsubscribe p) ∉ exTasks2) ∧
    (∀ k pc u, .start k pc u ∈ exTasks0 ++ exTasks1 ++ exTasks2 → ∀ w, announcedWill pc = some w →
      ValidTopic w.1) ∧
    (∃ w, announcedWill (exConnect (str "x") true) = some w) := by
  refine ⟨?_, by decide +kernel, (C23_filter_iff _).mp (by decide +kernel), ?_, ?_, ?_, ⟨_, rfl⟩⟩
  · intro e he hc
    simp only [exTasks1, List.mem_cons, List.not_mem_nil, or_false] at he
    rcases he with rfl | rfl | rfl | rfl | rfl | rfl <;> first | exact ⟨_, rfl⟩ | cases hc
  · intro p hp; simp [exTasks2] at hp
  · intro p hp; simp [exTasks2] at hp
  · intro k pc u hs w hw
    have : pc = exConnect (str "x") true ∨ pc = exConnect (str "y") true := by
      simp only [exTasks0, exTasks1, exTasks2, List.mem_append, List.mem_cons, List.not_mem_nil, or_false,
        Tasks.Event.start.injEq, reduceCtorEq, false_or] at hs
      rcases hs with h | h
      · exact Or.inl h.2.1
      · exact Or.inr h.2.1
    rcases this with rfl | rfl <;> (cases hw; exact (C22_publish_topic_iff _).mp (by decide +kernel))

/-- C89_answers, C89_bounded: a QoS 1 PUBLISH is being handled while another connection subscribes, and then it
is answered. -/
example : ∃ s0 s1 s sess, Tasks.State.init.run {} exTasks0 = some s0 ∧ s0.tasks.get 1 = some ⟨sess, .idle⟩ ∧
    s0.step {} (.arrive 1 (.publish (exTaskPublish false (str "2") 2))) = some (s1, []) ∧
    s1.run {} [.arrive 0 (.subscribe exTasksSub), .work 0 0, .work 1 0, .work 0 0, .work 1 0, .work 1 0, .work 1 0,
      .work 1 0, .work 1 0] = some s ∧
    (sentOn {} 1 s1 [.arrive 0 (.subscribe exTasksSub), .work 0 0, .work 1 0, .work 0 0, .work 1 0, .work 1 0,
      .work 1 0, .work 1 0, .work 1 0]).length = 1 ∧
    handlingBound sess.will (.publish (exTaskPublish false (str "2") 2)) = 30 := by
  refine ⟨_, _, _, _, rfl, rfl, rfl, rfl, ?_, ?_⟩ <;> decide +kernel

/-- C89_progress, C89_published: the will of a client that goes away is being published, while another
client, which was subscribing, waits for the tree. -/
example : ∃ s t t', Tasks.State.init.run {} [.start 0 (exConnect (str "x") true) (str "u"),
      .start 1 (exConnect (str "y") true) (str "v"), .arrive 0 (.subscribe exTasksSub), .close 1, .work 1 0] = some s ∧
    s.tasks.get 0 = some t ∧ s.tasks.get 1 = some t' ∧ Busy t.phase ∧ Busy t'.phase ∧
    s.step {} (.work 0 0) = none ∧ storedBy 1 s.log = [(str "gone",
      { packetId := none, topic := str "gone", dup := false, qos := .atLeastOnce, retain := false,
        payload := some (str "bye") })] := by
  exact ⟨_, _, _, rfl, rfl, rfl, trivial, trivial, rfl, by decide +kernel⟩

end Mercurio
