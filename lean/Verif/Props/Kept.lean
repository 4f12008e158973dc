import Verif.Lemmas.Kept
import Verif.Props.Delivery
import Verif.Props.Inflight

/-!
# C105: a client that comes back to its session
-/

namespace Mercurio

open Spec Server

/-! ## Which connections work on the session of an identifier -/

/-- C105, the beginning: a client that connects under the identifier `cid` (resuming its session or
not) works on the session kept for that identifier. -/
theorem C105_begins (cfg : AuthConfig) (srv : Server) (hr : srv.Reachable cfg) (c : Nat)
    (p : ConnectPacket) (uuid : Str) (ha : Admitted cfg srv c p) :
    (srv.step cfg (.first c (.connect p) uuid true)).1.worksFor c p.payload.clientId = true := by
  rw [step_first ha, worksFor_iff]
  obtain ⟨r, he⟩ := start_effect srv c p uuid true
  refine ⟨⟨r, p.payload.clientId⟩, ?_, ?_⟩
  · rw [he.conns, if_pos rfl, Map.get_insert, if_pos rfl]
  · rcases he.table with ⟨_, a, _, b, _⟩ | ⟨_, _, b⟩
    · rw [b]; exact a
    · rw [b, if_pos rfl]

/-- C105, as long as it lasts: the connection goes on working on the session kept for the identifier
whatever happens, unless the connection ends, the server is restarted, or a connection asks for a
clean start under this identifier. -/
theorem C105_goes_on (cfg : AuthConfig) (srv : Server) (hr : srv.Reachable cfg) (c : Nat) (cid : Str)
    (h : srv.worksFor c cid = true) (e : Event) (hk : KeepsSession cid e)
    (ho : (srv.step cfg e).1.isOpen c) : (srv.step cfg e).1.worksFor c cid = true := by
  obtain ⟨k, h1, h2⟩ := worksFor_iff.mp h
  have h3 := step_kept_session cfg hr.inv hk h2
  rw [worksFor_iff]
  refine ⟨k, ?_, h3⟩
  have hloc : ∀ c', LocalEffect srv (srv.step cfg e).1 c' →
      (srv.step cfg e).1.conns.get c = some k := by
    intro c' he
    rcases he.conns with e1 | e1
    · rw [e1]; exact h1
    · obtain ⟨k', hk'⟩ := ho
      rw [e1, Map.get_erase] at hk' ⊢
      by_cases hc : c' = c
      · rw [if_pos hc] at hk'; simp at hk'
      · rw [if_neg hc]; exact h1
  cases e with
  | first c' p uuid w =>
    rcases step_first_cases cfg srv c' p uuid w with ⟨h', _⟩ | ⟨q, rfl, hq, h'⟩
    · rw [h']; exact h1
    · rw [h']
      obtain ⟨r, he⟩ := start_effect srv c' q uuid w
      rw [he.conns]
      split
      · rw [Map.get_insert, if_neg]
        · exact h1
        · rintro rfl; exact hq.1 ⟨k, h1⟩
      · exact h1
  | recv c' p => exact hloc c' (step_local cfg srv (.recv p))
  | deliver c' f => exact hloc c' (step_local cfg srv (.deliver f))
  | close c' => exact hloc c' (step_local cfg srv .close)
  | abort c' =>
    obtain ⟨k', hk'⟩ := ho
    have hk2 : (srv.conns.erase c').get c = some k' := hk'
    show (srv.conns.erase c').get c = some k
    rw [Map.get_erase] at hk2 ⊢
    by_cases hc : c' = c
    · rw [if_pos hc] at hk2; simp at hk2
    · rw [if_neg hc]; exact h1
  | restart => exact absurd rfl hk.running

/-! ## Histories -/

theorem deliveredFor_snoc (cfg : AuthConfig) (cid f : Str) (es : List Event) (e : Event) :
    ∀ srv : Server, srv.deliveredFor cfg cid f (es ++ [e]) = srv.deliveredFor cfg cid f es ++
      (srv.run cfg es).sentFor cfg cid f e := by
  induction es with
  | nil => intro srv; simp [Server.deliveredFor, Server.run]
  | cons a es ih =>
    intro srv
    simp only [List.cons_append, Server.deliveredFor, ih, List.append_assoc]
    rfl

theorem keptRun_snoc (cfg : AuthConfig) (cid f : Str) (es : List Event) (e : Event) :
    ∀ srv : Server, KeptRun cfg cid f srv (es ++ [e]) ↔
      KeptRun cfg cid f srv es ∧ KeepsSubscription cfg (srv.run cfg es) cid f e := by
  induction es with
  | nil => intro srv; simp [KeptRun, Server.run]
  | cons a es ih =>
    intro srv
    simp only [List.cons_append, KeptRun, ih, and_assoc]
    rfl

theorem panicFree_snoc (cfg : AuthConfig) (es : List Event) (e : Event) :
    ∀ srv : Server, PanicFree cfg srv (es ++ [e]) ↔
      PanicFree cfg srv es ∧ ((srv.run cfg es).step cfg e).2.panicked = false := by
  induction es with
  | nil => intro srv; simp [PanicFree, Server.run]
  | cons a es ih =>
    intro srv
    simp only [List.cons_append, PanicFree, ih, and_assoc]
    rfl

/-- At any time at most 16 matching publications are waiting for the clients of the session
(besides the `n` retained messages that are sent first), whether they are connected or not. -/
def Spec.FewWaiting (cfg : AuthConfig) (srv : Server) (cid f : Str) (n : Nat) (es : List Event) : Prop :=
  ∀ k, (matching f (published cfg srv (es.take k))).length ≤
    16 + ((srv.deliveredFor cfg cid f (es.take k)).length - n)

theorem Spec.FewWaiting.init {cfg : AuthConfig} {srv : Server} {cid f : Str} {n : Nat} {es : List Event}
    {e : Event} (h : FewWaiting cfg srv cid f n (es ++ [e])) : FewWaiting cfg srv cid f n es := by
  intro k
  by_cases hk : k ≤ es.length
  · have := h k
    rw [List.take_append_of_le_length hk] at this; exact this
  · have := h es.length
    rw [List.take_append_of_le_length (Nat.le_refl _), List.take_length] at this
    rw [List.take_of_length_le (by omega)]
    exact this

theorem Spec.FewWaiting.now {cfg : AuthConfig} {srv : Server} {cid f : Str} {n : Nat} {es : List Event}
    (h : FewWaiting cfg srv cid f n es) : (matching f (published cfg srv es)).length ≤
    16 + ((srv.deliveredFor cfg cid f es).length - n) := by
  have := h es.length
  rwa [List.take_length] at this

/-- The state of a subscription of a kept session during a history: what was sent and what is ahead. -/
theorem follow_kept {cfg : AuthConfig} {srv : Server} (hi : Inv srv) (hf : srv.world.Faithful)
    {cid f : Str} {r : Nat} {s : Session} {st : SubStream} {sent : List Message}
    (hr : srv.sessions.get cid = some r) (hs : srv.heap.get r = some s)
    (hst : s.subscriptions.get f = some st) (hp : st.rx.path = splitLevels f)
    (hsent : TopicNode.sentAt srv.world.broker.tree (splitLevels f) = some sent)
    (hn : st.rx.next = sent.length) (es : List Event) (hc : KeptRun cfg cid f srv es)
    (hv : ∀ q ∈ published cfg srv es, ValidTopic q.1) :
    ∃ s' st' sent' D, Inv (srv.run cfg es) ∧ (srv.run cfg es).world.Faithful ∧
      (srv.run cfg es).sessions.get cid = some r ∧ (srv.run cfg es).heap.get r = some s' ∧
      s'.subscriptions.get f = some st' ∧
      st'.rx.path = splitLevels f ∧
      TopicNode.sentAt (srv.run cfg es).world.broker.tree (splitLevels f) = some sent' ∧
      st'.rx.next ≤ sent'.length ∧
      srv.deliveredFor cfg cid f es = D.map (forwarded f) ∧
      (D ++ st'.ahead sent').Sublist (st.retained ++ matching f (published cfg srv es)) ∧
      (FewWaiting cfg srv cid f st.retained.length es → PanicFree cfg srv es →
        D ++ st'.ahead sent' = st.retained ++ matching f (published cfg srv es) ∧
        st'.retained = st.retained.drop D.length) := by
  induction es using snoc_induction with
  | h0 =>
    have e0 : published cfg srv [] = [] := by simp [published, Server.run, Call.publications]
    refine ⟨s, st, sent, [], hi, hf, hr, hs, hst, hp, hsent, by omega, rfl, ?_, fun _ _ => ?_⟩
    · rw [e0]; simp [matching, SubStream.ahead, hn]
    · rw [e0]; simp [matching, SubStream.ahead, hn]
  | hs l e ih =>
    rw [keptRun_snoc] at hc
    rw [published_snoc] at hv
    obtain ⟨s1, st1, sent1, D, i1, i2, i0, i3, i4, i5, i6, i7, i8, i9, i10⟩ :=
      ih hc.1 (fun q hq => hv q (List.mem_append_left _ hq))
    obtain ⟨s2, st2, k0, k1, k2, k3⟩ := step_kept i1 hc.2 i0 i3 i4
    have hg := step_grows (cfg := cfg) i2 hc.2.keeps.running
    have h6 := hg.sentAt i6
    rw [landed_matching f _ (fun q hq => hv q (List.mem_append_right _ hq))] at h6
    rw [run_snoc, published_snoc, matching_append, deliveredFor_snoc, ← List.append_assoc]
    have hI : Inv ((srv.run cfg l).step cfg e).1 := i1.step cfg e
    generalize hM : matching f (Call.publications (eventCalls cfg (srv.run cfg l) e)) = M at *
    rcases k3 with ⟨hne, rfl⟩ | ⟨c, he, m, hpo, hout | ⟨hout, hpan⟩⟩
    · have this : st2.ahead (sent1 ++ M) = st2.ahead sent1 ++ M := by
        unfold SubStream.ahead
        rw [List.drop_append_of_le_length i7, List.append_assoc]
      refine ⟨s2, st2, _, D, hI, hg.after, k0, k1, k2, i5, h6, by rw [List.length_append]; omega,
        by rw [hne]; simpa using i8, ?_, fun hk hpf => ?_⟩
      · rw [this, ← List.append_assoc]
        exact i9.append (List.Sublist.refl _)
      · obtain ⟨j1, j2⟩ := i10 hk.init ((panicFree_snoc _ _ _ _).mp hpf).1
        rw [this, ← List.append_assoc, j1]
        exact ⟨rfl, j2⟩
    · have hM0 : M = [] := by rw [← hM, he]; rfl
      subst hM0
      simp only [List.append_nil] at h6 ⊢
      obtain ⟨q1, q2, q3, q4, q5, q6⟩ := poll_some (by rw [i5]; exact i6) i7 hpo
      refine ⟨s2, st2, sent1, D ++ [m], hI, hg.after, k0, k1, k2, q1.trans i5, h6, q2, ?_, ?_, fun hk hpf => ?_⟩
      · rw [hout, i8, List.map_append]; rfl
      · rw [List.append_assoc]
        exact ((List.Sublist.refl D).append q5).trans i9
      · obtain ⟨j1, j2⟩ := i10 hk.init ((panicFree_snoc _ _ _ _).mp hpf).1
        have hlag : st1.retained ≠ [] ∨ (sent1.drop st1.rx.next).length ≤ 16 := by
          by_cases hr : st1.retained = []
          · right
            have hl := congrArg List.length j1
            have hk' := hk.init.now
            rw [i8, List.length_map] at hk'
            rw [hr] at j2
            have : st.retained.length ≤ D.length := List.drop_eq_nil_iff.mp j2.symm
            simp only [SubStream.ahead, hr, List.length_append, List.nil_append] at hl
            omega
          · exact Or.inl hr
        have q7 := q6 hlag
        refine ⟨by rw [List.append_assoc, ← j1, ← q7]; rfl, ?_⟩
        rw [q4, j2, List.length_append, List.tail_drop]; rfl
    · have hM0 : M = [] := by rw [← hM, he]; rfl
      subst hM0
      simp only [List.append_nil] at h6 ⊢
      obtain ⟨q1, q2, q3, q4, q5, q6⟩ := poll_some (by rw [i5]; exact i6) i7 hpo
      refine ⟨s2, st2, sent1, D, hI, hg.after, k0, k1, k2, q1.trans i5, h6, q2, ?_, ?_, fun _ hpf => ?_⟩
      · rw [hout, i8, List.append_nil]
      · exact ((List.Sublist.refl D).append ((List.sublist_cons_self _ _).trans q5)).trans i9
      · have := ((panicFree_snoc _ _ _ _).mp hpf).2
        rw [hpan] at this; simp at this

/-! ## C105: what the client gets, wherever it is -/

/-- C105: a client of the session kept for the identifier `cid` subscribes to a valid filter `f`.  In
every later history that leaves the session and the subscription in place (the client may leave, in
order or not, and come back on other connections, any number of times, even on several at once), the
packets sent for `f` on all connections of the session together are, in order and without repetition,
messages from the same list as in C62: the retained messages of the topics `f` matches, as they were
when it subscribed; then the publications since, whose topic `f` matches - also those accepted while
the client was away.  If never more than 16 of them are waiting (while it is away, too), and no task of
the server panics, none is skipped, and when one of its connections has nothing more to send, all of them have been sent. -/
theorem C105_exactly_matching_partial (cfg : AuthConfig) (srv : Server) (hr : srv.Reachable cfg) (c : Nat)
    (cid : Str) (hw : srv.worksFor c cid = true) (p : SubscribePacket) (f : Str)
    (hf : f ∈ p.payload.map (·.topicFilter)) (hvf : ValidFilter f) (es : List Event) :
    let srv1 := (srv.step cfg (.recv c (.subscribe p))).1
    let before := Call.publications srv.world.log
    KeptRun cfg cid f srv1 es → (∀ q ∈ published cfg srv1 es, ValidTopic q.1) →
    ∃ topics : List Str, topics.Nodup ∧
      (∀ t, t ∈ topics ↔ Matches f t ∧ (retainedOf t before).isSome) ∧
      let due := topics.filterMap (fun t => retainedOf t before) ++ matching f (published cfg srv1 es)
      (srv1.deliveredFor cfg cid f es).Sublist (due.map (forwarded f)) ∧
      (FewWaiting cfg srv1 cid f topics.length es → PanicFree cfg srv1 es →
        srv1.deliveredFor cfg cid f es <+: due.map (forwarded f) ∧
        ∀ c', (srv1.run cfg es).worksFor c' cid = true →
          ((srv1.run cfg es).step cfg (.deliver c' f)).2 = {} →
          srv1.deliveredFor cfg cid f es = due.map (forwarded f)) := by
  intro srv1 before hc hv
  obtain ⟨k0, hk0, hr0⟩ := worksFor_iff.mp hw
  obtain ⟨s, hs0⟩ := (hr.inv.conns c k0 hk0).2
  have hs : srv.at c = some s := at_eq_some.mpr ⟨k0, hk0, hs0⟩
  have hsnd := hr.sound
  obtain ⟨k, hk, hh, e⟩ := step_recv_ok (cfg := cfg) (p := .subscribe p) hs (by simp) (rfl :
    s.processIncoming srv.world cfg.manager c (.subscribe p) = _)
  rw [hk0] at hk; cases hk
  have hi1 : Inv srv1 := hr.inv.step cfg _
  have hf1 : srv1.world.Faithful := faithful_step cfg hr.faithful _
  obtain ⟨st, hst, hfresh⟩ := (subscribeLoop_get (p.payload.map (·.topicFilter)) s srv.world f).1 ⟨hf, hvf⟩
  obtain ⟨h1, h2, sent, h3, h4⟩ := hfresh
  have hpath : st.rx.path = splitLevels f := (isLevels_iff _ _).mp h2
  have hr1 : srv1.sessions.get cid = some k0.session := by
    show (srv.step cfg (.recv c (.subscribe p))).1.sessions.get cid = _
    rw [e]; exact hr0
  have hat : srv1.heap.get k0.session =
      some (s.subscribeLoop srv.world (p.payload.map (·.topicFilter))).1 := by
    show (srv.step cfg (.recv c (.subscribe p))).1.heap.get k0.session = _
    rw [e]; exact (Map.get_insert _ _ _ _).trans (if_pos rfl)
  have htree : srv1.world.broker.tree =
      (s.subscribeLoop srv.world (p.payload.map (·.topicFilter))).2.1.broker.tree := by
    show (srv.step cfg (.recv c (.subscribe p))).1.world.broker.tree = _
    rw [e]; rfl
  rw [(subscribeLoop_world _ s srv.world).1] at h1
  obtain ⟨topics, t1, t2, t3⟩ := hr.faithful.retained.lookup f hvf
  have hlen : st.retained.length = topics.length := by
    rw [h1, t3]
    have : ∀ l : List Str, (∀ t ∈ l, (retainedOf t before).isSome) →
        (l.filterMap fun t => retainedOf t before).length = l.length := by
      intro l
      induction l with
      | nil => intro _; rfl
      | cons t l ih =>
        intro h
        obtain ⟨m, hm⟩ := Option.isSome_iff_exists.mp (h t (by simp))
        simp [hm, ih (fun x hx => h x (by simp [hx]))]
    exact this topics (fun t ht => ((t2 t).mp ht).2)
  obtain ⟨s', st', sent', D, i1, i2, i0, i3, i4, i5, i6, i7, i8, i9, i10⟩ :=
    follow_kept hi1 hf1 hr1 hat hst hpath (by rw [htree, ← hpath]; exact h3) h4 es hc hv
  rw [h1, t3] at i9
  refine ⟨topics, t1, t2, ?_, fun hk hpf => ?_⟩
  · rw [i8]
    exact ((List.sublist_append_left _ _).trans i9).map _
  · obtain ⟨j1, _⟩ := i10 (by rw [hlen]; exact hk) hpf
    rw [h1, t3] at j1
    refine ⟨?_, fun c' hw' hidle => ?_⟩
    · rw [i8, ← j1, List.map_append]; exact List.prefix_append _ _
    · rw [i8, ← j1]
      have hnil : st'.ahead sent' = [] := by
        rw [← poll_none (t := (srv1.run cfg es).world.broker.tree) (by rw [i5]; exact i6) i7]
        obtain ⟨k', hk', hr'⟩ := worksFor_iff.mp hw'
        rw [i0] at hr'
        simp only [Option.some.injEq] at hr'
        obtain ⟨k2, hk2, hh', e'⟩ := onConn_at (at_eq_some.mpr ⟨k', hk', by rw [← hr']; exact i3⟩)
          (fun r s => (srv1.run cfg es).deliver c' r s f)
        have e2 : (srv1.run cfg es).step cfg (.deliver c' f) =
          (srv1.run cfg es).deliver c' k2.session s' f := e'
        rw [e2] at hidle
        unfold Server.deliver at hidle
        rcases processOutgoing_cases s' (srv1.run cfg es).world.broker.tree f with
          ⟨z1, z2⟩ | ⟨sta, m, stb, z1, z2, ⟨u, _, z3⟩ | ⟨_, z3⟩⟩
        · rcases z2 with z2 | ⟨sta, z2, z3⟩
          · rw [i4] at z2; simp at z2
          · rw [i4] at z2; simp only [Option.some.injEq] at z2; rw [z2]; exact z3
        · rw [z3] at hidle; simp at hidle
        · rw [z3] at hidle; simp at hidle
      rw [hnil, List.append_nil]

/-- C105 is false for messages that were sent and not acknowledged before the client left: however many
QoS 1 and QoS 2 messages are recorded as unacknowledged for it, a client that comes back to the session
the server keeps (without a restart in between) is told that its session was resumed, and is sent
nothing but that. -/
theorem C105_not_resent_false (cfg : AuthConfig) (srv : Server) (hr : srv.Reachable cfg) (c : Nat)
    (cid : Str) (hw : srv.worksFor c cid = true) (es : List Event) (hes : ∀ e ∈ es, KeepsSession cid e)
    (c' : Nat) (p : ConnectPacket) (uuid : Str) (hp : p.payload.clientId = cid)
    (hclean : p.flags.cleanStart = false) (ha : Admitted cfg (srv.run cfg es) c' p) :
    ∃ ack : ConnAckPacket, ack.sessionPresent = true ∧
      ((srv.run cfg es).step cfg (.first c' (.connect p) uuid true)).2.sent = [.connAck ack] := by
  obtain ⟨k, _, h2⟩ := worksFor_iff.mp hw
  have hk : Inv (srv.run cfg es) ∧ (srv.run cfg es).sessions.get cid = some k.session := by
    clear ha
    induction es using snoc_induction with
    | h0 => exact ⟨hr.inv, h2⟩
    | hs l e ih =>
      obtain ⟨i1, i2⟩ := ih (fun e he => hes e (by simp [he]))
      rw [run_snoc]
      exact ⟨i1.step cfg e, step_kept_session cfg i1 (hes e (by simp)) i2⟩
  have hfind : (srv.run cfg es).find p.payload.clientId p.flags.cleanStart = ⟨true, [], none, []⟩ := by
    unfold Server.find
    simp [hclean, hp, hk.2]
  rw [step_first ha]
  unfold Server.start
  simp only [if_true, hfind, List.map_nil]
  refine ⟨_, ?_, rfl⟩
  unfold Session.begin
  split <;> rfl

/-! ## Examples -/

/-- Clients `x` on connection 0 and `y` on connection 1. -/
def exXY : Server := Server.init.run exCfg
  [.first 0 (.connect (exConnect (str "x") true)) (str "u") true,
   .first 1 (.connect (exConnect (str "y") true)) (str "v") true]

/-- `x` has subscribed to `a/+`. -/
def exStays : Server := (exXY.step exCfg (.recv 0 (.subscribe ⟨1, none, [⟨str "a/+", {}⟩]⟩))).1

/-- `x` leaves, `y` publishes to `a/b`, `x` comes back on connection 2 and is sent the message. -/
def exAway : List Event :=
  [.recv 0 (.disconnect ⟨.success, none⟩), .recv 1 (.publish exPublish),
   .first 2 (.connect (exConnect (str "x") false)) (str "w") true, .deliver 2 (str "a/+")]

/-- An event that is neither a restart nor a CONNECT of `x` for a clean start keeps the session. -/
theorem keepsSession_check {cid : Str} {e : Event} (h : (match e with
    | .restart => false
    | .first _ (.connect p) _ _ => p.payload.clientId != cid || !p.flags.cleanStart
    | _ => true) = true) : KeepsSession cid e := by
  refine ⟨by rintro rfl; simp at h, ?_⟩
  rintro c p u w rfl rfl
  simpa using h

example : exXY.Reachable exCfg ∧ exXY.worksFor 0 (str "x") = true ∧
    KeptRun exCfg (str "x") (str "a/+") exStays exAway ∧
    published exCfg exStays exAway = [(str "a/b", Session.messageOf exPublish)] ∧
    FewWaiting exCfg exStays (str "x") (str "a/+") 0 exAway ∧
    PanicFree exCfg exStays exAway ∧
    exStays.deliveredFor exCfg (str "x") (str "a/+") exAway =
      [forwarded (str "a/+") (Session.messageOf exPublish)] ∧
    (exStays.run exCfg exAway).worksFor 2 (str "x") = true ∧
    ((exStays.run exCfg exAway).step exCfg (.deliver 2 (str "a/+"))).2 = {} := by
  refine ⟨⟨_, rfl⟩, by decide +kernel, ⟨⟨keepsSession_check ?_, ?_, ?_⟩, ⟨keepsSession_check ?_, ?_, ?_⟩,
    ⟨keepsSession_check ?_, ?_, ?_⟩, ⟨keepsSession_check ?_, ?_, ?_⟩, trivial⟩, by decide +kernel, ?_,
    ⟨by decide +kernel, by decide +kernel, by decide +kernel, by decide +kernel, trivial⟩,
    by decide +kernel, by decide +kernel, by decide +kernel⟩
  case refine_13 =>
    intro k
    have hlen : ∀ l : List (Str × Message), (matching (str "a/+") l).length ≤ l.length := fun l => by
      unfold matching; rw [List.length_map]; exact List.length_filter_le _ _
    refine Nat.le_trans (hlen _) ?_
    match k with
    | 0 => decide +kernel
    | 1 => decide +kernel
    | 2 => decide +kernel
    | 3 => decide +kernel
    | k + 4 =>
      rw [List.take_of_length_le (by simp [exAway])]
      decide +kernel
  all_goals first
    | decide +kernel
    | (rintro c p _ h; cases h)

/-- The message is sent to `x` on connection 0; `x` leaves without acknowledging it. -/
def exUnacknowledged : List Event :=
  [.recv 1 (.publish exPublish), .deliver 0 (str "a/+"), .close 0]

example : exStays.Reachable exCfg ∧ exStays.worksFor 0 (str "x") = true ∧
    (∀ e ∈ exUnacknowledged, KeepsSession (str "x") e) ∧
    exStays.deliveredFor exCfg (str "x") (str "a/+") exUnacknowledged =
      [forwarded (str "a/+") (Session.messageOf exPublish)] ∧
    ((exStays.run exCfg exUnacknowledged).store.getInflight (str "x") 7).isSome = true ∧
    (exConnect (str "x") false).payload.clientId = str "x" ∧
    (exConnect (str "x") false).flags.cleanStart = false ∧
    Admitted exCfg (exStays.run exCfg exUnacknowledged) 2 (exConnect (str "x") false) := by
  refine ⟨⟨_, (run_snoc _ _ _ _).symm⟩, by decide +kernel, ?_, by decide +kernel, by decide +kernel, rfl, rfl,
    ⟨?_, fun _ => ⟨_, _, _, rfl, rfl, rfl, by decide +kernel⟩⟩⟩
  · intro e he
    simp only [exUnacknowledged, List.mem_cons, List.not_mem_nil, or_false] at he
    rcases he with rfl | rfl | rfl <;> exact keepsSession_check (by decide +kernel)
  · rw [isOpen_iff]; decide +kernel

end Mercurio
