import Verif.Lemmas.Delivery
import Verif.Props.Server

/-!
# C40, C62: what subscribers are sent
-/

namespace Mercurio

open Spec Server

/-! ## Histories -/

theorem delivered_snoc (cfg : AuthConfig) (c : Nat) (f : Str) (es : List Event) (e : Event) :
    ∀ srv : Server, srv.delivered cfg c f (es ++ [e]) = srv.delivered cfg c f es ++
      (if e = .deliver c f then ((srv.run cfg es).step cfg e).2.sent else []) := by
  induction es with
  | nil => intro srv; simp [Server.delivered, Server.run]
  | cons a es ih =>
    intro srv
    simp only [List.cons_append, Server.delivered, ih, List.append_assoc]
    rfl

theorem calmRun_snoc (cfg : AuthConfig) (c : Nat) (f : Str) (es : List Event) (e : Event) :
    ∀ srv : Server, CalmRun cfg c f srv (es ++ [e]) ↔
      CalmRun cfg c f srv es ∧ Calm cfg (srv.run cfg es) c f e := by
  induction es with
  | nil => intro srv; simp [CalmRun, Server.run]
  | cons a es ih =>
    intro srv
    simp only [List.cons_append, CalmRun, ih, and_assoc]
    rfl

theorem Spec.Calm.running {cfg : AuthConfig} {srv : Server} {c : Nat} {f : Str} {e : Event}
    (h : Calm cfg srv c f e) : e ≠ .restart := by
  rintro rfl
  obtain ⟨k, hk⟩ := h.stays
  simp [Server.step, Map.get] at hk

theorem log_run (cfg : AuthConfig) (srv : Server) (es : List Event) :
    ∃ cs, (srv.run cfg es).world.log = srv.world.log ++ cs := by
  induction es using snoc_induction with
  | h0 => exact ⟨[], by simp [Server.run]⟩
  | hs l a ih =>
    obtain ⟨cs, h⟩ := ih
    rw [run_snoc, step_log, h]
    exact ⟨cs ++ _, by rw [List.append_assoc]⟩

theorem published_snoc (cfg : AuthConfig) (srv : Server) (es : List Event) (e : Event) :
    published cfg srv (es ++ [e]) = published cfg srv es ++
      Call.publications (eventCalls cfg (srv.run cfg es) e) := by
  obtain ⟨cs, h⟩ := log_run cfg srv es
  unfold published
  rw [run_snoc, step_log, h, List.append_assoc, List.drop_left, List.drop_left,
    Call.publications_append]

theorem matching_append {T : Type} (f : Str) (a b : List (Str × T)) :
    matching f (a ++ b) = matching f a ++ matching f b := by
  simp [matching]

/-! ## C62: exactly the matching publications, in order -/

theorem Spec.KeepsUp.init {cfg : AuthConfig} {srv : Server} {c : Nat} {f : Str} {n : Nat} {es : List Event}
    {e : Event} (h : KeepsUp cfg srv c f n (es ++ [e])) : KeepsUp cfg srv c f n es := by
  intro k
  by_cases hk : k ≤ es.length
  · have := h k
    rw [List.take_append_of_le_length hk] at this; exact this
  · have := h es.length
    rw [List.take_append_of_le_length (Nat.le_refl _), List.take_length] at this
    rw [List.take_of_length_le (by omega)]
    exact this

theorem Spec.KeepsUp.now {cfg : AuthConfig} {srv : Server} {c : Nat} {f : Str} {n : Nat} {es : List Event}
    (h : KeepsUp cfg srv c f n es) : (matching f (published cfg srv es)).length ≤
    16 + ((srv.delivered cfg c f es).length - n) := by
  have := h es.length
  rwa [List.take_length] at this

/-- The state of a subscription during a history: what was sent and what is ahead. -/
theorem follow {cfg : AuthConfig} {srv : Server} (hi : Inv srv) (hf : srv.world.Faithful) {c : Nat}
    {f : Str} {s : Session} {st : SubStream} {sent : List Message} (hs : srv.at c = some s)
    (hst : s.subscriptions.get f = some st) (hp : st.rx.path = splitLevels f)
    (hsent : TopicNode.sentAt srv.world.broker.tree (splitLevels f) = some sent)
    (hn : st.rx.next = sent.length) (es : List Event) (hc : CalmRun cfg c f srv es)
    (hv : ∀ q ∈ published cfg srv es, ValidTopic q.1) :
    ∃ s' st' sent' D, Inv (srv.run cfg es) ∧ (srv.run cfg es).world.Faithful ∧
      (srv.run cfg es).at c = some s' ∧ s'.subscriptions.get f = some st' ∧
      st'.rx.path = splitLevels f ∧
      TopicNode.sentAt (srv.run cfg es).world.broker.tree (splitLevels f) = some sent' ∧
      st'.rx.next ≤ sent'.length ∧
      srv.delivered cfg c f es = D.map (forwarded f) ∧
      (D ++ st'.ahead sent').Sublist (st.retained ++ matching f (published cfg srv es)) ∧
      (KeepsUp cfg srv c f st.retained.length es →
        D ++ st'.ahead sent' = st.retained ++ matching f (published cfg srv es) ∧
        st'.retained = st.retained.drop D.length) := by
  induction es using snoc_induction with
  | h0 =>
    have e0 : published cfg srv [] = [] := by simp [published, Server.run, Call.publications]
    refine ⟨s, st, sent, [], hi, hf, hs, hst, hp, hsent, by omega, rfl, ?_, fun _ => ?_⟩
    · rw [e0]; simp [matching, SubStream.ahead, hn]
    · rw [e0]; simp [matching, SubStream.ahead, hn]
  | hs l e ih =>
    rw [calmRun_snoc] at hc
    rw [published_snoc] at hv
    obtain ⟨s1, st1, sent1, D, i1, i2, i3, i4, i5, i6, i7, i8, i9, i10⟩ :=
      ih hc.1 (fun q hq => hv q (List.mem_append_left _ hq))
    obtain ⟨s2, st2, k1, k2, k3⟩ := step_stream i1 hc.2 i3 i4
    have hg := step_grows (cfg := cfg) i2 hc.2.running
    have h6 := hg.sentAt i6
    rw [landed_matching f _ (fun q hq => hv q (List.mem_append_right _ hq))] at h6
    rw [run_snoc, published_snoc, matching_append, delivered_snoc, ← List.append_assoc]
    have hI : Inv ((srv.run cfg l).step cfg e).1 := i1.step cfg e
    generalize hM : matching f (Call.publications (eventCalls cfg (srv.run cfg l) e)) = M at *
    rcases k3 with ⟨hne, rfl⟩ | ⟨he, hpn, rfl, hout⟩ | ⟨he, m, hpo, hout⟩
    · refine ⟨s2, st2, _, D, hI, hg.after, k1, k2, i5, h6, by rw [List.length_append]; omega,
        by rw [if_neg hne]; simpa using i8, ?_, fun hk => ?_⟩
      · have : st2.ahead (sent1 ++ M) = st2.ahead sent1 ++ M := by
          unfold SubStream.ahead
          rw [List.drop_append_of_le_length i7, List.append_assoc]
        rw [this, ← List.append_assoc]
        exact i9.append (List.Sublist.refl _)
      · have : st2.ahead (sent1 ++ M) = st2.ahead sent1 ++ M := by
          unfold SubStream.ahead
          rw [List.drop_append_of_le_length i7, List.append_assoc]
        obtain ⟨j1, j2⟩ := i10 hk.init
        rw [this, ← List.append_assoc, j1]
        exact ⟨rfl, j2⟩
    all_goals
      have hM0 : M = [] := by rw [← hM, he]; rfl
      subst hM0
      simp only [List.append_nil] at h6 ⊢
    · refine ⟨s2, st2, sent1, D, hI, hg.after, k1, k2, i5, h6, i7, ?_, i9, fun hk => i10 hk.init⟩
      rw [hout]; simpa using i8
    · obtain ⟨q1, q2, q3, q4, q5, q6⟩ := poll_some (by rw [i5]; exact i6) i7 hpo
      refine ⟨s2, st2, sent1, D ++ [m], hI, hg.after, k1, k2, q1.trans i5, h6, q2, ?_, ?_, fun hk => ?_⟩
      · rw [if_pos he, hout, i8, List.map_append]; rfl
      · rw [List.append_assoc]
        exact ((List.Sublist.refl D).append q5).trans i9
      · obtain ⟨j1, j2⟩ := i10 hk.init
        have hlag : st1.retained ≠ [] ∨ (sent1.drop st1.rx.next).length ≤ 16 := by
          by_cases hr : st1.retained = []
          · right
            have hl := congrArg List.length j1
            have hk' := hk.init.now
            rw [i8, List.length_map] at hk'
            rw [hr] at j2
            have : st.retained.length ≤ D.length := List.drop_eq_nil_iff.mp j2.symm
            simp only [SubStream.ahead, hr, List.length_append, List.nil_append] at hl
            omega
          · exact Or.inl hr
        have q7 := q6 hlag
        refine ⟨by rw [List.append_assoc, ← j1, ← q7]; rfl, ?_⟩
        rw [q4, j2, List.length_append, List.tail_drop]; rfl

/-- C62: a client with an open connection `c` subscribes to a valid filter `f`.  In every later
history that leaves the subscription in place (and in which all published topics are valid), the
packets it is sent for `f` are, in order and without repetition, messages from this list: first the
retained messages of the topics `f` matches, one per topic, as they were when it subscribed; then the
publications since, of any client or will, whose topic `f` matches, in the order the broker accepted
them.  If it keeps up (never more than 16 of them waiting), none is skipped, and when there is nothing
more to send it has been sent all of them. -/
theorem C62_exactly_matching (cfg : AuthConfig) (srv : Server) (hr : srv.Reachable cfg) (c : Nat)
    (hopen : srv.isOpen c) (p : SubscribePacket) (f : Str) (hf : f ∈ p.payload.map (·.topicFilter))
    (hvf : ValidFilter f) (es : List Event) :
    let srv1 := (srv.step cfg (.recv c (.subscribe p))).1
    let before := Call.publications srv.world.log
    CalmRun cfg c f srv1 es → (∀ q ∈ published cfg srv1 es, ValidTopic q.1) →
    ∃ topics : List Str, topics.Nodup ∧
      (∀ t, t ∈ topics ↔ Matches f t ∧ (retainedOf t before).isSome) ∧
      let due := topics.filterMap (fun t => retainedOf t before) ++ matching f (published cfg srv1 es)
      (srv1.delivered cfg c f es).Sublist (due.map (forwarded f)) ∧
      (KeepsUp cfg srv1 c f topics.length es →
        srv1.delivered cfg c f es <+: due.map (forwarded f) ∧
        (((srv1.run cfg es).step cfg (.deliver c f)).2 = {} →
          srv1.delivered cfg c f es = due.map (forwarded f))) := by
  intro srv1 before hc hv
  obtain ⟨k0, hk0⟩ := hopen
  obtain ⟨s, hs0⟩ := (hr.inv.conns c k0 hk0).2
  have hs : srv.at c = some s := at_eq_some.mpr ⟨k0, hk0, hs0⟩
  have hsnd := hr.sound
  obtain ⟨k, hk, hh, e⟩ := step_recv_ok (cfg := cfg) (p := .subscribe p) hs (by simp) (rfl :
    s.processIncoming srv.world cfg.manager c (.subscribe p) = _)
  have hi1 : Inv srv1 := hr.inv.step cfg _
  have hf1 : srv1.world.Faithful := faithful_step cfg hr.faithful _
  obtain ⟨st, hst, hfresh⟩ := (subscribeLoop_get (p.payload.map (·.topicFilter)) s srv.world f).1 ⟨hf, hvf⟩
  obtain ⟨h1, h2, sent, h3, h4⟩ := hfresh
  have hpath : st.rx.path = splitLevels f := (isLevels_iff _ _).mp h2
  have hat : srv1.at c = some (s.subscribeLoop srv.world (p.payload.map (·.topicFilter))).1 := by
    show (srv.step cfg (.recv c (.subscribe p))).1.at c = _
    rw [e]; exact at_put_same hk _
  have htree : srv1.world.broker.tree =
      (s.subscribeLoop srv.world (p.payload.map (·.topicFilter))).2.1.broker.tree := by
    show (srv.step cfg (.recv c (.subscribe p))).1.world.broker.tree = _
    rw [e]; rfl
  rw [(subscribeLoop_world _ s srv.world).1] at h1
  obtain ⟨topics, t1, t2, t3⟩ := hr.faithful.retained.lookup f hvf
  have hlen : st.retained.length = topics.length := by
    rw [h1, t3]
    have : ∀ l : List Str, (∀ t ∈ l, (retainedOf t before).isSome) →
        (l.filterMap fun t => retainedOf t before).length = l.length := by
      intro l
      induction l with
      | nil => intro _; rfl
      | cons t l ih =>
        intro h
        obtain ⟨m, hm⟩ := Option.isSome_iff_exists.mp (h t (by simp))
        simp [hm, ih (fun x hx => h x (by simp [hx]))]
    exact this topics (fun t ht => ((t2 t).mp ht).2)
  obtain ⟨s', st', sent', D, i1, i2, i3, i4, i5, i6, i7, i8, i9, i10⟩ :=
    follow hi1 hf1 hat hst hpath (by rw [htree, ← hpath]; exact h3) h4 es hc hv
  rw [h1, t3] at i9
  refine ⟨topics, t1, t2, ?_, fun hk => ?_⟩
  · rw [i8]
    exact ((List.sublist_append_left _ _).trans i9).map _
  · obtain ⟨j1, _⟩ := i10 (by rw [hlen]; exact hk)
    rw [h1, t3] at j1
    refine ⟨?_, fun hidle => ?_⟩
    · rw [i8, ← j1, List.map_append]; exact List.prefix_append _ _
    · rw [i8, ← j1]
      have hnil : st'.ahead sent' = [] := by
        rw [← poll_none (t := (srv1.run cfg es).world.broker.tree) (by rw [i5]; exact i6) i7]
        obtain ⟨k', hk', hh', e'⟩ := onConn_at i3 (fun r s => (srv1.run cfg es).deliver c r s f)
        have e2 : (srv1.run cfg es).step cfg (.deliver c f) =
          (srv1.run cfg es).deliver c k'.session s' f := e'
        rw [e2] at hidle
        unfold Server.deliver at hidle
        rcases processOutgoing_cases s' (srv1.run cfg es).world.broker.tree f with
          ⟨z1, z2⟩ | ⟨sta, m, stb, z1, z2, ⟨u, _, z3⟩ | ⟨_, z3⟩⟩
        · rcases z2 with z2 | ⟨sta, z2, z3⟩
          · rw [i4] at z2; simp at z2
          · rw [i4] at z2; simp only [Option.some.injEq] at z2; rw [z2]; exact z3
        · rw [z3] at hidle; simp at hidle
        · rw [z3] at hidle; simp at hidle
      rw [hnil, List.append_nil]

/-- No other connection works on the session of `c`, checked on a concrete server. -/
theorem alone_of_keys {srv : Server} {c : Nat}
    (h : ∀ c' ∈ srv.conns.keys, c' ≠ c → (srv.conns.get c').map (·.session) ≠ (srv.conns.get c).map (·.session)) :
    ∀ c', c' ≠ c → ¬ srv.shares c c' := by
  rintro c' hne ⟨k, k', hk, hk', e⟩
  exact h c' ((Map.get_isSome _ _).mp (by rw [hk']; rfl)) hne (by simp [hk, hk', e])

theorem isOpen_iff (srv : Server) (c : Nat) : srv.isOpen c ↔ (srv.conns.get c).isSome := by
  unfold Server.isOpen; rw [Option.isSome_iff_exists]

/-- The events of the example: another client publishes to `a/b`, which is then passed on. -/
def exNews : List Event := [.recv 1 (.publish exPublish), .deliver 0 (str "a/+")]

example : CalmRun exCfg 0 (str "a/+")
      (twoClients.step exCfg (.recv 0 (.subscribe ⟨1, none, [⟨str "a/+", {}⟩]⟩))).1 exNews ∧
    published exCfg (twoClients.step exCfg (.recv 0 (.subscribe ⟨1, none, [⟨str "a/+", {}⟩]⟩))).1 exNews =
      [(str "a/b", Session.messageOf exPublish)] ∧
    Server.delivered exCfg 0 (str "a/+")
      (twoClients.step exCfg (.recv 0 (.subscribe ⟨1, none, [⟨str "a/+", {}⟩]⟩))).1 exNews =
      [forwarded (str "a/+") (Session.messageOf exPublish)] := by
  refine ⟨⟨⟨?_, alone_of_keys ?_, ?_, ?_⟩, ⟨?_, alone_of_keys ?_, ?_, ?_⟩, trivial⟩, ?_, ?_⟩
  · rw [isOpen_iff]; decide +kernel
  · decide +kernel
  · rintro p h; cases h
  · rintro p h; cases h
  · rw [isOpen_iff]; decide +kernel
  · decide +kernel
  · rintro p h; cases h
  · rintro p h; cases h
  · decide +kernel
  · decide +kernel

/-! ## C40: what a subscriber is told about a message -/

/-- What a delivery sends. -/
theorem deliver_sent {cfg : AuthConfig} {srv : Server} (hr : srv.Reachable cfg) (c : Nat) (f : Str)
    (p : Packet) (h : p ∈ (srv.step cfg (.deliver c f)).2.sent) :
    ∃ t m, (t, m) ∈ Call.publications srv.world.log ∧ Matches f t ∧ ValidFilter f ∧ p = forwarded f m := by
  cases ha : srv.at c with
  | none =>
    rw [show srv.step cfg (.deliver c f) = (srv, {}) by simp only [Server.step]; exact onConn_none ha _] at h
    simp at h
  | some s =>
    obtain ⟨k, hk, hs, e⟩ := onConn_at ha (fun r s => srv.deliver c r s f)
    have e' : srv.step cfg (.deliver c f) = srv.deliver c k.session s f := e
    rw [e'] at h
    unfold Server.deliver at h
    rcases processOutgoing_cases s srv.world.broker.tree f with
      ⟨h1, _⟩ | ⟨st, m, st', hst, hp, ⟨u, _, h1⟩ | ⟨_, h1⟩⟩
    · rw [h1] at h; simp at h
    · rw [h1] at h
      simp only [List.mem_singleton] at h
      have hg := hr.sound.streams _ _ hs f st hst
      obtain ⟨sent, g1, g2⟩ := hg.channel
      obtain ⟨_, _, _, _, q5, _⟩ := poll_some (by rw [hg.path]; exact g1) g2 hp
      have hm : m ∈ st.ahead sent := q5.subset (by simp)
      have hfrom : From srv.world.log f m := by
        rcases List.mem_append.mp hm with hm | hm
        · exact hg.retained m hm
        · refine channel_from srv.world.log f sent ?_ m (List.mem_of_mem_drop hm)
          rw [← hr.faithful.tree]; exact g1
      obtain ⟨t, ht, hmt⟩ := hfrom
      exact ⟨t, m, ht, hmt, hg.valid, h⟩
    · rw [h1] at h; simp at h

/-- C40: after every history, every packet a client is sent for a filter `f` comes from an earlier
publication to a topic `f` matches, and has its payload, its QoS, its duplicate flag and its packet
identifier.  (Missing: the topic, see below.) -/
theorem C40_content_partial (cfg : AuthConfig) (srv : Server) (hr : srv.Reachable cfg) (c : Nat)
    (f : Str) (p : Packet) (h : p ∈ (srv.step cfg (.deliver c f)).2.sent) :
    ∃ t m q, (t, m) ∈ Call.publications srv.world.log ∧ Matches f t ∧ p = .publish q ∧
      q.payload = m.payload ∧ q.qos = m.qos ∧ q.dup = m.dup ∧ q.packetId = m.packetId := by
  obtain ⟨t, m, h1, h2, _, h3⟩ := deliver_sent hr c f p h
  exact ⟨t, m, _, h1, h2, h3, rfl, rfl, rfl, rfl⟩

/-- C40 for filters without wildcards: the packet names the topic that was published to. -/
theorem C40_topic_partial (cfg : AuthConfig) (srv : Server) (hr : srv.Reachable cfg) (c : Nat)
    (f : Str) (p : Packet) (h : p ∈ (srv.step cfg (.deliver c f)).2.sent)
    (hp : (0x2b : UInt8) ∉ f) (hh : (0x23 : UInt8) ∉ f) :
    ∃ t m q, (t, m) ∈ Call.publications srv.world.log ∧ p = .publish q ∧
      q.topicName = t ∧ q.payload = m.payload ∧ q.qos = m.qos ∧ q.packetId = m.packetId := by
  obtain ⟨t, m, h1, h2, h4, h3⟩ := deliver_sent hr c f p h
  have ht : ValidTopic f := ⟨h4.nonempty, h4.short, h4.no_nul, hp, hh⟩
  exact ⟨t, m, _, h1, h3, ((C23_topic_is_filter f ht).2 t).mp h2, rfl, rfl, rfl⟩

/-- C40 is false for filters with wildcards: the topic field of every packet sent for such a filter
is the filter, which is never the topic of the publication if that one was a legal topic name. -/
theorem C40_wildcard_false (cfg : AuthConfig) (srv : Server) (hr : srv.Reachable cfg) (c : Nat)
    (f : Str) (p : Packet) (h : p ∈ (srv.step cfg (.deliver c f)).2.sent)
    (hf : (0x2b : UInt8) ∈ f ∨ (0x23 : UInt8) ∈ f) :
    ∃ q, p = .publish q ∧ q.topicName = f ∧ ∀ t, ValidTopic t → q.topicName ≠ t := by
  obtain ⟨t, m, _, _, _, h3⟩ := deliver_sent hr c f p h
  refine ⟨_, h3, rfl, ?_⟩
  rintro t ht rfl
  rcases hf with hf | hf
  · exact ht.no_plus hf
  · exact ht.no_hash hf

example : ((exServer.run exCfg [.first 1 (.connect (exConnect (str "y") true)) (str "v") true,
    .recv 1 (.publish exPublish)]).step exCfg (.deliver 0 (str "a/+"))).2.sent =
    [forwarded (str "a/+") (Session.messageOf exPublish)] := by decide +kernel

example : ((exServer.run exCfg [.recv 0 (.subscribe ⟨2, none, [⟨str "a/b", {}⟩]⟩),
    .recv 0 (.publish exPublish)]).step exCfg (.deliver 0 (str "a/b"))).2.sent =
    [forwarded (str "a/b") (Session.messageOf exPublish)] := by decide +kernel

end Mercurio
