import Verif.Props.Delivery

/-!
# C112, C113: what a slow subscriber gets
-/

namespace Mercurio

open Spec Server

/-! ## The mailbox -/

/-- The newest sixteen messages of a list. -/
def newest (l : List Message) : List Message := l.drop (l.length - 16)

theorem newest_of_le {l : List Message} (h : l.length ≤ 16) : newest l = l := by
  unfold newest; rw [show l.length - 16 = 0 by omega]; rfl

theorem newest_length (l : List Message) : (newest l).length = min l.length 16 := by
  unfold newest; rw [List.length_drop]; omega

theorem newest_snoc (l : List Message) (m : Message) :
    newest (l ++ [m]) = (if (newest l).length < 16 then newest l else (newest l).tail) ++ [m] := by
  rw [newest_length]
  by_cases h : l.length < 16
  · rw [if_pos (by omega), newest_of_le (l := l) (by omega), newest_of_le (by simp; omega)]
  · rw [if_neg (by omega)]
    unfold newest
    rw [List.tail_drop, List.length_append, List.length_singleton,
      show l.length + 1 - 16 = l.length - 16 + 1 by omega, List.drop_append_of_le_length (by omega)]

theorem foldl_put (ms : List Message) : ∀ (r l : List Message),
    ms.foldl Mailbox.put ⟨r, newest l⟩ = ⟨r, newest (l ++ ms)⟩ := by
  induction ms with
  | nil => intro r l; simp
  | cons m ms ih =>
    intro r l
    rw [List.foldl_cons]
    have : Mailbox.put ⟨r, newest l⟩ m = ⟨r, newest (l ++ [m])⟩ := by
      rw [newest_snoc]; rfl
    rw [this, ih, List.append_assoc]; rfl

theorem liveNext_newest {sent : List Message} {next : Nat} (h : next ≤ sent.length) :
    (∃ m n, liveNext sent next = some (m, n) ∧ n ≤ sent.length ∧
      newest (sent.drop next) = m :: newest (sent.drop n)) ∨
    (liveNext sent next = none ∧ newest (sent.drop next) = []) := by
  unfold liveNext Receiver.recv channelCapacity
  by_cases hl : next + 16 < sent.length
  · left
    have h2 : ¬ sent.length - 16 + 16 < sent.length := by omega
    have h3 : sent[sent.length - 16]? = some (sent[sent.length - 16]'(by omega)) :=
      List.getElem?_eq_getElem _
    rw [if_pos hl]
    simp only [if_neg h2, h3]
    refine ⟨_, _, rfl, by omega, ?_⟩
    rw [newest_of_le (l := sent.drop (sent.length - 16 + 1)) (by rw [List.length_drop]; omega),
      List.getElem_cons_drop]
    unfold newest
    rw [List.drop_drop, List.length_drop]
    congr 1; omega
  · rw [if_neg hl]
    by_cases hn : next < sent.length
    · left
      rw [List.getElem?_eq_getElem hn]
      refine ⟨_, _, rfl, by omega, ?_⟩
      rw [newest_of_le (by rw [List.length_drop]; omega), newest_of_le (by rw [List.length_drop]; omega),
        List.getElem_cons_drop]
    · right
      rw [List.getElem?_eq_none (by omega)]
      refine ⟨rfl, ?_⟩
      rw [List.drop_eq_nil_of_le (by omega)]; rfl

/-- What a stream still has in store, as a mailbox. -/
def SubStream.box (st : SubStream) (sent : List Message) : Mailbox := ⟨st.retained, newest (sent.drop st.rx.next)⟩

theorem poll_box {t : TopicTree Message} {st : SubStream} {sent : List Message}
    (hc : TopicNode.sentAt t st.rx.path = some sent) (hn : st.rx.next ≤ sent.length) :
    (st.poll t = none ∧ (st.box sent).take = (none, st.box sent)) ∨
    ∃ m st', st.poll t = some (m, st') ∧ (st.box sent).take = (some m, st'.box sent) := by
  unfold SubStream.poll SubStream.box
  rw [channelOf_eq hc]
  cases hr : st.retained with
  | cons a rest => exact Or.inr ⟨a, _, rfl, rfl⟩
  | nil =>
    rcases liveNext_newest hn with ⟨m, n, h1, _, h3⟩ | ⟨h1, h2⟩
    · right
      rw [h1, h3]
      exact ⟨m, _, rfl, by simp [Mailbox.take, hr]⟩
    · left
      rw [h1, h2]
      exact ⟨rfl, rfl⟩

/-! ## Histories -/

theorem published_nil (cfg : AuthConfig) (srv : Server) : published cfg srv [] = [] := by
  simp [published, Server.run, Call.publications]

theorem published_one (cfg : AuthConfig) (srv : Server) (e : Event) :
    published cfg srv [e] = Call.publications (eventCalls cfg srv e) := by
  have := published_snoc cfg srv [] e
  rw [published_nil] at this
  simpa [Server.run] using this

theorem published_append (cfg : AuthConfig) (srv : Server) (es es' : List Event) :
    published cfg srv (es ++ es') = published cfg srv es ++ published cfg (srv.run cfg es) es' := by
  induction es' using snoc_induction with
  | h0 => simp [published_nil]
  | hs l a ih =>
    rw [← List.append_assoc, published_snoc, ih, published_snoc, List.append_assoc]
    congr 3
    simp [Server.run]

theorem published_cons (cfg : AuthConfig) (srv : Server) (e : Event) (es : List Event) :
    published cfg srv (e :: es) = published cfg srv [e] ++ published cfg (srv.step cfg e).1 es :=
  published_append cfg srv [e] es

/-- The state of a subscription and what it sends, exactly. -/
theorem draws (cfg : AuthConfig) (c : Nat) (f : Str) (es : List Event) : ∀ {srv : Server} {s : Session}
    {st : SubStream} {sent : List Message}, Inv srv → srv.world.Faithful → srv.at c = some s →
    s.subscriptions.get f = some st → st.rx.path = splitLevels f →
    TopicNode.sentAt srv.world.broker.tree (splitLevels f) = some sent → st.rx.next ≤ sent.length →
    CalmRun cfg c f srv es → (∀ q ∈ published cfg srv es, ValidTopic q.1) →
    srv.delivered cfg c f es = (drawn cfg c f srv (st.box sent) es).map (forwarded f) := by
  induction es with
  | nil => intros; rfl
  | cons e es ih =>
    intro srv s st sent hi hf hs hst hp hsent hn hc hv
    obtain ⟨hc1, hc2⟩ := hc
    rw [published_cons] at hv
    obtain ⟨s2, st2, k1, k2, k3⟩ := step_stream hi hc1 hs hst
    have hg := step_grows (cfg := cfg) hf hc1.running
    have h6 := hg.sentAt hsent
    rw [landed_matching f _ (by rw [← published_one]; exact fun q hq => hv q (List.mem_append_left _ hq)),
      ← published_one] at h6
    have hI : Inv (srv.step cfg e).1 := hi.step cfg e
    have hv2 : ∀ q ∈ published cfg (srv.step cfg e).1 es, ValidTopic q.1 :=
      fun q hq => hv q (List.mem_append_right _ hq)
    have hbox : (matching f (published cfg srv [e])).foldl Mailbox.put (st.box sent) =
        st.box (sent ++ matching f (published cfg srv [e])) := by
      unfold SubStream.box
      rw [foldl_put, List.drop_append_of_le_length hn]
    simp only [Server.delivered, drawn, hbox]
    rcases k3 with ⟨hne, rfl⟩ | ⟨he, hpn, rfl, hout⟩ | ⟨he, m, hpo, hout⟩
    · rw [if_neg hne, if_neg hne]
      exact ih hI hg.after k1 k2 hp h6 (by rw [List.length_append]; omega) hc2 hv2
    all_goals
      have hM0 : matching f (published cfg srv [e]) = [] := by rw [published_one, he]; rfl
      rw [hM0, List.append_nil] at h6 ⊢
      rw [if_pos he, if_pos he, hout]
    · rcases poll_box (t := srv.world.broker.tree) (by rw [hp]; exact hsent) hn with ⟨_, hb⟩ | ⟨m, st', hb, _⟩
      · rw [hb]
        exact ih hI hg.after k1 k2 hp h6 hn hc2 hv2
      · rw [hpn] at hb; simp at hb
    · obtain ⟨q1, q2, _⟩ := poll_some (by rw [hp]; exact hsent) hn hpo
      rcases poll_box (t := srv.world.broker.tree) (by rw [hp]; exact hsent) hn with ⟨hb, _⟩ | ⟨m', st', hb, hb'⟩
      · rw [hpo] at hb; simp at hb
      · rw [hpo] at hb
        simp only [Option.some.injEq, Prod.mk.injEq] at hb
        obtain ⟨rfl, rfl⟩ := hb
        rw [hb']
        have := ih hI hg.after k1 k2 (q1.trans hp) h6 q2 hc2 hv2
        rw [this]
        rfl

/-- The state of a subscription just made. -/
theorem just_subscribed {cfg : AuthConfig} {srv : Server} (hr : srv.Reachable cfg) {c : Nat}
    (hopen : srv.isOpen c) (p : SubscribePacket) {f : Str} (hf : f ∈ p.payload.map (·.topicFilter))
    (hvf : ValidFilter f) :
    let srv1 := (srv.step cfg (.recv c (.subscribe p))).1
    let before := Call.publications srv.world.log
    ∃ s st sent, ∃ topics : List Str, Inv srv1 ∧ srv1.world.Faithful ∧ srv1.at c = some s ∧
      s.subscriptions.get f = some st ∧ st.rx.path = splitLevels f ∧
      TopicNode.sentAt srv1.world.broker.tree (splitLevels f) = some sent ∧ st.rx.next = sent.length ∧
      topics.Nodup ∧ (∀ t, t ∈ topics ↔ Matches f t ∧ (retainedOf t before).isSome) ∧
      st.retained = topics.filterMap (fun t => retainedOf t before) := by
  intro srv1 before
  obtain ⟨k0, hk0⟩ := hopen
  obtain ⟨s, hs0⟩ := (hr.inv.conns c k0 hk0).2
  have hs : srv.at c = some s := at_eq_some.mpr ⟨k0, hk0, hs0⟩
  obtain ⟨k, hk, hh, e⟩ := step_recv_ok (cfg := cfg) (p := .subscribe p) hs (by simp) (rfl :
    s.processIncoming srv.world cfg.manager c (.subscribe p) = _)
  obtain ⟨st, hst, hfresh⟩ := (subscribeLoop_get (p.payload.map (·.topicFilter)) s srv.world f).1 ⟨hf, hvf⟩
  obtain ⟨h1, h2, sent, h3, h4⟩ := hfresh
  have hpath : st.rx.path = splitLevels f := (isLevels_iff _ _).mp h2
  have htree : srv1.world.broker.tree =
      (s.subscribeLoop srv.world (p.payload.map (·.topicFilter))).2.1.broker.tree := by
    show (srv.step cfg (.recv c (.subscribe p))).1.world.broker.tree = _
    rw [e]; rfl
  rw [(subscribeLoop_world _ s srv.world).1] at h1
  obtain ⟨topics, t1, t2, t3⟩ := hr.faithful.retained.lookup f hvf
  refine ⟨_, st, sent, topics, hr.inv.step cfg _, faithful_step cfg hr.faithful _, ?_, hst, hpath,
    by rw [htree, ← hpath]; exact h3, h4, t1, t2, by rw [h1, t3]⟩
  show (srv.step cfg (.recv c (.subscribe p))).1.at c = _
  rw [e]; exact at_put_same hk _

/-! ## C112: what a subscriber is sent, exactly -/

/-- C112: a client with an open connection `c` subscribes to a valid filter `f`.  In every later history that
leaves the subscription in place (and in which all published topics are valid), whether the client keeps up or
not, the packets it is sent for `f` are exactly those of a mailbox: at first it holds the retained messages of the
topics `f` matches, one per topic, as they were when it subscribed; every publication since, of any client or
will, whose topic `f` matches is put in when the broker accepts it; there is room for sixteen of these, and
when they are taken, the oldest is dropped, and nothing else; the retained messages are never dropped; and whenever
the connection goes on to the next message, it is sent the first retained message, or, if there is none left, the
oldest one in the mailbox. -/
theorem C112_newest_sixteen (cfg : AuthConfig) (srv : Server) (hr : srv.Reachable cfg) (c : Nat)
    (hopen : srv.isOpen c) (p : SubscribePacket) (f : Str) (hf : f ∈ p.payload.map (·.topicFilter))
    (hvf : ValidFilter f) (es : List Event) :
    let srv1 := (srv.step cfg (.recv c (.subscribe p))).1
    let before := Call.publications srv.world.log
    CalmRun cfg c f srv1 es → (∀ q ∈ published cfg srv1 es, ValidTopic q.1) →
    ∃ topics : List Str, topics.Nodup ∧
      (∀ t, t ∈ topics ↔ Matches f t ∧ (retainedOf t before).isSome) ∧
      srv1.delivered cfg c f es =
        (drawn cfg c f srv1 ⟨topics.filterMap (fun t => retainedOf t before), []⟩ es).map (forwarded f) := by
  intro srv1 before hc hv
  obtain ⟨s, st, sent, topics, h1, h2, h3, h4, h5, h6, h7, t1, t2, t3⟩ := just_subscribed hr hopen p hf hvf
  refine ⟨topics, t1, t2, ?_⟩
  have hb : st.box sent = ⟨topics.filterMap (fun t => retainedOf t before), []⟩ := by
    unfold SubStream.box
    rw [h7, List.drop_length, t3]; rfl
  rw [draws cfg c f es h1 h2 h3 h4 h5 h6 (by omega) hc hv, hb]

/-! ## C113: an acknowledged message reaches the subscribers -/

theorem drawn_append (cfg : AuthConfig) (c : Nat) (f : Str) (es' : List Event) (es : List Event) :
    (∀ e ∈ es, e ≠ .deliver c f) → ∀ (srv : Server) (b : Mailbox),
    drawn cfg c f srv b (es ++ es') =
      drawn cfg c f (srv.run cfg es) ((matching f (published cfg srv es)).foldl Mailbox.put b) es' := by
  induction es with
  | nil => intro _ srv b; rw [published_nil]; rfl
  | cons e es ih =>
    intro h srv b
    rw [List.cons_append, published_cons, matching_append, List.foldl_append]
    simp only [drawn]
    rw [if_neg (h e (by simp)), ih (fun x hx => h x (by simp [hx]))]
    rfl

theorem put_keeps (ms : List Message) : ∀ b : Mailbox, (ms.foldl Mailbox.put b).retained = b.retained ∧
    (ms.foldl Mailbox.put b).live.Sublist (b.live ++ ms) := by
  induction ms with
  | nil => intro b; simp
  | cons m ms ih =>
    intro b
    obtain ⟨h1, h2⟩ := ih (b.put m)
    refine ⟨h1, h2.trans ?_⟩
    have : (b.put m).live.Sublist (b.live ++ [m]) := by
      unfold Mailbox.put
      dsimp only
      split
      · exact List.Sublist.refl _
      · exact (List.tail_sublist _).append_right _
    have := this.append_right ms
    rwa [List.append_assoc] at this

theorem drawn_sublist (cfg : AuthConfig) (c : Nat) (f : Str) (es : List Event) : ∀ (srv : Server) (b : Mailbox),
    (drawn cfg c f srv b es).Sublist (b.retained ++ b.live ++ matching f (published cfg srv es)) := by
  induction es with
  | nil => intro srv b; exact List.nil_sublist _
  | cons e es ih =>
    intro srv b
    rw [published_cons, matching_append]
    obtain ⟨h1, h2⟩ := put_keeps (matching f (published cfg srv [e])) b
    simp only [drawn]
    generalize (matching f (published cfg srv [e])).foldl Mailbox.put b = b' at h1 h2 ⊢
    have hb : (b'.retained ++ b'.live ++ matching f (published cfg (srv.step cfg e).1 es)).Sublist
        (b.retained ++ b.live ++ (matching f (published cfg srv [e]) ++
          matching f (published cfg (srv.step cfg e).1 es))) := by
      have := ((List.Sublist.refl b.retained).append h2).append
        (List.Sublist.refl (matching f (published cfg (srv.step cfg e).1 es)))
      rw [h1]
      simpa only [List.append_assoc] using this
    refine List.Sublist.trans ?_ hb
    split
    · have := ih (srv.step cfg e).1 b'.take.2
      match b', this with
      | ⟨m :: ms, live⟩, this => exact this.cons_cons m
      | ⟨[], m :: ms⟩, this => exact this.cons_cons m
      | ⟨[], []⟩, this => exact this
    · exact ih _ b'

/-- What an accepted PUBLISH does. -/
theorem recv_publish (cfg : AuthConfig) {srv : Server} (hi : Inv srv) {d : Nat} (hd : srv.isOpen d)
    {q : PublishPacket} (ha : Accepted (.publish q)) :
    (srv.step cfg (.recv d (.publish q))).1.isOpen d ∧
    Answer (.publish q) (srv.step cfg (.recv d (.publish q))).2.sent ∧
    published cfg srv [.recv d (.publish q)] = [(q.topicName, Session.messageOf q)] := by
  obtain ⟨k0, hk0⟩ := hd
  obtain ⟨s, hs0⟩ := (hi.conns d k0 hk0).2
  have hs : srv.at d = some s := at_eq_some.mpr ⟨k0, hk0, hs0⟩
  obtain ⟨h1, h2⟩ := (C34_answers cfg srv d s hs (.publish q) (by simp)).1 ha
  refine ⟨h1, h2, ?_⟩
  rw [published_one]
  simp only [eventCalls, hs, packetCalls]
  rw [if_pos ha.1, if_pos (Or.inr h1)]
  rfl

theorem burst (cfg : AuthConfig) {d : Nat} (ps : List PublishPacket) :
    (∀ q ∈ ps, Accepted (.publish q)) → ∀ {srv : Server}, Inv srv → srv.isOpen d →
    (∀ before q after, ps = before ++ q :: after →
      Answer (.publish q) ((srv.run cfg (before.map fun q => .recv d (.publish q))).step cfg
        (.recv d (.publish q))).2.sent) ∧
    published cfg srv (ps.map fun q => .recv d (.publish q)) =
      ps.map fun q => (q.topicName, Session.messageOf q) := by
  induction ps with
  | nil => intro _ srv _ _; exact ⟨by intro a q b h; simp at h, published_nil cfg srv⟩
  | cons q ps ih =>
    intro ha srv hi hd
    obtain ⟨h1, h2, h3⟩ := recv_publish cfg hi hd (ha q (by simp))
    obtain ⟨i1, i2⟩ := ih (fun x hx => ha x (by simp [hx])) (hi.step cfg (.recv d (.publish q))) h1
    refine ⟨?_, ?_⟩
    · intro a x b h
      cases a with
      | nil =>
        simp only [List.nil_append, List.cons.injEq] at h
        obtain ⟨rfl, rfl⟩ := h
        exact h2
      | cons y a =>
        simp only [List.cons_append, List.cons.injEq] at h
        obtain ⟨rfl, rfl⟩ := h
        exact i1 a x b rfl
    · rw [List.map_cons, published_cons, h3, i2]; rfl

/-- C113 (partial): if a subscriber keeps up (never more than sixteen messages waiting), then a message that was
acknowledged to its publisher `d` reaches it: when the subscriber has nothing more to be sent, it has been sent it.
Missing, because it is false: subscribers that do not keep up, see the next theorem. -/
theorem C113_acknowledged_partial (cfg : AuthConfig) (srv : Server) (hr : srv.Reachable cfg) (c : Nat)
    (hopen : srv.isOpen c) (p : SubscribePacket) (f : Str) (hf : f ∈ p.payload.map (·.topicFilter))
    (hvf : ValidFilter f) (es1 es2 : List Event) (d : Nat) (q : PublishPacket) (hm : Matches f q.topicName) :
    let srv1 := (srv.step cfg (.recv c (.subscribe p))).1
    let r := (srv1.run cfg es1).step cfg (.recv d (.publish q))
    let es := es1 ++ .recv d (.publish q) :: es2
    r.2.sent ≠ [] →
    CalmRun cfg c f srv1 es → (∀ q ∈ published cfg srv1 es, ValidTopic q.1) →
    (∀ topics : List Str, topics.Nodup →
      (∀ t, t ∈ topics ↔ Matches f t ∧ (retainedOf t (Call.publications srv.world.log)).isSome) →
      KeepsUp cfg srv1 c f topics.length es) →
    ((srv1.run cfg es).step cfg (.deliver c f)).2 = {} →
    forwarded f (Session.messageOf q) ∈ srv1.delivered cfg c f es := by
  intro srv1 r es hack hc hv hk hidle
  obtain ⟨topics, t1, t2, _, h4⟩ := C62_exactly_matching cfg srv hr c hopen p f hf hvf es hc hv
  rw [(h4 (hk topics t1 t2)).2 hidle]
  refine List.mem_map_of_mem (List.mem_append_right _ ?_)
  have hi : Inv (srv1.run cfg es1) := by
    have : (srv1.run cfg es1).Reachable cfg := by
      obtain ⟨l, hl⟩ := hr
      exact ⟨l ++ .recv c (.subscribe p) :: es1, by simp [Server.run, srv1, hl]⟩
    exact this.inv
  have hd : (srv1.run cfg es1).isOpen d := by
    cases ha : (srv1.run cfg es1).at d with
    | none =>
      exfalso
      apply hack
      show ((srv1.run cfg es1).step cfg (.recv d (.publish q))).2.sent = []
      simp only [Server.step]; rw [onConn_none ha]
    | some s => obtain ⟨k, hk, _⟩ := at_eq_some.mp ha; exact ⟨k, hk⟩
  have hacc : Accepted (.publish q) := by
    obtain ⟨k0, hk0⟩ := hd
    obtain ⟨s, hs0⟩ := (hi.conns d k0 hk0).2
    apply Classical.byContradiction
    intro hn
    exact hack ((C34_answers cfg _ d s (at_eq_some.mpr ⟨k0, hk0, hs0⟩) (.publish q) (by simp)).2 hn).2
  obtain ⟨_, _, h3⟩ := recv_publish cfg hi hd hacc
  show _ ∈ matching f (published cfg srv1 (es1 ++ .recv d (.publish q) :: es2))
  rw [published_append, matching_append]
  refine List.mem_append_right _ ?_
  rw [published_cons, matching_append, h3]
  refine List.mem_append_left _ ?_
  simp [matching, hm]

/-- C113 is false for subscribers that do not keep up: a client subscribes to a valid filter `f`, and another
client publishes any number of messages to topics `f` matches, with QoS 1 or 2 (or any), before the
subscriber is sent the next one.  All of them are answered as they should be, with PUBACK and PUBREC.  But whatever
happens afterwards (as long as the subscription is left in place), only the newest sixteen of them can reach the
subscriber: all that it is ever sent are retained messages, these sixteen, and later ones. -/
theorem C113_acknowledged_lost_false (cfg : AuthConfig) (srv : Server) (hr : srv.Reachable cfg) (c : Nat)
    (hopen : srv.isOpen c) (p : SubscribePacket) (f : Str) (hf : f ∈ p.payload.map (·.topicFilter))
    (hvf : ValidFilter f) (d : Nat) (ps : List PublishPacket)
    (hps : ∀ q ∈ ps, Accepted (.publish q) ∧ Matches f q.topicName) (es : List Event) :
    let srv1 := (srv.step cfg (.recv c (.subscribe p))).1
    let before := Call.publications srv.world.log
    let burst : List Event := ps.map fun q => .recv d (.publish q)
    srv1.isOpen d → CalmRun cfg c f srv1 (burst ++ es) →
    (∀ q ∈ published cfg srv1 (burst ++ es), ValidTopic q.1) →
    (∀ ps1 q ps2, ps = ps1 ++ q :: ps2 →
      Answer (.publish q) ((srv1.run cfg (ps1.map fun q => .recv d (.publish q))).step cfg
        (.recv d (.publish q))).2.sent) ∧
    ∃ topics : List Str, topics.Nodup ∧
      (∀ t, t ∈ topics ↔ Matches f t ∧ (retainedOf t before).isSome) ∧
      (srv1.delivered cfg c f (burst ++ es)).Sublist
        ((topics.filterMap (fun t => retainedOf t before) ++
          (ps.map Session.messageOf).drop (ps.length - 16) ++
          matching f (published cfg (srv1.run cfg burst) es)).map (forwarded f)) := by
  intro srv1 before evs hd hc hv
  obtain ⟨h1, h2⟩ := burst cfg (d := d) ps (fun q hq => (hps q hq).1) (hr.inv.step cfg (.recv c (.subscribe p))) hd
  refine ⟨h1, ?_⟩
  obtain ⟨topics, t1, t2, t3⟩ := C112_newest_sixteen cfg srv hr c hopen p f hf hvf (evs ++ es) hc hv
  refine ⟨topics, t1, t2, ?_⟩
  rw [t3]
  have hm : matching f (published cfg srv1 evs) = ps.map Session.messageOf := by
    show matching f (published cfg (srv.step cfg (.recv c (.subscribe p))).1 (ps.map _)) = _
    rw [h2]
    clear h1 h2 hc hv t3
    induction ps with
    | nil => rfl
    | cons q ps ih =>
      have := ih (fun x hx => hps x (by simp [hx]))
      have hq := (hps q (by simp)).2
      simp only [matching, List.map_cons, List.filter_cons, hq, decide_true, if_true] at this ⊢
      rw [this]
  rw [drawn_append cfg c f es evs (by intro e he; obtain ⟨q, _, rfl⟩ := List.mem_map.mp he; simp), hm]
  refine List.Sublist.map _ ?_
  show (drawn cfg c f (srv1.run cfg evs) ((ps.map Session.messageOf).foldl Mailbox.put
    ⟨topics.filterMap (fun t => retainedOf t before), newest []⟩) es).Sublist _
  rw [foldl_put]
  have := drawn_sublist cfg c f es (srv1.run cfg evs)
    ⟨topics.filterMap (fun t => retainedOf t before), newest ([] ++ ps.map Session.messageOf)⟩
  simpa [newest] using this

/-! ## Examples -/

/-- Whether a history leaves a subscription in place, computed. -/
def calmB (cfg : AuthConfig) (c : Nat) (f : Str) : Server → List Event → Bool
  | _, [] => true
  | srv, e :: es =>
    ((srv.step cfg e).1.conns.get c).isSome &&
    srv.conns.keys.all (fun c' => c' == c ||
      (srv.conns.get c').map (·.session) != (srv.conns.get c).map (·.session)) &&
    (match e with
      | .recv _ (.subscribe p) => !(p.payload.map (·.topicFilter)).contains f
      | .recv _ (.unsubscribe p) => !p.payload.contains f
      | _ => true) &&
    calmB cfg c f (srv.step cfg e).1 es

theorem calmB_sound (cfg : AuthConfig) (c : Nat) (f : Str) (es : List Event) :
    ∀ srv : Server, calmB cfg c f srv es = true → CalmRun cfg c f srv es := by
  induction es with
  | nil => intro _ _; trivial
  | cons e es ih =>
    intro srv h
    simp only [calmB, Bool.and_eq_true, List.all_eq_true, Bool.or_eq_true, beq_iff_eq, bne_iff_ne] at h
    obtain ⟨⟨⟨h1, h2⟩, h3⟩, h4⟩ := h
    refine ⟨⟨(isOpen_iff _ _).mpr h1, alone_of_keys ?_, ?_, ?_⟩, ih _ h4⟩
    · intro c' hc' hne
      exact (h2 c' hc').resolve_left hne
    · rintro p rfl
      simpa using h3
    · rintro p rfl
      simpa using h3

/-- Seventeen messages, numbered by their packet identifiers, to the topic `a/b`. -/
def exBurst : List PublishPacket := (List.range 17).map fun i =>
  { qos := .atLeastOnce, topicName := str "a/b", packetId := some (UInt16.ofNat (i + 1)), payload := some (str "22") }

/-- The server of the examples, after the client on connection 0 has subscribed to `a/+`. -/
def exListening : Server :=
  (twoClients.step exCfg (.recv 0 (.subscribe ⟨1, none, [⟨str "a/+", {}⟩]⟩))).1

theorem exBurst_fine : ∀ q ∈ exBurst, Accepted (.publish q) ∧ Matches (str "a/+") q.topicName := by
  have ht : ValidTopic (str "a/b") := (C22_publish_topic_iff _).mp (by decide +kernel)
  have hm : Matches (str "a/+") (str "a/b") := by
    rw [matches_iff]
    have h1 : splitLevels (str "a/+") = [str "a", plusLevel] := by decide +kernel
    have h2 : splitLevels (str "a/b") = [str "a", str "b"] := by decide +kernel
    rw [h1, h2]
    exact .same _ (.plus _ .nil)
  intro q hq
  obtain ⟨i, _, rfl⟩ := List.mem_map.mp hq
  exact ⟨⟨ht, Or.inr ⟨Or.inl rfl, _, rfl⟩⟩, hm⟩

/-- The seventeen messages are all acknowledged; then the subscriber is sent the second one, not the first. -/
example :
    let evs : List Event := exBurst.map fun q => .recv 1 (.publish q)
    exListening.isOpen 1 ∧ CalmRun exCfg 0 (str "a/+") exListening (evs ++ [.deliver 0 (str "a/+")]) ∧
    (∀ q ∈ published exCfg exListening (evs ++ [.deliver 0 (str "a/+")]), ValidTopic q.1) ∧
    exListening.delivered exCfg 0 (str "a/+") (evs ++ [.deliver 0 (str "a/+")]) =
      [.publish { qos := .atLeastOnce, topicName := str "a/+", packetId := some 2, payload := some (str "22") }] := by
  refine ⟨by rw [isOpen_iff]; decide +kernel, calmB_sound _ _ _ _ _ (by decide +kernel), ?_, by decide +kernel⟩
  intro q hq
  rw [← C22_publish_topic_iff]
  revert q
  decide +kernel

/-- One message, acknowledged, and sent to the subscriber. -/
example :
    let q : PublishPacket := { qos := .atLeastOnce, topicName := str "a/b", packetId := some 1 }
    let es : List Event := [.recv 1 (.publish q), .deliver 0 (str "a/+")]
    (exListening.step exCfg (.recv 1 (.publish q))).2.sent = [.pubAck { packetId := 1 }] ∧
    CalmRun exCfg 0 (str "a/+") exListening es ∧
    (∀ q ∈ published exCfg exListening es, ValidTopic q.1) ∧
    ((exListening.run exCfg es).step exCfg (.deliver 0 (str "a/+"))).2 = {} ∧
    exListening.delivered exCfg 0 (str "a/+") es = [forwarded (str "a/+") (Session.messageOf q)] := by
  refine ⟨by decide +kernel, calmB_sound _ _ _ _ _ (by decide +kernel), ?_, by decide +kernel, by decide +kernel⟩
  intro q hq
  rw [← C22_publish_topic_iff]
  revert q
  decide +kernel

end Mercurio
