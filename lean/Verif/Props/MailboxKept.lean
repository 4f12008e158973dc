import Verif.Props.Mailbox
import Verif.Props.Kept

/-!
# C112 for clients that leave and come back
-/

namespace Mercurio

open Spec Server

/-- A delivery on a connection of the session that sends nothing and does not panic: nothing is waiting. -/
theorem idle_kept {cfg : AuthConfig} {srv : Server} (hi : Inv srv) {cid f : Str} {c r : Nat} {s : Session} {st : SubStream}
    (hw : srv.worksFor c cid = true) (hr : srv.sessions.get cid = some r) (hs : srv.heap.get r = some s)
    (hf : s.subscriptions.get f = some st) (hn : srv.sentFor cfg cid f (.deliver c f) = [])
    (hp : (srv.step cfg (.deliver c f)).2.panicked = false) : st.poll srv.world.broker.tree = none := by
  obtain ⟨k, hk, hr'⟩ := worksFor_iff.mp hw
  rw [hr] at hr'
  simp only [Option.some.injEq] at hr'
  subst hr'
  obtain ⟨k2, hk2, hh', e'⟩ := onConn_at (at_eq_some.mpr ⟨k, hk, hs⟩) (fun r s => srv.deliver c r s f)
  have e2 : srv.step cfg (.deliver c f) = srv.deliver c k2.session s f := e'
  simp only [Server.sentFor] at hn
  rw [if_pos ⟨hw, trivial⟩] at hn
  rw [e2] at hn hp
  unfold Server.deliver at hn hp
  rcases processOutgoing_cases s srv.world.broker.tree f with
    ⟨z1, z2⟩ | ⟨sta, m, stb, z1, z2, ⟨u, _, z3⟩ | ⟨_, z3⟩⟩
  · rcases z2 with z2 | ⟨sta, z2, z3⟩
    · rw [hf] at z2; simp at z2
    · rw [hf] at z2; simp only [Option.some.injEq] at z2; rw [z2]; exact z3
  · rw [z3] at hn; simp at hn
  · rw [z3] at hp; simp at hp

/-- The state of a subscription of a kept session and what it sends, exactly. -/
theorem draws_kept (cfg : AuthConfig) (cid f : Str) (r : Nat) (es : List Event) : ∀ {srv : Server} {s : Session}
    {st : SubStream} {sent : List Message}, Inv srv → srv.world.Faithful → srv.sessions.get cid = some r →
    srv.heap.get r = some s → s.subscriptions.get f = some st → st.rx.path = splitLevels f →
    TopicNode.sentAt srv.world.broker.tree (splitLevels f) = some sent → st.rx.next ≤ sent.length →
    KeptRun cfg cid f srv es → (∀ q ∈ published cfg srv es, ValidTopic q.1) → PanicFree cfg srv es →
    srv.deliveredFor cfg cid f es = (drawnFor cfg cid f srv (st.box sent) es).map (forwarded f) := by
  induction es with
  | nil => intros; rfl
  | cons e es ih =>
    intro srv s st sent hi hf hr hs hst hp hsent hn hc hv hpf
    obtain ⟨hc1, hc2⟩ := hc
    rw [published_cons] at hv
    obtain ⟨s2, st2, k0, k1, k2, k3⟩ := step_kept hi hc1 hr hs hst
    have hg := step_grows (cfg := cfg) hf hc1.keeps.running
    have h6 := hg.sentAt hsent
    rw [landed_matching f _ (by rw [← published_one]; exact fun q hq => hv q (List.mem_append_left _ hq)),
      ← published_one] at h6
    have hI : Inv (srv.step cfg e).1 := hi.step cfg e
    have hv2 : ∀ q ∈ published cfg (srv.step cfg e).1 es, ValidTopic q.1 :=
      fun q hq => hv q (List.mem_append_right _ hq)
    have hbox : (matching f (published cfg srv [e])).foldl Mailbox.put (st.box sent) =
        st.box (sent ++ matching f (published cfg srv [e])) := by
      unfold SubStream.box
      rw [foldl_put, List.drop_append_of_le_length hn]
    simp only [Server.deliveredFor, drawnFor, hbox]
    by_cases hd : ∃ c, e = .deliver c f ∧ srv.worksFor c cid = true
    · rw [if_pos hd]
      obtain ⟨c, rfl, hw⟩ := hd
      have hM0 : matching f (published cfg srv [.deliver c f]) = [] := by rw [published_one]; rfl
      rw [hM0, List.append_nil] at h6 ⊢
      rcases k3 with ⟨hno, rfl⟩ | ⟨c', he, m, hpo, hout | ⟨_, hpan⟩⟩
      · have hidle := idle_kept hi hw hr hs hst hno hpf.1
        rcases poll_box (t := srv.world.broker.tree) (by rw [hp]; exact hsent) hn with ⟨_, hb⟩ | ⟨m, st', hb, _⟩
        · rw [hb, hno]
          exact ih hI hg.after k0 k1 k2 hp h6 hn hc2 hv2 hpf.2
        · rw [hidle] at hb; simp at hb
      · obtain ⟨q1, q2, _⟩ := poll_some (by rw [hp]; exact hsent) hn hpo
        rcases poll_box (t := srv.world.broker.tree) (by rw [hp]; exact hsent) hn with ⟨hb, _⟩ | ⟨m', st', hb, hb'⟩
        · rw [hpo] at hb; simp at hb
        · rw [hpo] at hb
          simp only [Option.some.injEq, Prod.mk.injEq] at hb
          obtain ⟨rfl, rfl⟩ := hb
          rw [hb', hout, ih hI hg.after k0 k1 k2 (q1.trans hp) h6 q2 hc2 hv2 hpf.2]
          rfl
      · rw [hpf.1] at hpan; simp at hpan
    · rw [if_neg hd]
      have hno : srv.sentFor cfg cid f e = [] := by
        cases e with
        | deliver c g =>
          simp only [Server.sentFor]
          rw [if_neg]
          rintro ⟨h1, rfl⟩
          exact hd ⟨c, rfl, h1⟩
        | _ => rfl
      rw [hno]
      rcases k3 with ⟨_, rfl⟩ | ⟨c', rfl, m, hpo, hout | ⟨_, hpan⟩⟩
      · exact ih hI hg.after k0 k1 k2 hp h6 (by rw [List.length_append]; omega) hc2 hv2 hpf.2
      · rw [hno] at hout; simp at hout
      · rw [hpf.1] at hpan; simp at hpan

/-- The mailbox of a subscription of a kept session, for all later histories at once. -/
theorem kept_mailbox (cfg : AuthConfig) (srv : Server) (hr : srv.Reachable cfg) (c : Nat)
    (cid : Str) (hw : srv.worksFor c cid = true) (p : SubscribePacket) (f : Str)
    (hf : f ∈ p.payload.map (·.topicFilter)) (hvf : ValidFilter f) :
    let srv1 := (srv.step cfg (.recv c (.subscribe p))).1
    let before := Call.publications srv.world.log
    ∃ topics : List Str, topics.Nodup ∧
      (∀ t, t ∈ topics ↔ Matches f t ∧ (retainedOf t before).isSome) ∧
      ∀ es, KeptRun cfg cid f srv1 es → (∀ q ∈ published cfg srv1 es, ValidTopic q.1) → PanicFree cfg srv1 es →
      srv1.deliveredFor cfg cid f es =
        (drawnFor cfg cid f srv1 ⟨topics.filterMap (fun t => retainedOf t before), []⟩ es).map (forwarded f) := by
  intro srv1 before
  obtain ⟨k0, hk0, hr0⟩ := worksFor_iff.mp hw
  have hopen : srv.isOpen c := ⟨k0, hk0⟩
  obtain ⟨s, hs0⟩ := (hr.inv.conns c k0 hk0).2
  have hs : srv.at c = some s := at_eq_some.mpr ⟨k0, hk0, hs0⟩
  obtain ⟨k, hk, _, e⟩ := step_recv_ok (cfg := cfg) (p := .subscribe p) hs (by simp) (rfl :
    s.processIncoming srv.world cfg.manager c (.subscribe p) = _)
  have hr1 : srv1.sessions.get cid = some k0.session := by
    show (srv.step cfg (.recv c (.subscribe p))).1.sessions.get cid = _
    rw [e]; exact hr0
  have hk1 : srv1.conns.get c = some k0 := by
    show (srv.step cfg (.recv c (.subscribe p))).1.conns.get c = _
    rw [e]; exact hk0
  obtain ⟨s1, st, sent, topics, h1, h2, h3, h4, h5, h6, h7, t1, t2, t3⟩ := just_subscribed hr hopen p hf hvf
  refine ⟨topics, t1, t2, fun es hc hv hpf => ?_⟩
  obtain ⟨k2, hk2, hs2⟩ := at_eq_some.mp h3
  rw [show (srv.step cfg (.recv c (.subscribe p))).1.conns.get c = some k0 from hk1] at hk2
  simp only [Option.some.injEq] at hk2
  subst hk2
  have hb : st.box sent = ⟨topics.filterMap (fun t => retainedOf t before), []⟩ := by
    unfold SubStream.box
    rw [h7, List.drop_length, t3]; rfl
  rw [draws_kept cfg cid f k0.session es h1 h2 hr1 hs2 h4 h5 h6 (by omega) hc hv hpf, hb]

/-- C112 for a client that leaves and comes back: it subscribes to a valid filter `f` in the session kept for its
identifier `cid`.  In every later history that leaves the session and the subscription in place (the client may leave
and come back on other connections any number of times, even on several at once), and in which no task of the server
panics, the packets sent for `f` on all connections of the session together are exactly those of the mailbox: of
what is published while the client is away, too, the newest sixteen messages wait for it. -/
theorem C112_kept_sessions (cfg : AuthConfig) (srv : Server) (hr : srv.Reachable cfg) (c : Nat)
    (cid : Str) (hw : srv.worksFor c cid = true) (p : SubscribePacket) (f : Str)
    (hf : f ∈ p.payload.map (·.topicFilter)) (hvf : ValidFilter f) (es : List Event) :
    let srv1 := (srv.step cfg (.recv c (.subscribe p))).1
    let before := Call.publications srv.world.log
    KeptRun cfg cid f srv1 es → (∀ q ∈ published cfg srv1 es, ValidTopic q.1) → PanicFree cfg srv1 es →
    ∃ topics : List Str, topics.Nodup ∧
      (∀ t, t ∈ topics ↔ Matches f t ∧ (retainedOf t before).isSome) ∧
      srv1.deliveredFor cfg cid f es =
        (drawnFor cfg cid f srv1 ⟨topics.filterMap (fun t => retainedOf t before), []⟩ es).map (forwarded f) := by
  intro srv1 before hc hv hpf
  obtain ⟨topics, t1, t2, t3⟩ := kept_mailbox cfg srv hr c cid hw p f hf hvf
  exact ⟨topics, t1, t2, t3 es hc hv hpf⟩

/-- Client `x` leaves, seventeen messages are published, `x` comes back: it is sent the second one first. -/
example :
    let es : List Event := .recv 0 (.disconnect ⟨.success, none⟩) :: (exBurst.map fun q => .recv 1 (.publish q)) ++
      [.first 2 (.connect (exConnect (str "x") false)) (str "w") true, .deliver 2 (str "a/+")]
    exStays.deliveredFor exCfg (str "x") (str "a/+") es =
      [.publish { qos := .atLeastOnce, topicName := str "a/+", packetId := some 2, payload := some (str "22") }] ∧
    (∀ e ∈ es, KeepsSession (str "x") e) ∧ (∀ q ∈ published exCfg exStays es, ValidTopic q.1) := by
  intro es
  refine ⟨by decide +kernel, ?_, ?_⟩
  · intro e he
    simp only [es, List.cons_append, List.mem_cons, List.mem_append, List.mem_map, List.not_mem_nil, or_false] at he
    rcases he with rfl | ⟨q, _, rfl⟩ | rfl | rfl <;> exact keepsSession_check (by first | rfl | decide +kernel)
  · intro q hq
    rw [← C22_publish_topic_iff]
    revert q
    decide +kernel

end Mercurio
