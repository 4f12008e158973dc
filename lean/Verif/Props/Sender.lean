import Verif.Spec.Sender
import Verif.Spec.Net
import Verif.Props.Mailbox

/-!
# C128: the messages of one client, in order
-/

namespace Mercurio

open Spec Server

open Classical

/-! ## Lemmas -/

theorem sourced_append (a b : List Call) : sourced (a ++ b) = sourced a ++ sourced b := by
  induction a with
  | nil => rfl
  | cons x a ih => cases x <;> simp [sourced, ih]

theorem sourced_publications (a : List Call) :
    Call.publications a = (sourced a).map fun x => x.2 := by
  induction a with
  | nil => rfl
  | cons x a ih => cases x <;> simp [sourced, Call.publications, ih]

theorem sourced_subscribe (l : List Str) : sourced (l.map Call.subscribe) = [] := by
  induction l with
  | nil => rfl
  | cons x l ih => exact ih

theorem callsOf_cons (cfg : AuthConfig) (srv : Server) (e : Event) (es : List Event) :
    callsOf cfg srv (e :: es) = eventCalls cfg srv e ++ callsOf cfg (srv.step cfg e).1 es := by
  obtain ⟨x, hx⟩ := log_run cfg (srv.step cfg e).1 es
  have h : (srv.run cfg (e :: es)).world.log = ((srv.step cfg e).1.run cfg es).world.log := rfl
  simp only [callsOf, h]
  rw [hx, List.drop_left, step_log, List.append_assoc, List.drop_left]

theorem ofClient_append (d : Nat) (a b : List (Source × Str × Message)) :
    ofClient d (a ++ b) = ofClient d a ++ ofClient d b := by
  simp [ofClient]

theorem ofClient_will (d c : Nat) (s : Session) : ofClient d (sourced (willCalls c s)) = [] := by
  unfold willCalls
  cases s.will <;> simp [sourced, ofClient]

theorem ofClient_event (cfg : AuthConfig) (srv : Server) (d : Nat) (e : Event) :
    ofClient d (sourced (eventCalls cfg srv e)) =
      match e with
      | .recv d' (.publish q) => if d' = d ∧ (srv.at d).isSome ∧ ValidTopic q.topicName then [Session.messageOf q] else []
      | _ => [] := by
  cases e with
  | first c p uuid w =>
    simp only [eventCalls]
    cases p with
    | connect q =>
      simp only
      split
      · rw [sourced_subscribe]; rfl
      · rfl
    | _ => rfl
  | recv c p =>
    simp only [eventCalls]
    cases ha : srv.at c with
    | none =>
      cases p with
      | publish q =>
        simp only
        rw [if_neg]
        · rfl
        · rintro ⟨rfl, h, _⟩; rw [ha] at h; cases h
      | _ => rfl
    | some s =>
      simp only
      rw [sourced_append, ofClient_append]
      have hw : ofClient d (sourced (if (∃ d, p = .disconnect d) ∨ (srv.step cfg (.recv c p)).1.isOpen c then []
          else willCalls c s)) = [] := by
        split
        · rfl
        · exact ofClient_will d c s
      rw [hw, List.append_nil]
      cases p with
      | publish q =>
        simp only [packetCalls]
        by_cases hv : ValidTopic q.topicName
        · by_cases hc : c = d
          · subst hc
            simp [hv, sourced, ofClient, ha, Session.messageOf]
          · simp [hv, sourced, ofClient, hc]
        · simp [hv, sourced, ofClient]
      | subscribe q => simp only [packetCalls]; rw [sourced_subscribe]; rfl
      | _ => rfl
  | deliver c f => rfl
  | close c =>
    simp only [eventCalls]
    cases srv.at c with
    | none => rfl
    | some s => exact ofClient_will d c s
  | abort c => rfl
  | restart => rfl

/-- What the broker accepts from a client is what the client sent, in its order. -/
theorem ofClient_said (cfg : AuthConfig) (d : Nat) (es : List Event) : ∀ srv : Server,
    (ofClient d (sourced (callsOf cfg srv es))).Sublist ((said d es).map Session.messageOf) := by
  induction es with
  | nil => intro srv; simp [callsOf, Server.run, sourced, ofClient]
  | cons e es ih =>
    intro srv
    rw [callsOf_cons, sourced_append, ofClient_append, ofClient_event]
    have h := ih (srv.step cfg e).1
    cases e with
    | recv d' p =>
      cases p with
      | publish q =>
        simp only [said]
        by_cases hd : d' = d
        · subst hd
          simp only [if_true, true_and, List.map_cons]
          split
          · exact h.cons_cons _
          · exact h.cons _
        · simp only [hd, if_false, false_and, List.nil_append]; exact h
      | _ => exact h
    | _ => exact h

/-- And all of it, if the topics are valid and the client is connected. -/
theorem ofClient_all (cfg : AuthConfig) (d : Nat) (es : List Event) : ∀ srv : Server, Inv srv →
    (∀ es1 q es2, es = es1 ++ .recv d (.publish q) :: es2 → (srv.run cfg es1).isOpen d ∧ ValidTopic q.topicName) →
    ofClient d (sourced (callsOf cfg srv es)) = (said d es).map Session.messageOf := by
  induction es with
  | nil => intro srv _ _; simp [callsOf, Server.run, sourced, ofClient, said]
  | cons e es ih =>
    intro srv hi hes
    rw [callsOf_cons, sourced_append, ofClient_append, ofClient_event]
    have h := ih (srv.step cfg e).1 (hi.step cfg e)
      (fun es1 q es2 he => hes (e :: es1) q es2 (by rw [he]; rfl))
    cases e with
    | recv d' p =>
      cases p with
      | publish q =>
        simp only [said]
        by_cases hd : d' = d
        · subst hd
          obtain ⟨⟨k, hk⟩, h2⟩ := hes [] q es rfl
          obtain ⟨s, hs⟩ := (hi.conns d' k hk).2
          have ha : srv.at d' = some s := at_eq_some.mpr ⟨k, hk, hs⟩
          simp only [if_true, true_and, List.map_cons, ha, Option.isSome_some, h2, and_true, h, List.cons_append,
            List.nil_append]
        · simp only [hd, if_false, false_and, List.nil_append]; exact h
      | _ => exact h
    | _ => exact h

/-! ## C128 -/

/-- C128 (partial): a client on connection `c` subscribes to a valid filter `f`, and the subscription is left in
place.  What it is then sent for `f` are first retained messages, then messages published since.  Each of these has
a sender, and those of one sender come in the order in which that client sent them: they are among the PUBLISH
packets that arrived on its connection `d`, in the same order.
Missing, because it is false: messages that come by different subscriptions, see the next theorems. -/
theorem C128_one_subscription_partial (cfg : AuthConfig) (srv : Server) (hr : srv.Reachable cfg) (c : Nat)
    (hopen : srv.isOpen c) (p : SubscribePacket) (f : Str) (hf : f ∈ p.payload.map (·.topicFilter))
    (hvf : ValidFilter f) (es : List Event) :
    let srv1 := (srv.step cfg (.recv c (.subscribe p))).1
    CalmRun cfg c f srv1 es → (∀ q ∈ published cfg srv1 es, ValidTopic q.1) →
    ∃ (old : List Message) (came : List (Source × Str × Message)),
      srv1.delivered cfg c f es = (old ++ came.map (fun x => x.2.2)).map (forwarded f) ∧
      (∀ m ∈ old, ∃ t, Matches f t ∧ retainedOf t (Call.publications srv.world.log) = some m) ∧
      came.Sublist (sourced (callsOf cfg srv1 es)) ∧ (∀ x ∈ came, Matches f x.2.1) ∧
      ∀ d, (ofClient d came).Sublist ((said d es).map Session.messageOf) := by
  intro srv1 hc hv
  obtain ⟨topics, t1, t2, h, _⟩ := C62_exactly_matching cfg srv hr c hopen p f hf hvf es hc hv
  obtain ⟨l, hl, he⟩ := List.sublist_map_iff.mp h
  obtain ⟨old, new, rfl, ho, hn⟩ := List.sublist_append_iff.mp hl
  have hm : matching f (published cfg srv1 es) =
      ((sourced (callsOf cfg srv1 es)).filter fun x => decide (Matches f x.2.1)).map fun x => x.2.2 := by
    show matching f (Call.publications (callsOf cfg srv1 es)) = _
    rw [sourced_publications, matching, List.filter_map, List.map_map]
    rfl
  rw [hm] at hn
  obtain ⟨came, hcame, rfl⟩ := List.sublist_map_iff.mp hn
  refine ⟨old, came, he, ?_, hcame.trans List.filter_sublist, ?_, ?_⟩
  · intro m hmem
    obtain ⟨t, ht, hret⟩ := List.mem_filterMap.mp (ho.subset hmem)
    exact ⟨t, ((t2 t).mp ht).1, hret⟩
  · intro x hx
    simpa using (List.mem_filter.mp (hcame.subset hx)).2
  · intro d
    refine List.Sublist.trans ?_ (ofClient_said cfg d es srv1)
    exact ((hcame.trans List.filter_sublist).filter _).map _

/-- C128: what the broker accepts from a client is all that the client sends to valid topics while it is connected,
in the order in which it sends it. -/
theorem C128_accepted_in_order (cfg : AuthConfig) (srv : Server) (hr : srv.Reachable cfg) (d : Nat) (es : List Event)
    (hes : ∀ es1 q es2, es = es1 ++ .recv d (.publish q) :: es2 →
      (srv.run cfg es1).isOpen d ∧ ValidTopic q.topicName) :
    ofClient d (sourced (callsOf cfg srv es)) = (said d es).map Session.messageOf :=
  ofClient_all cfg d es srv hr.inv hes

/-! ### Across subscriptions -/

theorem calmRun_left (cfg : AuthConfig) (c : Nat) (f : Str) (es es' : List Event) : ∀ srv : Server,
    CalmRun cfg c f srv (es ++ es') → CalmRun cfg c f srv es := by
  induction es with
  | nil => intro _ _; trivial
  | cons e es ih => intro srv h; exact ⟨h.1, ih _ h.2⟩

/-- What is sent next, by the messages drawn from the mailbox. -/
theorem next_sent (cfg : AuthConfig) (srv : Server) (hr : srv.Reachable cfg) (c : Nat)
    (hopen : srv.isOpen c) (p : SubscribePacket) (f : Str) (hf : f ∈ p.payload.map (·.topicFilter))
    (hvf : ValidFilter f) (srv1 : Server)
    (hs1 : (srv.step cfg (.recv c (.subscribe p))).1 = srv1) (es es' : List Event)
    (hret : ∀ t, Matches f t → retainedOf t (Call.publications srv.world.log) = none)
    (hc : CalmRun cfg c f srv1 (es ++ .deliver c f :: es'))
    (hv : ∀ q ∈ published cfg srv1 (es ++ .deliver c f :: es'), ValidTopic q.1)
    (ms : List Message) (m : Message)
    (h1 : drawn cfg c f srv1 ⟨[], []⟩ es = ms)
    (h2 : drawn cfg c f srv1 ⟨[], []⟩ (es ++ [.deliver c f]) = ms ++ [m]) :
    ((srv1.run cfg es).step cfg (.deliver c f)).2.sent = [forwarded f m] := by
  subst hs1
  have hsplit : es ++ .deliver c f :: es' = (es ++ [.deliver c f]) ++ es' := by simp
  have hc2 : CalmRun cfg c f (srv.step cfg (.recv c (.subscribe p))).1 (es ++ [.deliver c f]) := by
    rw [hsplit] at hc; exact calmRun_left cfg c f _ _ _ hc
  have hv2 : ∀ q ∈ published cfg (srv.step cfg (.recv c (.subscribe p))).1 (es ++ [.deliver c f]), ValidTopic q.1 := by
    intro q hq
    rw [hsplit, published_append] at hv
    exact hv q (List.mem_append_left _ hq)
  have hv1 : ∀ q ∈ published cfg (srv.step cfg (.recv c (.subscribe p))).1 es, ValidTopic q.1 := by
    intro q hq
    rw [published_append] at hv2
    exact hv2 q (List.mem_append_left _ hq)
  have none_of : ∀ topics : List Str,
      (∀ t, t ∈ topics ↔ Matches f t ∧ (retainedOf t (Call.publications srv.world.log)).isSome) → topics = [] := by
    intro topics ht
    cases topics with
    | nil => rfl
    | cons t ts =>
      obtain ⟨a, b⟩ := (ht t).mp (by simp)
      rw [hret t a] at b; cases b
  obtain ⟨ts1, _, t1, d1⟩ := C112_newest_sixteen cfg srv hr c hopen p f hf hvf es (calmRun_left cfg c f _ _ _ hc2) hv1
  obtain ⟨ts2, _, t2, d2⟩ := C112_newest_sixteen cfg srv hr c hopen p f hf hvf (es ++ [.deliver c f]) hc2 hv2
  obtain rfl := none_of ts1 t1
  obtain rfl := none_of ts2 t2
  simp only [List.filterMap_nil] at d1 d2
  rw [delivered_snoc, d1, h1, h2, List.map_append] at d2
  rw [if_pos rfl] at d2
  exact List.append_cancel_left d2

theorem published_deliver (cfg : AuthConfig) (srv : Server) (c : Nat) (f : Str) :
    published cfg srv [.deliver c f] = [] := by rw [published_one]; rfl

/-- C128 is false for messages that come by different subscriptions, in every state: a client has subscribed to
`f` and `g` (no retained messages match), another client `d` publishes first to a topic that `f` matches and `g`
does not, then to a topic that `g` matches.  Then the server can send the second message before the first: it takes
the waiting messages of the subscriptions in any order. -/
theorem C128_overtaken_false (cfg : AuthConfig) (srv : Server) (hr : srv.Reachable cfg) (c : Nat)
    (hopen : srv.isOpen c) (p : SubscribePacket) (f g : Str) (hf : f ∈ p.payload.map (·.topicFilter))
    (hg : g ∈ p.payload.map (·.topicFilter)) (hvf : ValidFilter f) (hvg : ValidFilter g) (d : Nat)
    (q1 q2 : PublishPacket) (ha1 : Accepted (.publish q1)) (ha2 : Accepted (.publish q2))
    (h1 : Matches f q1.topicName) (h2 : Matches g q2.topicName) (h3 : ¬ Matches g q1.topicName) :
    let srv1 := (srv.step cfg (.recv c (.subscribe p))).1
    let es : List Event := [.recv d (.publish q1), .recv d (.publish q2)]
    (∀ t, Matches f t ∨ Matches g t → retainedOf t (Call.publications srv.world.log) = none) → srv1.isOpen d →
    CalmRun cfg c f srv1 (es ++ [.deliver c g, .deliver c f]) →
    CalmRun cfg c g srv1 (es ++ [.deliver c g, .deliver c f]) →
    ((srv1.run cfg es).step cfg (.deliver c g)).2.sent = [forwarded g (Session.messageOf q2)] ∧
    ((srv1.run cfg (es ++ [.deliver c g])).step cfg (.deliver c f)).2.sent = [forwarded f (Session.messageOf q1)] := by
  intro srv1 es hret hd hcf hcg
  have hne : f ≠ g := by rintro rfl; exact h3 h1
  have hi : Inv srv1 := hr.inv.step cfg _
  obtain ⟨o1, _, p1⟩ := recv_publish cfg hi hd ha1
  obtain ⟨o2, _, p2⟩ := recv_publish cfg (hi.step cfg (.recv d (.publish q1))) o1 ha2
  have hv : ∀ q ∈ published cfg srv1 (es ++ [.deliver c g, .deliver c f]), ValidTopic q.1 := by
    intro q hq
    simp only [es, List.cons_append, List.nil_append] at hq
    rw [published_cons, p1, published_cons, p2, published_cons, published_deliver, published_deliver] at hq
    simp only [List.append_nil, List.cons_append, List.nil_append, List.mem_cons, List.not_mem_nil, or_false] at hq
    rcases hq with rfl | rfl
    · exact ha1.1
    · exact ha2.1
  refine ⟨?_, ?_⟩
  · refine next_sent cfg srv hr c hopen p g hg hvg srv1 rfl es [.deliver c f] (fun t h => hret t (.inr h)) hcg hv [] _ ?_ ?_
    · simp [es, drawn]
    · simp [es, drawn, p1, p2, published_deliver, matching, h2, h3, Mailbox.put, Mailbox.take, srv1]
  · refine next_sent cfg srv hr c hopen p f hf hvf srv1 rfl (es ++ [.deliver c g]) [] (fun t h => hret t (.inl h))
      (by simpa using hcf) (by simpa using hv) [] _ ?_ ?_
    · simp [es, drawn, Ne.symm hne]
    · by_cases h4 : Matches f q2.topicName <;>
      simp [es, drawn, p1, p2, published_deliver, matching, h1, h4, Mailbox.put, Mailbox.take, Ne.symm hne, srv1]

/-- C128 is false even for messages on one topic, if two filters of the subscriber match it, in every state: after
the second message the first one can arrive again, by the other subscription, and nothing in the packets tells
that it is the older one. -/
theorem C128_again_false (cfg : AuthConfig) (srv : Server) (hr : srv.Reachable cfg) (c : Nat)
    (hopen : srv.isOpen c) (p : SubscribePacket) (f g : Str) (hne : f ≠ g) (hf : f ∈ p.payload.map (·.topicFilter))
    (hg : g ∈ p.payload.map (·.topicFilter)) (hvf : ValidFilter f) (hvg : ValidFilter g) (d : Nat)
    (q1 q2 : PublishPacket) (ha1 : Accepted (.publish q1)) (ha2 : Accepted (.publish q2))
    (ht : q1.topicName = q2.topicName) (h1 : Matches f q1.topicName) (h2 : Matches g q1.topicName) :
    let srv1 := (srv.step cfg (.recv c (.subscribe p))).1
    let es : List Event := [.recv d (.publish q1), .recv d (.publish q2), .deliver c f]
    (∀ t, Matches f t ∨ Matches g t → retainedOf t (Call.publications srv.world.log) = none) → srv1.isOpen d →
    CalmRun cfg c f srv1 (es ++ [.deliver c f, .deliver c g]) →
    CalmRun cfg c g srv1 (es ++ [.deliver c f, .deliver c g]) →
    ((srv1.run cfg es).step cfg (.deliver c f)).2.sent = [forwarded f (Session.messageOf q2)] ∧
    ((srv1.run cfg (es ++ [.deliver c f])).step cfg (.deliver c g)).2.sent = [forwarded g (Session.messageOf q1)] := by
  intro srv1 es hret hd hcf hcg
  have hi : Inv srv1 := hr.inv.step cfg _
  obtain ⟨o1, _, p1⟩ := recv_publish cfg hi hd ha1
  obtain ⟨o2, _, p2⟩ := recv_publish cfg (hi.step cfg (.recv d (.publish q1))) o1 ha2
  have g1 : Matches f q2.topicName := ht ▸ h1
  have g2 : Matches g q2.topicName := ht ▸ h2
  have hv : ∀ q ∈ published cfg srv1 (es ++ [.deliver c f, .deliver c g]), ValidTopic q.1 := by
    intro q hq
    simp only [es, List.cons_append, List.nil_append] at hq
    rw [published_cons, p1, published_cons, p2, published_cons, published_deliver, published_cons, published_deliver,
      published_deliver] at hq
    simp only [List.append_nil, List.cons_append, List.nil_append, List.mem_cons, List.not_mem_nil, or_false] at hq
    rcases hq with rfl | rfl
    · exact ha1.1
    · exact ha2.1
  refine ⟨?_, ?_⟩
  · refine next_sent cfg srv hr c hopen p f hf hvf srv1 rfl es [.deliver c g] (fun t h => hret t (.inl h)) hcf hv
      [Session.messageOf q1] _ ?_ ?_
    · simp [es, drawn, p1, p2, published_deliver, matching, h1, g1, Mailbox.put, Mailbox.take, srv1]
    · simp [es, drawn, p1, p2, published_deliver, matching, h1, g1, Mailbox.put, Mailbox.take, srv1]
  · have he : es ++ [.deliver c f, .deliver c g] = (es ++ [.deliver c f]) ++ .deliver c g :: [] := by
      rw [List.append_assoc]; rfl
    rw [he] at hcg
    have hv' : ∀ q ∈ published cfg srv1 ((es ++ [.deliver c f]) ++ .deliver c g :: []), ValidTopic q.1 := by
      intro q hq
      rw [← he] at hq
      exact hv q hq
    have e1 : drawn cfg c g srv1 ⟨[], []⟩ (es ++ [.deliver c f]) = [] := by simp [es, drawn, hne]
    have e2 : drawn cfg c g srv1 ⟨[], []⟩ ((es ++ [.deliver c f]) ++ [.deliver c g]) = [] ++ [Session.messageOf q1] := by
      simp [es, drawn, p1, p2, published_deliver, matching, h2, g2, Mailbox.put, Mailbox.take, hne, srv1]
    have key := next_sent cfg srv hr c hopen p g hg hvg srv1 rfl (es ++ [.deliver c f]) [] (fun t h => hret t (.inr h))
      hcg
    have key2 := key hv'
    exact key2 [] (Session.messageOf q1) e1 e2

/-! ## Examples -/

/-- Two messages, to the topics `a` and `b`. -/
def exPair : List Event :=
  [.recv 1 (.publish { topicName := str "a", payload := some (str "1") }),
   .recv 1 (.publish { topicName := str "b", payload := some (str "2") })]

/-- The server of the examples, after the client on connection 0 has subscribed to `a`, `b` and `+`. -/
def exThree : Server :=
  (twoClients.step exCfg (.recv 0 (.subscribe ⟨1, none, [⟨str "a", {}⟩, ⟨str "b", {}⟩, ⟨str "+", {}⟩]⟩))).1

/-- By the subscription to `+` the two messages come in order; by those to `a` and `b` the second may come first;
and by those to `a` and `+` the first may come again after the second. -/
example :
    CalmRun exCfg 0 (str "+") exThree (exPair ++ [.deliver 0 (str "+"), .deliver 0 (str "+")]) ∧
    (∀ q ∈ published exCfg exThree (exPair ++ [.deliver 0 (str "+"), .deliver 0 (str "+")]), ValidTopic q.1) ∧
    exThree.delivered exCfg 0 (str "+") (exPair ++ [.deliver 0 (str "+"), .deliver 0 (str "+")]) =
      [.publish { topicName := str "+", payload := some (str "1") },
       .publish { topicName := str "+", payload := some (str "2") }] ∧
    exThree.isOpen 1 ∧ exThree.sentTo exCfg 0 (exPair ++ [.deliver 0 (str "b"), .deliver 0 (str "a")]) =
      [.publish { topicName := str "b", payload := some (str "2") },
       .publish { topicName := str "a", payload := some (str "1") }] ∧
    CalmRun exCfg 0 (str "a") exThree (exPair ++ [.deliver 0 (str "b"), .deliver 0 (str "a")]) ∧
    CalmRun exCfg 0 (str "b") exThree (exPair ++ [.deliver 0 (str "b"), .deliver 0 (str "a")]) ∧
    Call.publications twoClients.world.log = [] := by
  refine ⟨calmB_sound _ _ _ _ _ (by decide +kernel), ?_, by decide +kernel, ?_, by decide +kernel,
    calmB_sound _ _ _ _ _ (by decide +kernel), calmB_sound _ _ _ _ _ (by decide +kernel), by decide +kernel⟩
  · intro q hq
    rw [← C22_publish_topic_iff]
    revert q
    decide +kernel
  · rw [isOpen_iff]; decide +kernel

/-- Two messages to the topic `a`, and the filters `a` and `+`. -/
example :
    let es : List Event := [.recv 1 (.publish { topicName := str "a", payload := some (str "1") }),
      .recv 1 (.publish { topicName := str "a", payload := some (str "2") }), .deliver 0 (str "+"),
      .deliver 0 (str "+"), .deliver 0 (str "a")]
    CalmRun exCfg 0 (str "a") exThree es ∧ CalmRun exCfg 0 (str "+") exThree es ∧
    exThree.sentTo exCfg 0 es = [.publish { topicName := str "+", payload := some (str "1") },
      .publish { topicName := str "+", payload := some (str "2") },
      .publish { topicName := str "a", payload := some (str "1") }] := by
  refine ⟨calmB_sound _ _ _ _ _ (by decide +kernel), calmB_sound _ _ _ _ _ (by decide +kernel), by decide +kernel⟩

/-- A client that is connected and whose topics are valid. -/
example : ∀ es1 q es2, exPair = es1 ++ .recv 1 (.publish q) :: es2 →
    (exThree.run exCfg es1).isOpen 1 ∧ ValidTopic q.topicName := by
  intro es1 q es2 h
  match es1, h with
  | [], h =>
    simp only [exPair, List.nil_append, List.cons.injEq, Event.recv.injEq, Packet.publish.injEq, true_and] at h
    obtain ⟨rfl, _⟩ := h
    exact ⟨by rw [isOpen_iff]; decide +kernel, (C22_publish_topic_iff _).mp (by decide +kernel)⟩
  | [_], h =>
    simp only [exPair, List.cons_append, List.nil_append, List.cons.injEq, Event.recv.injEq, Packet.publish.injEq,
      true_and] at h
    obtain ⟨rfl, rfl, _⟩ := h
    exact ⟨by rw [isOpen_iff]; decide +kernel, (C22_publish_topic_iff _).mp (by decide +kernel)⟩
  | _ :: _ :: es1, h => simp [exPair] at h

end Mercurio
