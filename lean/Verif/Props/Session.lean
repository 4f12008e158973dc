import Verif.Lemmas.Server

/-!
# C34–C39, C43, C44, C46–C48: what one packet does

All statements are about every server state (`srv`), not only reachable ones.
-/

namespace Mercurio

open Spec Server

/-! ## Samples for the examples beside the theorems -/

/-- A configuration that asks for user name `u` and password `p` and offers PLAIN. -/
def exCfg : AuthConfig :=
  ⟨true, some fun u p => u = str "u" ∧ p = str "p",
    some (AuthManager.new.register (str "PLAIN") (plainAuth [(str "u", str "p")]))⟩

/-- A CONNECT of client `id` with a will message and credentials. -/
def exConnect (id : Str) (clean : Bool) : ConnectPacket where
  protocolVersion := .v5
  flags := { userName := true, password := true, willRetain := false, willQos := .atLeastOnce, willFlag := true, cleanStart := clean }
  keepalive := 60
  properties := none
  payload := { clientId := id, willTopic := some (str "gone"), willPayload := some (str "bye"), userName := some (str "u"), password := some (str "p") }

/-- A QoS 2 publication. -/
def exPublish : PublishPacket :=
  { qos := .exactlyOnce, topicName := str "a/b", packetId := some 7, payload := some (str "22") }

/-- A server with one client `x` on connection 0, subscribed to `a/+`. -/
def exServer : Server :=
  Server.init.run exCfg [.first 0 (.connect (exConnect (str "x") true)) (str "uuid") true,
    .recv 0 (.subscribe ⟨1, none, [⟨str "a/+", {}⟩]⟩)]

theorem exServer_at : ∃ s, exServer.at 0 = some s :=
  Option.isSome_iff_exists.mp (by decide +kernel)

/-! ## C34: answers -/

theorem ok_of_valid {t : Str} (h : ValidTopic t) : validatePublishTopic t = .ok () :=
  (C22_publish_topic_iff t).mpr h

theorem error_of_invalid {t : Str} (h : ¬ ValidTopic t) : ∃ e, validatePublishTopic t = .error e := by
  cases hv : validatePublishTopic t with
  | error e => exact ⟨e, rfl⟩
  | ok u => exact absurd ((C22_publish_topic_iff t).mp hv) h

/-- The result of processing a packet, against the specification of answers. -/
theorem processIncoming_result (s : Session) (w : World) (m : Option AuthManager) (c : Nat)
    (p : Packet) (hd : ∀ d, p ≠ .disconnect d) (ha : ∀ a, p ≠ .auth a) :
    (Accepted p → ∃ res, (s.processIncoming w m c p).result = .ok res ∧ Answer p res.toList) ∧
    (¬ Accepted p → ∃ e, (s.processIncoming w m c p).result = .error e) := by
  cases p with
  | publish p =>
    simp only [Session.processIncoming, Session.handlePublish, Accepted]
    constructor
    · rintro ⟨hv, hq⟩
      rw [ok_of_valid hv]
      rcases hq with hq | ⟨hq | hq, id, hid⟩
      · exact ⟨none, by simp [Session.publishResponse, hq], Or.inl ⟨hq, rfl⟩⟩
      · exact ⟨some (.pubAck ⟨id, .success, none⟩), by simp only [Session.publishResponse, hq, hid],
          Or.inr (Or.inl ⟨hq, id, hid, rfl⟩)⟩
      · exact ⟨some (.pubRec ⟨id, .success, none⟩), by simp only [Session.publishResponse, hq, hid],
          Or.inr (Or.inr ⟨hq, id, hid, rfl⟩)⟩
    · intro hn
      by_cases hv : ValidTopic p.topicName
      · rw [ok_of_valid hv]
        refine ⟨.mqtt .protocolError, ?_⟩
        simp only [Session.publishResponse]
        cases hq : p.qos <;> cases hid : p.packetId <;> simp_all
      · obtain ⟨e, he⟩ := error_of_invalid hv
        exact ⟨_, by rw [he]⟩
  | disconnect d => exact absurd rfl (hd d)
  | auth a => exact absurd rfl (ha a)
  | connect p => exact ⟨fun h => h.elim, fun _ => ⟨_, rfl⟩⟩
  | connAck p => exact ⟨fun h => h.elim, fun _ => ⟨_, rfl⟩⟩
  | subAck p => exact ⟨fun h => h.elim, fun _ => ⟨_, rfl⟩⟩
  | unsubAck p => exact ⟨fun h => h.elim, fun _ => ⟨_, rfl⟩⟩
  | pingResp => exact ⟨fun h => h.elim, fun _ => ⟨_, rfl⟩⟩
  | pubAck a => exact ⟨fun _ => ⟨_, rfl, rfl⟩, fun h => (h trivial).elim⟩
  | pubRec a => exact ⟨fun _ => ⟨_, rfl, rfl⟩, fun h => (h trivial).elim⟩
  | pubRel a => exact ⟨fun _ => ⟨_, rfl, rfl⟩, fun h => (h trivial).elim⟩
  | pubComp a => exact ⟨fun _ => ⟨_, rfl, rfl⟩, fun h => (h trivial).elim⟩
  | subscribe p => exact ⟨fun _ => ⟨_, rfl, _, rfl, rfl⟩, fun h => (h trivial).elim⟩
  | unsubscribe p => exact ⟨fun _ => ⟨_, rfl, _, rfl, rfl⟩, fun h => (h trivial).elim⟩
  | pingReq => exact ⟨fun _ => ⟨_, rfl, rfl⟩, fun h => (h trivial).elim⟩

/-- C34: on an open connection every packet except AUTH (see C48) either is one a client may send,
then the connection stays open and the packets sent back are its answer; or the connection ends and
nothing is sent back. -/
theorem C34_answers (cfg : AuthConfig) (srv : Server) (c : Nat) (s : Session)
    (h : srv.at c = some s) (p : Packet) (ha : ∀ a, p ≠ .auth a) :
    let r := srv.step cfg (.recv c p)
    (Accepted p → r.1.isOpen c ∧ Answer p r.2.sent) ∧
    (¬ Accepted p → ¬ r.1.isOpen c ∧ r.2.sent = []) := by
  by_cases hd : ∃ d, p = .disconnect d
  · obtain ⟨d, rfl⟩ := hd
    obtain ⟨k, hk, hs, e⟩ := step_disconnect (cfg := cfg) (d := d) h
    simp only [e]
    exact ⟨fun h => h.elim, fun _ => ⟨not_open_finish _ _ _ _, trivial⟩⟩
  · have hd : ∀ d, p ≠ .disconnect d := fun d he => hd ⟨d, he⟩
    obtain ⟨h1, h2⟩ := processIncoming_result s srv.world cfg.manager c p hd ha
    obtain ⟨k, hk, hs, e⟩ := step_recv (cfg := cfg) h hd
    simp only [e]
    constructor
    · intro hacc
      obtain ⟨res, hr, hans⟩ := h1 hacc
      simp only [hr]
      exact ⟨⟨k, by simpa using hk⟩, hans⟩
    · intro hacc
      obtain ⟨err, hr⟩ := h2 hacc
      simp only [hr]
      exact ⟨not_open_finish _ _ _ _, trivial⟩

example : Accepted (.publish exPublish) :=
  ⟨(C22_publish_topic_iff _).mp (by decide +kernel), Or.inr ⟨Or.inr rfl, 7, rfl⟩⟩
example : ∃ s, exServer.at 0 = some s := exServer_at

/-- The packets only a server may send, and a second CONNECT, are not accepted. -/
theorem C34_server_packets_refused (cfg : AuthConfig) (srv : Server) (c : Nat) (s : Session)
    (h : srv.at c = some s) (p : Packet)
    (hp : (∃ x, p = .connect x) ∨ (∃ x, p = .connAck x) ∨ (∃ x, p = .subAck x) ∨
      (∃ x, p = .unsubAck x) ∨ p = .pingResp) :
    ¬ (srv.step cfg (.recv c p)).1.isOpen c ∧ (srv.step cfg (.recv c p)).2.sent = [] := by
  apply (C34_answers cfg srv c s h p _).2
  · rcases hp with ⟨x, rfl⟩ | ⟨x, rfl⟩ | ⟨x, rfl⟩ | ⟨x, rfl⟩ | rfl <;> exact fun h => h
  · rcases hp with ⟨x, rfl⟩ | ⟨x, rfl⟩ | ⟨x, rfl⟩ | ⟨x, rfl⟩ | rfl <;> simp

example (s : Session) (h : exServer.at 0 = some s) :=
  C34_server_packets_refused exCfg exServer 0 s h .pingResp (.inr (.inr (.inr (.inr rfl))))

/-! ## C35: topics of publications are checked -/

/-- C35: a PUBLISH to an invalid topic ends the connection, is not answered, and (unless the
connection has a will to publish) leaves broker and storage as they were. -/
theorem C35_invalid_topic (cfg : AuthConfig) (srv : Server) (c : Nat) (s : Session)
    (h : srv.at c = some s) (p : PublishPacket) (hp : ¬ ValidTopic p.topicName) :
    let r := srv.step cfg (.recv c (.publish p))
    ¬ r.1.isOpen c ∧ r.2.sent = [] ∧
    (s.will = none → r.1.world = srv.world) ∧
    (∀ w, s.will = some w → r.1.world =
      (srv.world.publish (.will c) w.topic (willMessage w)).mapStore fun st => st.deleteWill s.clientId) := by
  obtain ⟨e, he⟩ := error_of_invalid hp
  obtain ⟨k, hk, hs, e⟩ := step_recv_error (cfg := cfg) (p := .publish p) h (by simp)
    (s' := s) (w' := srv.world) (e := .mqtt .topicNameInvalid)
    (by simp [Session.processIncoming, Session.handlePublish, he])
  simp only [e]
  refine ⟨not_open_finish _ _ _ _, trivial, fun hw => ?_, fun w hw => ?_⟩
  · simp [finish, hw]
  · simp [finish, hw]; rfl

example : ¬ ValidTopic (str "a/#") := by rw [← C22_publish_topic_iff]; decide +kernel

/-- C35: a PUBLISH to a valid topic is routed exactly once, as it is, under its topic. -/
theorem C35_valid_topic (cfg : AuthConfig) (srv : Server) (c : Nat) (s : Session)
    (h : srv.at c = some s) (p : PublishPacket) (ha : Accepted (.publish p)) :
    (srv.step cfg (.recv c (.publish p))).1.world = srv.world.publish (.client c) p.topicName
      ⟨p.packetId, p.topicName, p.dup, p.qos, p.retain, p.payload⟩ := by
  obtain ⟨res, hr, _⟩ := (processIncoming_result s srv.world cfg.manager c (.publish p) (by simp)
    (by simp)).1 ha
  obtain ⟨k, hk, hs, e⟩ := step_recv (cfg := cfg) (p := .publish p) h (by simp)
  rw [e, hr]
  have hv := ok_of_valid ha.1
  simp [Session.processIncoming, Session.handlePublish, hv, saveAfter, Server.mapStore, World.mapStore]
  rfl

/-! ## C36: QoS 2 -/

/-- C36, what holds: a QoS 2 PUBLISH is routed when it arrives, and answered with PUBREC.  Missing:
a retransmission before PUBREL must not be routed again; see the next theorem. -/
theorem C36_routed_on_arrival_partial (cfg : AuthConfig) (srv : Server) (c : Nat) (s : Session)
    (h : srv.at c = some s) (p : PublishPacket) (hv : ValidTopic p.topicName)
    (hq : p.qos = .exactlyOnce) (id : UInt16) (hid : p.packetId = some id) :
    let r := srv.step cfg (.recv c (.publish p))
    r.2.sent = [.pubRec ⟨id, .success, none⟩] ∧
    ∃ m, m.topic = p.topicName ∧ m.payload = p.payload ∧
      r.1.world.log = srv.world.log ++ [.publish (.client c) p.topicName m] := by
  have hacc : Accepted (.publish p) := ⟨hv, Or.inr ⟨Or.inr hq, id, hid⟩⟩
  have h1 := ((C34_answers cfg srv c s h (.publish p) (by simp)).1 hacc).2
  have h2 := C35_valid_topic cfg srv c s h p hacc
  refine ⟨?_, _, rfl, rfl, by rw [h2]; rfl⟩
  rcases h1 with ⟨a, b⟩ | ⟨a, b⟩ | ⟨a, id', b, d⟩
  · rw [hq] at a; simp at a
  · rw [hq] at a; simp at a
  · rw [hid] at b; simp at b; rw [← b] at d; exact d

example : ValidTopic exPublish.topicName ∧ exPublish.qos = .exactlyOnce ∧
    exPublish.packetId = some 7 :=
  ⟨(C22_publish_topic_iff _).mp (by decide +kernel), rfl, rfl⟩

/-- C36 is false in every state: the same QoS 2 PUBLISH sent again (same packet identifier, marked
as duplicate, before any PUBREL) is routed again. -/
theorem C36_retransmission_routed_again_false (cfg : AuthConfig) (srv : Server) (c : Nat)
    (s : Session) (h : srv.at c = some s) (p : PublishPacket) (hv : ValidTopic p.topicName)
    (hq : p.qos = .exactlyOnce) (id : UInt16) (hid : p.packetId = some id) :
    ∃ m m', m.topic = p.topicName ∧ m.payload = p.payload ∧ m'.topic = p.topicName ∧
      m'.payload = p.payload ∧
      (srv.run cfg [.recv c (.publish p), .recv c (.publish { p with dup := true })]).world.log =
        srv.world.log ++ [.publish (.client c) p.topicName m, .publish (.client c) p.topicName m'] := by
  have hacc : Accepted (.publish p) := ⟨hv, Or.inr ⟨Or.inr hq, id, hid⟩⟩
  have ho := ((C34_answers cfg srv c s h (.publish p) (by simp)).1 hacc).1
  obtain ⟨_, m, hm1, hm2, hl⟩ := C36_routed_on_arrival_partial cfg srv c s h p hv hq id hid
  obtain ⟨res, hr, _⟩ := (processIncoming_result s srv.world cfg.manager c (.publish p) (by simp)
    (by simp)).1 hacc
  obtain ⟨k, hk, hs, e⟩ := step_recv (cfg := cfg) (p := .publish p) h (by simp)
  have hat : ∃ s', (srv.step cfg (.recv c (.publish p))).1.at c = some s' := by
    rw [e, hr]; exact ⟨_, at_put_same (srv := _) (by simpa using hk) _⟩
  obtain ⟨s', hs'⟩ := hat
  obtain ⟨_, m', hm1', hm2', hl'⟩ :=
    C36_routed_on_arrival_partial cfg _ c s' hs' { p with dup := true } hv hq id hid
  refine ⟨m, m', hm1, hm2, hm1', hm2', ?_⟩
  simp only [Server.run, List.foldl_cons, List.foldl_nil]
  rw [hl', hl, List.append_assoc]; rfl

/-! ## C37: SUBSCRIBE -/

/-- C37: SUBSCRIBE is answered by one SUBACK with the packet identifier and one code per filter in
order; the session is then subscribed to the filters it had and the valid ones requested; each of
these gets a subscription that starts with the messages retained now and misses nothing from now
on; the others keep the subscription they had. -/
theorem C37_subscribe (cfg : AuthConfig) (srv : Server) (c : Nat) (s : Session)
    (h : srv.at c = some s) (p : SubscribePacket) :
    let r := srv.step cfg (.recv c (.subscribe p))
    let requested := p.payload.map (·.topicFilter)
    r.2.sent = [.subAck ⟨s.connect.protocolVersion, p.packetId, none, requested.map subscribeCode⟩] ∧
    ∃ s', r.1.at c = some s' ∧
      (∀ f, f ∈ s'.filters ↔ f ∈ s.filters ∨ (f ∈ requested ∧ ValidFilter f)) ∧
      (∀ f, f ∈ requested ∧ ValidFilter f →
        ∃ st, s'.subscriptions.get f = some st ∧ Fresh r.1.world f st) ∧
      (∀ f, ¬ (f ∈ requested ∧ ValidFilter f) → s'.subscriptions.get f = s.subscriptions.get f) := by
  obtain ⟨k, hk, hs, e⟩ := step_recv_ok (cfg := cfg) (p := .subscribe p) h (by simp)
    (hh := rfl)
  simp only [e]
  refine ⟨by rw [subscribeLoop_codes]; rfl, _, at_put_same (srv := _) (by simpa using hk) _, ?_, ?_, ?_⟩
  · intro f
    simp only [Session.filters, ← Map.get_isSome]
    obtain ⟨h1, h2⟩ := subscribeLoop_get (p.payload.map (·.topicFilter)) s srv.world f
    by_cases hf : f ∈ p.payload.map (·.topicFilter) ∧ ValidFilter f
    · obtain ⟨st, hst, _⟩ := h1 hf
      simp only [hst, hf, and_self, or_true, Option.isSome_some]
    · rw [h2 hf]; simp only [hf, or_false]
  · intro f hf
    obtain ⟨st, h1, h2⟩ := (subscribeLoop_get (p.payload.map (·.topicFilter)) s srv.world f).1 hf
    refine ⟨st, h1, ?_⟩
    obtain ⟨a, b, sent, d, e⟩ := h2
    exact ⟨a, b, sent, d, e⟩
  · intro f hf
    exact (subscribeLoop_get (p.payload.map (·.topicFilter)) s srv.world f).2 hf

example : (exServer.step exCfg (.recv 0 (.subscribe ⟨9, none, [⟨str "b", {}⟩, ⟨str "a#", {}⟩]⟩))).2.sent =
    [.subAck ⟨.v5, 9, none, [.grantedQoS0, .topicFilterInvalid]⟩] := by decide +kernel

/-! ## C38: UNSUBSCRIBE -/

/-- C38: UNSUBSCRIBE is answered by one UNSUBACK with the packet identifier and one code per filter
in order, success exactly if the session was subscribed to it at that point; afterwards exactly the
named filters are gone and the others keep their subscription. -/
theorem C38_unsubscribe (cfg : AuthConfig) (srv : Server) (c : Nat) (s : Session)
    (h : srv.at c = some s) (p : UnsubscribePacket) :
    let r := srv.step cfg (.recv c (.unsubscribe p))
    r.2.sent = [.unsubAck ⟨s.connect.protocolVersion, p.packetId, none,
      unsubscribeCodes s.filters p.payload⟩] ∧
    ∃ s', r.1.at c = some s' ∧
      (∀ f, f ∈ s'.filters ↔ f ∈ s.filters ∧ f ∉ p.payload) ∧
      (∀ f, f ∉ p.payload → s'.subscriptions.get f = s.subscriptions.get f) := by
  obtain ⟨k, hk, hs, e⟩ := step_recv_ok (cfg := cfg) (p := .unsubscribe p) h (by simp)
    (hh := rfl)
  obtain ⟨h1, h2⟩ := unsubscribeLoop_eq p.payload s.subscriptions
  simp only [e]
  refine ⟨by rw [h1]; rfl, _, at_put_same (srv := _) (by simpa using hk) _, ?_, ?_⟩
  · intro f
    simp only [Session.filters, ← Map.get_isSome, h2]
    by_cases hf : f ∈ p.payload <;> simp [hf]
  · intro f hf
    simp only [h2, hf, if_false]

example : (exServer.step exCfg (.recv 0 (.unsubscribe ⟨9, none, [str "a/+", str "a/+"]⟩))).2.sent =
    [.unsubAck ⟨.v5, 9, none, [.success, .noSubscriptionExisted]⟩] := by decide +kernel

/-- C38: every code is success or "no subscription existed". -/
theorem C38_codes (subscribed fs : List Str) :
    (unsubscribeCodes subscribed fs).length = fs.length ∧
    ∀ i (hi : i < fs.length) (hi' : i < (unsubscribeCodes subscribed fs).length),
      (unsubscribeCodes subscribed fs)[i] =
        if fs[i] ∈ subscribed ∧ fs[i] ∉ fs.take i then .success else .noSubscriptionExisted := by
  induction fs generalizing subscribed with
  | nil => simp [unsubscribeCodes]
  | cons f fs ih =>
    obtain ⟨h1, h2⟩ := ih (subscribed.filter (· ≠ f))
    refine ⟨by simpa [unsubscribeCodes] using h1, fun i hi hi' => ?_⟩
    cases i with
    | zero => simp [unsubscribeCodes]
    | succ i =>
      have := h2 i (by simpa using hi) (by rw [h1]; simpa using hi)
      simp only [unsubscribeCodes, List.getElem_cons_succ, List.take_succ_cons, List.mem_cons]
      rw [this]
      simp only [List.mem_filter, decide_eq_true_eq]
      congr 1
      simp only [eq_iff_iff]
      constructor
      · rintro ⟨⟨a, b⟩, d⟩; exact ⟨a, fun h => h.elim b d⟩
      · rintro ⟨a, b⟩; exact ⟨⟨a, fun h => b (Or.inl h)⟩, fun h => b (Or.inr h)⟩

/-! ## C39: stored subscriptions -/

/-- C39: after every answered SUBSCRIBE or UNSUBSCRIBE the stored filter list of the client is its
live one. -/
theorem C39_saved (cfg : AuthConfig) (srv : Server) (c : Nat) (s : Session)
    (h : srv.at c = some s) (p : Packet)
    (hp : (∃ x, p = .subscribe x) ∨ (∃ x, p = .unsubscribe x)) :
    let r := srv.step cfg (.recv c p)
    ∃ s', r.1.at c = some s' ∧ s'.clientId = s.clientId ∧
      r.1.store.loadSession s'.clientId = some ⟨s'.clientId, s'.filters, false⟩ := by
  rcases hp with ⟨x, rfl⟩ | ⟨x, rfl⟩
  · obtain ⟨k, hk, hs, e⟩ := step_recv_ok (cfg := cfg) (p := .subscribe x) h (by simp) (hh := rfl)
    simp only [e]
    obtain ⟨subs, hsub⟩ := subscribeLoop_session (x.payload.map (·.topicFilter)) s srv.world
    refine ⟨_, at_put_same (srv := _) (by simpa using hk) _, by rw [hsub], ?_⟩
    simp [saveAfter, MemoryStore.loadSession, MemoryStore.saveSession, Map.get_insert, stateOf]
  · obtain ⟨k, hk, hs, e⟩ := step_recv_ok (cfg := cfg) (p := .unsubscribe x) h (by simp) (hh := rfl)
    simp only [e]
    refine ⟨_, at_put_same (srv := _) (by simpa using hk) _, rfl, ?_⟩
    simp [saveAfter, MemoryStore.loadSession, MemoryStore.saveSession, Map.get_insert, stateOf]

example : (exServer.store.loadSession (str "x")) = some ⟨str "x", [str "a/+"], false⟩ := by
  decide +kernel

/-! ## Starting a session -/

/-- The connection may be made: `c` is new, and authentication is not required or the credentials
are accepted. -/
def Admitted (cfg : AuthConfig) (srv : Server) (c : Nat) (p : ConnectPacket) : Prop :=
  ¬ srv.isOpen c ∧ (cfg.requireAuth = true → ∃ u pw v, p.payload.userName = some u ∧
    p.payload.password = some pw ∧ cfg.validator = some v ∧ v u pw = true)

theorem authenticated_iff (cfg : AuthConfig) (p : ConnectPacket) : authenticated cfg p = true ↔
    ∃ u pw v, p.payload.userName = some u ∧ p.payload.password = some pw ∧
      cfg.validator = some v ∧ v u pw = true := by
  unfold authenticated
  cases hu : p.payload.userName with
  | none => simp
  | some u =>
    cases hp : p.payload.password with
    | none => simp
    | some pw =>
      cases hv : cfg.validator with
      | none => simp
      | some v => simp

theorem step_first {cfg : AuthConfig} {srv : Server} {c : Nat} {p : ConnectPacket} {uuid : Str}
    {written : Bool} (h : Admitted cfg srv c p) :
    srv.step cfg (.first c (.connect p) uuid written) = srv.start c p uuid written := by
  obtain ⟨ho, ha⟩ := h
  have : srv.conns.get c = none := by
    cases hc : srv.conns.get c with
    | none => rfl
    | some k => exact absurd ⟨k, hc⟩ ho
  simp only [Server.step, this, Option.isSome_none, Bool.false_eq_true, if_false, Server.connect]
  cases hr : cfg.requireAuth with
  | false => simp
  | true => simp [(authenticated_iff cfg p).mpr (ha hr)]

/-- The CONNACK of an admitted connection. -/
def connAckOf (p : ConnectPacket) (uuid : Str) (present : Bool) : ConnAckPacket :=
  { protocolVersion := p.protocolVersion, sessionPresent := present, reasonCode := .success
    properties :=
      if p.payload.clientId = [] ∧ p.protocolVersion = .v5 then some { assignedClientId := some uuid }
      else none }

/-- The client identifier of an admitted connection: the one sent, or the generated one. -/
def identity (p : ConnectPacket) (uuid : Str) : Str :=
  if p.payload.clientId = [] then uuid else p.payload.clientId

theorem begin_eq (s : Session) (uuid : Str) (b : Bool) (p : ConnectPacket) (hs : s.connect = p)
    (hc : s.clientId = p.payload.clientId) :
    (s.begin uuid b).2 = connAckOf p uuid b ∧ (s.begin uuid b).1.clientId = identity p uuid ∧
    (s.begin uuid b).1.will = s.will ∧ (s.begin uuid b).1.subscriptions = s.subscriptions ∧
    (s.begin uuid b).1.unacked = s.unacked ∧ (s.begin uuid b).1.pubrecs = s.pubrecs ∧
    (s.begin uuid b).1.authMethod = s.authMethod := by
  subst hs
  unfold Session.begin connAckOf identity
  by_cases h : s.connect.payload.clientId = []
  · simp only [h, List.isEmpty_nil, if_true, true_and, and_self, and_true]
    cases s.connect.protocolVersion <;> rfl
  · simp [h, hc]

theorem enter_session (srv : Server) (p : ConnectPacket) :
    (srv.enter p).2.2.connect = p ∧ (srv.enter p).2.2.clientId = p.payload.clientId ∧
    (srv.enter p).2.2.will = willOfConnect p := by
  unfold Server.enter
  cases srv.sessions.get p.payload.clientId with
  | none => exact ⟨rfl, rfl, rfl⟩
  | some r =>
    cases h : srv.heap.get r with
    | none => simp only [h]; exact ⟨rfl, rfl, rfl⟩
    | some s => simp only [h]; exact ⟨rfl, rfl, rfl⟩

/-! ## C44: session present -/

/-- C44: an admitted client is sent a CONNACK with success, which reports session present iff the
client did not ask for a clean start and a session of that client identifier exists in memory or in
storage; an assigned identifier is reported to MQTT 5 clients that sent none. -/
theorem C44_session_present (cfg : AuthConfig) (srv : Server) (c : Nat) (p : ConnectPacket)
    (uuid : Str) (h : Admitted cfg srv c p) :
    ∃ present rest, (srv.step cfg (.first c (.connect p) uuid true)).2.sent =
        .connAck (connAckOf p uuid present) :: rest ∧
      (present = true ↔ p.flags.cleanStart = false ∧
        ((∃ r, srv.sessions.get p.payload.clientId = some r) ∨
         (∃ st, srv.store.loadSession p.payload.clientId = some st))) := by
  rw [step_first h]
  refine ⟨(srv.find p.payload.clientId p.flags.cleanStart).resume,
    (srv.find p.payload.clientId p.flags.cleanStart).inflight.map retryPacket, ?_, ?_⟩
  · simp only [Server.start, if_true]
    obtain ⟨h1, h2, _⟩ := enter_session (srv.discard p.payload.clientId p.flags.cleanStart) p
    rw [(begin_eq _ uuid _ p h1 h2).1]
  · unfold Server.find
    cases p.flags.cleanStart with
    | true => simp [Found.none]
    | false =>
      simp only [Bool.false_eq_true, if_false, true_and]
      cases srv.sessions.get p.payload.clientId with
      | some r => simp
      | none =>
        cases srv.store.loadSession p.payload.clientId with
        | some st => simp
        | none => simp [Found.none]

theorem exServer_admits (clean : Bool) :
    Admitted exCfg exServer 1 (exConnect (str "x") clean) :=
  ⟨by
    have h : exServer.conns.get 1 = none := by decide +kernel
    rintro ⟨k, hk⟩; rw [h] at hk; exact absurd hk (by simp),
   fun _ => ⟨str "u", str "p", _, rfl, rfl, rfl, by decide +kernel⟩⟩
example : exServer.sessions.get (str "x") = some 0 := by decide +kernel

/-! ## C43: clean start -/

theorem discard_clean_get (srv : Server) (cid : Str) :
    (srv.discard cid true).sessions.get cid = none := by
  simp [Server.discard, Map.get_erase]

theorem restoreSubscriptions_nil (s : Session) (w : World) : s.restoreSubscriptions w [] = (s, w) := rfl

theorem willIn_eq (p : ConnectPacket) : Spec.willIn p = willOfConnect p := by
  unfold Spec.willIn willOfConnect
  cases p.flags.willFlag <;> cases p.payload.willTopic <;> rfl

/-- C43: after a clean start, whatever the client did before: no session present is reported, the
session has no subscriptions, live or stored, no unacknowledged messages and no exchange in
progress, and the will is that of this CONNECT, in memory and in storage. -/
theorem C43_clean_start (cfg : AuthConfig) (srv : Server) (c : Nat) (p : ConnectPacket)
    (uuid : Str) (h : Admitted cfg srv c p) (hc : p.flags.cleanStart = true) :
    let r := srv.step cfg (.first c (.connect p) uuid true)
    r.2.sent = [.connAck (connAckOf p uuid false)] ∧
    ∃ s, r.1.at c = some s ∧ s.clientId = identity p uuid ∧ s.filters = [] ∧ s.unacked = [] ∧
      s.pubrecs = [] ∧ s.authMethod = none ∧ s.will = Spec.willIn p ∧
      r.1.store.loadSession s.clientId = some ⟨s.clientId, [], false⟩ ∧
      (p.payload.clientId ≠ [] → r.1.store.getWill s.clientId = Spec.willIn p) := by
  rw [step_first h, willIn_eq]
  have hf : srv.find p.payload.clientId p.flags.cleanStart = Found.none := by simp [Server.find, hc]
  have he : ((srv.discard p.payload.clientId p.flags.cleanStart).enter p).2.2 = Session.new p := by
    unfold Server.enter; rw [hc, discard_clean_get]
  obtain ⟨b1, b2, b3, b4, b5, b6, b7⟩ := begin_eq (Session.new p) uuid false p rfl rfl
  have hs0 : ((srv.discard p.payload.clientId p.flags.cleanStart).enter p).1.store =
      ((srv.store.deleteSession p.payload.clientId).deleteWill p.payload.clientId) := by
    unfold Server.enter; rw [hc, discard_clean_get]; rfl
  simp only [Server.start, if_true, hf, he, Found.none, restoreSubscriptions_nil, restoreWill]
  refine ⟨by simp [b1], _, ?_, b2, ?_, b5, b6, b7, b3, ?_, ?_⟩
  · exact at_eq_some.mpr ⟨_, (Map.get_insert _ _ _ _).trans (if_pos rfl),
      (Map.get_insert _ _ _ _).trans (if_pos rfl)⟩
  · simp only [Session.filters, b4]; rfl
  · show (saveStart _ [] (Server.store _)).loadSession _ = _
    unfold saveStart
    cases (((Session.new p).begin uuid false).1).will <;>
      simp [MemoryStore.loadSession, MemoryStore.saveSession, MemoryStore.storeWill, Map.get_insert, stateOf]
  · intro hne
    show (saveStart _ [] (Server.store _)).getWill _ = _
    have hid : ((Session.new p).begin uuid false).1.clientId = p.payload.clientId := by
      rw [b2]; simp [identity, hne]
    have hw : ((Session.new p).begin uuid false).1.will = willOfConnect p := b3
    unfold saveStart
    rw [hw, hs0]
    cases willOfConnect p with
    | none => simp [MemoryStore.getWill, MemoryStore.saveSession, MemoryStore.deleteWill, Map.get_erase, hid]
    | some w => simp [MemoryStore.getWill, MemoryStore.storeWill, Map.get_insert]

example : Admitted exCfg exServer 1 (exConnect (str "x") true) := exServer_admits true

/-- C43 is false for messages in flight: a clean start leaves all stored ones in place. -/
theorem C43_inflight_kept_false (cfg : AuthConfig) (srv : Server) (c : Nat) (p : ConnectPacket)
    (uuid : Str) (h : Admitted cfg srv c p) (hc : p.flags.cleanStart = true) (id : Str) :
    (srv.step cfg (.first c (.connect p) uuid true)).1.store.getAllInflight id =
      srv.store.getAllInflight id := by
  rw [step_first h]
  have hf : srv.find p.payload.clientId p.flags.cleanStart = Found.none := by simp [Server.find, hc]
  have hs0 : ((srv.discard p.payload.clientId p.flags.cleanStart).enter p).1.store =
      ((srv.store.deleteSession p.payload.clientId).deleteWill p.payload.clientId) := by
    unfold Server.enter; rw [hc, discard_clean_get]; rfl
  simp only [Server.start, if_true, hf, Found.none, restoreSubscriptions_nil]
  show (saveStart _ [] (Server.store _)).getAllInflight id = _
  rw [hs0]
  unfold saveStart
  generalize ((((srv.discard p.payload.clientId p.flags.cleanStart).enter p).2.2).begin uuid false).1 = s
  cases s.will <;> rfl

/-! ## C39: what a reconnect does to the stored subscriptions -/

/-- C39 is false after a reconnect that resumes the session in memory: the stored filter list is
replaced by an empty one, although the session keeps its subscriptions. -/
theorem C39_resume_forgets_false (cfg : AuthConfig) (srv : Server) (c : Nat) (p : ConnectPacket)
    (uuid : Str) (h : Admitted cfg srv c p) (hc : p.flags.cleanStart = false) (r : Nat) (s : Session)
    (hr : srv.sessions.get p.payload.clientId = some r) (hs : srv.heap.get r = some s) :
    let q := srv.step cfg (.first c (.connect p) uuid true)
    ∃ s', q.1.at c = some s' ∧ s'.filters = s.filters ∧
      q.1.store.loadSession s'.clientId = some ⟨s'.clientId, [], false⟩ := by
  rw [step_first h]
  have hf : srv.find p.payload.clientId p.flags.cleanStart = ⟨true, [], none, []⟩ := by
    simp [Server.find, hc, hr]
  have he : ((srv.discard p.payload.clientId p.flags.cleanStart).enter p) = (srv, r, s.setConnect p) := by
    unfold Server.enter; rw [hc]; simp only [Server.discard, Bool.false_eq_true, if_false, hr, hs]
  obtain ⟨b1, b2, b3, b4, b5, b6, b7⟩ := begin_eq (s.setConnect p) uuid true p rfl rfl
  simp only [Server.start, if_true, hf, he, restoreSubscriptions_nil, restoreWill]
  refine ⟨((s.setConnect p).begin uuid true).1, ?_, ?_, ?_⟩
  · exact at_eq_some.mpr ⟨_, (Map.get_insert _ _ _ _).trans (if_pos rfl),
      (Map.get_insert _ _ _ _).trans (if_pos rfl)⟩
  · simp only [Session.filters, b4]; rfl
  · show (saveStart _ [] (Server.store _)).loadSession _ = _
    unfold saveStart
    cases ((s.setConnect p).begin uuid true).1.will <;>
      simp [MemoryStore.loadSession, MemoryStore.saveSession, MemoryStore.storeWill, Map.get_insert, stateOf]

example : Admitted exCfg exServer 1 (exConnect (str "x") false) ∧
    exServer.sessions.get (str "x") = some 0 ∧ ∃ s, exServer.heap.get 0 = some s ∧ s.filters = [str "a/+"] := by
  refine ⟨exServer_admits false, by decide +kernel, ?_⟩
  have h : (exServer.heap.get 0).map (·.filters) = some [str "a/+"] := by decide +kernel
  exact Option.map_eq_some_iff.mp h

/-! ## C46: before CONNECT -/

/-- C46: a first packet that is not CONNECT changes nothing and is not answered, and the connection
is not opened. -/
theorem C46_first_packet (cfg : AuthConfig) (srv : Server) (c : Nat) (p : Packet) (uuid : Str)
    (w : Bool) (h : ∀ x, p ≠ .connect x) :
    srv.step cfg (.first c p uuid w) = (srv, {}) := by
  simp only [Server.step]
  split
  · rfl
  · cases p <;> first | rfl | exact absurd rfl (h _)

example := C46_first_packet exCfg exServer 1 .pingReq (str "id") true (fun _ h => by cases h)

/-- C46: whatever arrives on a connection that is not open changes nothing and is not answered. -/
theorem C46_not_open (cfg : AuthConfig) (srv : Server) (c : Nat) (h : ¬ srv.isOpen c) (e : Event)
    (he : (∃ p, e = .recv c p) ∨ (∃ f, e = .deliver c f) ∨ e = .close c) :
    srv.step cfg e = (srv, {}) := by
  have : srv.conns.get c = none := by
    cases hc : srv.conns.get c with
    | none => rfl
    | some k => exact absurd ⟨k, hc⟩ h
  have ha : srv.at c = none := by simp [Server.at, this]
  rcases he with ⟨p, rfl⟩ | ⟨f, rfl⟩ | rfl <;> simp only [Server.step] <;> exact onConn_none ha _

example : ¬ exServer.isOpen 1 := (exServer_admits true).1

/-! ## C47: required authentication -/

/-- C47: if authentication is required and the CONNECT does not carry a user name and a password
that a configured validator accepts, the only effect is the refusal. -/
theorem C47_refused (cfg : AuthConfig) (srv : Server) (c : Nat) (p : ConnectPacket) (uuid : Str)
    (w : Bool) (ho : ¬ srv.isOpen c) (hr : cfg.requireAuth = true)
    (h : ¬ ∃ u pw v, p.payload.userName = some u ∧ p.payload.password = some pw ∧
      cfg.validator = some v ∧ v u pw = true) :
    srv.step cfg (.first c (.connect p) uuid w) =
      (srv, { sent := [.connAck ⟨p.protocolVersion, false, .badUserNameOrPassword, none⟩] }) := by
  have : srv.conns.get c = none := by
    cases hc : srv.conns.get c with
    | none => rfl
    | some k => exact absurd ⟨k, hc⟩ ho
  have ha : authenticated cfg p = false := by
    cases hb : authenticated cfg p with
    | false => rfl
    | true => exact absurd ((authenticated_iff cfg p).mp hb) h
  simp [Server.step, this, Server.connect, hr, ha, refusal]

example : exCfg.requireAuth = true ∧ ∀ v, exCfg.validator = some v →
    v (str "u") (str "q") = false := by
  refine ⟨rfl, fun v hv => ?_⟩
  simp only [exCfg, Option.some.injEq] at hv
  subst hv; decide +kernel

/-- C47: with authentication required and no validator everyone is refused. -/
theorem C47_no_validator (cfg : AuthConfig) (srv : Server) (c : Nat) (p : ConnectPacket) (uuid : Str)
    (w : Bool) (ho : ¬ srv.isOpen c) (hr : cfg.requireAuth = true) (hv : cfg.validator = none) :
    srv.step cfg (.first c (.connect p) uuid w) =
      (srv, { sent := [.connAck ⟨p.protocolVersion, false, .badUserNameOrPassword, none⟩] }) :=
  C47_refused cfg srv c p uuid w ho hr (by simp [hv])

example := C47_no_validator { exCfg with validator := none } exServer 1 (exConnect (str "x") true) (str "id") true
  (exServer_admits true).1 (by decide +kernel) rfl

/-- C47: accepted credentials give the same session as a server without authentication. -/
theorem C47_accepted (cfg : AuthConfig) (srv : Server) (c : Nat) (p : ConnectPacket) (uuid : Str)
    (w : Bool) (h : Admitted cfg srv c p) :
    srv.step cfg (.first c (.connect p) uuid w) =
      srv.step { cfg with requireAuth := false } (.first c (.connect p) uuid w) := by
  rw [step_first h, step_first ⟨h.1, by simp⟩]

/-! ## C48: re-authentication -/

/-- C48: an AUTH packet is answered with success only if the configured method named in it returned
success for the data in it (start), or the method of the exchange in progress did (continuation). -/
theorem C48_success (cfg : AuthConfig) (srv : Server) (c : Nat) (s : Session)
    (h : srv.at c = some s) (p a : AuthPacket)
    (ha : .auth a ∈ (srv.step cfg (.recv c (.auth p))).2.sent) (hs : a.reason = .success) :
    ∃ mgr name method, cfg.manager = some mgr ∧ mgr.methods.get name = some method ∧
      ((p.reason = .reAuthenticate ∧ p.properties.authMethod = some name ∧
          method.start p.properties.authData = .success) ∨
       (p.reason = .continueAuthentication ∧ s.authMethod = some name ∧
          ∃ d, p.properties.authData = some d ∧ method.cont d = .success)) := by
  obtain ⟨k, hk, hss, e⟩ := step_recv (cfg := cfg) (p := .auth p) h (by simp)
  rw [e] at ha
  simp only [Session.processIncoming, Session.handleAuth] at ha
  cases hm : cfg.manager with
  | none => simp [hm] at ha
  | some mgr =>
    simp only [hm] at ha
    have start : p.reason = .reAuthenticate →
        ∃ name method, mgr.methods.get name = some method ∧
          p.properties.authMethod = some name ∧ method.start p.properties.authData = .success := by
      intro hr
      simp only [hr, Session.authStart] at ha
      cases hn : p.properties.authMethod with
      | none => simp [hn] at ha
      | some name =>
        simp only [hn] at ha
        cases hg : mgr.methods.get name with
        | none => simp [AuthManager.supportsMethod, hg] at ha
        | some method =>
          simp only [AuthManager.supportsMethod, hg, Option.isSome_some, if_true,
            AuthManager.startAuth] at ha
          cases hst : method.start p.properties.authData with
          | success => exact ⟨name, method, hg, rfl, hst⟩
          | «continue» d =>
            simp only [hst] at ha
            simp [Session.authChallenge] at ha
            rw [ha] at hs; simp at hs
          | failed r => simp [hst] at ha
    have cont : p.reason = .continueAuthentication →
        ∃ name method d, mgr.methods.get name = some method ∧ s.authMethod = some name ∧
          p.properties.authData = some d ∧ method.cont d = .success := by
      intro hr
      simp only [hr, Session.authContinue] at ha
      cases hn : s.authMethod with
      | none => simp [hn] at ha
      | some name =>
        cases hd : p.properties.authData with
        | none => simp [hn, hd] at ha
        | some d =>
          simp only [hn, hd] at ha
          cases hg : mgr.methods.get name with
          | none => simp [AuthManager.continueAuth, hg] at ha
          | some method =>
            simp only [AuthManager.continueAuth, hg] at ha
            cases hst : method.cont d with
            | success => exact ⟨name, method, d, hg, rfl, rfl, hst⟩
            | «continue» d' =>
              simp only [hst] at ha
              simp [Session.authChallenge] at ha
              rw [ha] at hs; simp at hs
            | failed r => simp [hst] at ha
    by_cases h1 : p.reason = .reAuthenticate
    · obtain ⟨name, method, x, y, z⟩ := start h1
      exact ⟨mgr, name, method, rfl, x, Or.inl ⟨h1, y, z⟩⟩
    · by_cases h2 : p.reason = .continueAuthentication
      · obtain ⟨name, method, d, x, y, z, t⟩ := cont h2
        exact ⟨mgr, name, method, rfl, x, Or.inr ⟨h2, y, d, z, t⟩⟩
      · exfalso
        revert ha
        cases hr : p.reason <;> simp_all

example : (exServer.step exCfg (.recv 0 (.auth ⟨.reAuthenticate,
    { authMethod := some (str "PLAIN"), authData := some (0 :: str "u" ++ 0 :: str "p") }⟩))).2.sent =
    [.auth { reason := .success }] := by decide +kernel

/-- C48: AUTH ends the connection, without an answer, if no authentication manager is configured;
if it starts an exchange with no method or an unknown one; if it continues when no exchange is in
progress or without data; or if its reason code is anything else. -/
theorem C48_refused (cfg : AuthConfig) (srv : Server) (c : Nat) (s : Session)
    (h : srv.at c = some s) (p : AuthPacket)
    (hp : cfg.manager = none ∨
      (p.reason = .reAuthenticate ∧ p.properties.authMethod = none) ∨
      (p.reason = .reAuthenticate ∧ ∃ mgr name, cfg.manager = some mgr ∧
        p.properties.authMethod = some name ∧ mgr.methods.get name = none) ∨
      (p.reason = .continueAuthentication ∧ (s.authMethod = none ∨ p.properties.authData = none)) ∨
      (p.reason ≠ .reAuthenticate ∧ p.reason ≠ .continueAuthentication)) :
    let r := srv.step cfg (.recv c (.auth p))
    ¬ r.1.isOpen c ∧ r.2.sent = [] := by
  obtain ⟨k, hk, hss, e⟩ := step_recv (cfg := cfg) (p := .auth p) h (by simp)
  have key : ∃ err, (s.processIncoming srv.world cfg.manager c (.auth p)).result = .error err := by
    simp only [Session.processIncoming, Session.handleAuth]
    cases hm : cfg.manager with
    | none => exact ⟨_, rfl⟩
    | some mgr =>
      rcases hp with hp | ⟨hr, hn⟩ | ⟨hr, mgr', name, hm', hn, hg⟩ | ⟨hr, hn⟩ | ⟨h1, h2⟩
      · simp [hm] at hp
      · simp [hr, Session.authStart, hn]
      · rw [hm] at hm'; simp at hm'; subst hm'
        simp [hr, Session.authStart, hn, AuthManager.supportsMethod, hg]
      · simp only [hr, Session.authContinue]
        rcases hn with hn | hn
        · simp [hn]
        · cases s.authMethod <;> simp [hn]
      · cases hr : p.reason <;> simp_all
  obtain ⟨err, he⟩ := key
  simp only [e, he]
  exact ⟨not_open_finish _ _ _ _, trivial⟩

example (s : Session) (h : exServer.at 0 = some s) := C48_refused exCfg exServer 0 s h
  ⟨.reAuthenticate, {}⟩ (.inr (.inl ⟨rfl, rfl⟩))

/-- C48, "with the same method", is false: the method named in a continuation is ignored. -/
theorem C48_other_method_false (cfg : AuthConfig) (srv : Server) (c : Nat) (s : Session)
    (h : srv.at c = some s) (mgr : AuthManager) (hm : cfg.manager = some mgr) (name other : Str)
    (hn : s.authMethod = some name) (method : AuthMethod) (hg : mgr.methods.get name = some method)
    (d : Buf) (hd : method.cont d = .success) :
    (srv.step cfg (.recv c (.auth ⟨.continueAuthentication,
      { authMethod := some other, authData := some d }⟩))).2.sent = [.auth { reason := .success }] := by
  obtain ⟨k, hk, hss, e⟩ := step_recv (cfg := cfg) (p := .auth ⟨.continueAuthentication,
      { authMethod := some other, authData := some d }⟩) h (by simp)
  rw [e]
  simp [Session.processIncoming, Session.handleAuth, hm, Session.authContinue, hn,
    AuthManager.continueAuth, hg, hd, Session.authSuccess]

/-- A method that sends a challenge and accepts the answer `ok`. -/
def challengeMethod : AuthMethod :=
  ⟨fun _ => .continue (str "?"), fun d => if d = str "ok" then .success else .failed .notAuthorized⟩
example : ((exServer.step ⟨false, none, some ⟨[(str "C", challengeMethod)]⟩⟩
      (.recv 0 (.auth ⟨.reAuthenticate, { authMethod := some (str "C") }⟩))).1.at 0).map (·.authMethod) =
    some (some (str "C")) ∧ challengeMethod.cont (str "ok") = .success := by decide +kernel

/-- C48, "an exchange is in progress", is false: a start that the method refuses leaves the
session (which the next connection of the client resumes) in the middle of an exchange. -/
theorem C48_failed_start_false (cfg : AuthConfig) (srv : Server) (c : Nat) (s : Session)
    (h : srv.at c = some s) (mgr : AuthManager) (hm : cfg.manager = some mgr) (p : AuthPacket)
    (hr : p.reason = .reAuthenticate) (name : Str) (hn : p.properties.authMethod = some name)
    (method : AuthMethod) (hg : mgr.methods.get name = some method) (code : ReasonCode)
    (hf : method.start p.properties.authData = .failed code) :
    let r := srv.step cfg (.recv c (.auth p))
    ¬ r.1.isOpen c ∧ ∃ k s', srv.conns.get c = some k ∧ r.1.heap.get k.session = some s' ∧
      s'.authMethod = some name := by
  obtain ⟨k, hk, hss, e⟩ := step_recv (cfg := cfg) (p := .auth p) h (by simp)
  have : s.processIncoming srv.world cfg.manager c (.auth p) =
      ⟨{ s with authMethod := some name }, srv.world, .error (.mqtt code)⟩ := by
    simp [Session.processIncoming, Session.handleAuth, hm, hr, Session.authStart, hn,
      AuthManager.supportsMethod, hg, AuthManager.startAuth, hf]
  simp only [e, this]
  refine ⟨not_open_finish _ _ _ _, k, ?_⟩
  simp only [finish]
  cases hw : s.will with
  | none => exact ⟨_, hk, (Map.get_insert _ _ _ _).trans (if_pos rfl), rfl⟩
  | some w => exact ⟨_, hk, (Map.get_insert _ _ _ _).trans (if_pos rfl), rfl⟩

example : (plainAuth [(str "u", str "p")]).start none = .failed .badAuthenticationMethod := rfl

end Mercurio
