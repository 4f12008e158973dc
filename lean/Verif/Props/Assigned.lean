import Verif.Props.Persist
import Verif.Props.Inflight
import Verif.Props.Mailbox
import Verif.Lemmas.Tame

/-!
# C118: coming back under an identifier the server has chosen

A client that gives no identifier is told one.  When it comes back under it, its session is not in memory (it is
kept there under the empty identifier), but its subscriptions and the messages it has not acknowledged are in
the storage.  This is the only way in which a server that is not restarted resumes a session from its storage.
-/

namespace Mercurio

open Spec Server

/-! ## Sessions resumed from the storage -/

theorem restore_sentAt (fs : List Str) : ∀ (s : Session) (w : World) (path : List Str) (l : List Message),
    TopicNode.sentAt w.broker.tree path = some l →
      TopicNode.sentAt (s.restoreSubscriptions w fs).2.broker.tree path = some l := by
  induction fs with
  | nil => intro s w path l h; exact h
  | cons f fs ih =>
    intro s w path l h
    exact ih (s.addSubscription w f).1 (s.addSubscription w f).2 path l (TopicNode.sentAt_ensure _ _ _ _ h)

theorem restore_get (fs : List Str) : ∀ (s : Session) (w : World) (f : Str),
    (f ∈ fs → ∃ st, (s.restoreSubscriptions w fs).1.subscriptions.get f = some st ∧
      Fresh (s.restoreSubscriptions w fs).2 f st) ∧
    (f ∉ fs → (s.restoreSubscriptions w fs).1.subscriptions.get f = s.subscriptions.get f) := by
  induction fs with
  | nil => intro s w f; exact ⟨fun h => absurd h (by simp), fun _ => rfl⟩
  | cons g fs ih =>
    intro s w f
    obtain ⟨h1, h2⟩ := ih (s.addSubscription w g).1 (s.addSubscription w g).2 f
    simp only [Session.restoreSubscriptions]
    by_cases hin : f ∈ fs
    · exact ⟨fun _ => h1 hin, fun h => absurd (List.mem_cons_of_mem _ hin) h⟩
    · constructor
      · intro hm
        have hfg : g = f := by
          rcases List.mem_cons.mp hm with h | h
          · exact h.symm
          · exact absurd h hin
        subst hfg
        rw [h2 hin, addSubscription_get, if_pos rfl]
        refine ⟨_, rfl, ?_⟩
        obtain ⟨a, b, sent, d, e⟩ := addSubscription_fresh s w g
        exact ⟨by rw [restore_store]; exact a, b, sent, restore_sentAt fs _ _ _ _ d, e⟩
      · intro hn
        have hfg : g ≠ f := by rintro rfl; exact hn (by simp)
        rw [h2 hin, addSubscription_get, if_neg hfg]

/-- A client resumes its session from the storage: its filters are those stored, and each of its streams is as
new, with the retained messages ahead. -/
theorem restored {cfg : AuthConfig} {srv : Server} (hr : srv.Reachable cfg) {c : Nat} {q : ConnectPacket}
    {uuid : Str} (ha : Admitted cfg srv c q) (hclean : q.flags.cleanStart = false)
    (hmem : srv.sessions.get q.payload.clientId = none) {saved : SessionState}
    (hst : srv.store.loadSession q.payload.clientId = some saved) :
    let srv1 := (srv.step cfg (.first c (.connect q) uuid true)).1
    let before := Call.publications srv.world.log
    Inv srv1 ∧ srv1.world.Faithful ∧ ∃ s, srv1.at c = some s ∧ (∀ f, f ∈ s.filters ↔ f ∈ saved.subscriptions) ∧
      ∀ f, f ∈ saved.subscriptions → ValidFilter f → ∃ st sent, ∃ topics : List Str,
        s.subscriptions.get f = some st ∧ st.rx.path = splitLevels f ∧
        TopicNode.sentAt srv1.world.broker.tree (splitLevels f) = some sent ∧ st.rx.next = sent.length ∧
        topics.Nodup ∧ (∀ t, t ∈ topics ↔ Matches f t ∧ (retainedOf t before).isSome) ∧
        st.retained = topics.filterMap (fun t => retainedOf t before) := by
  intro srv1 before
  have hi : Inv srv1 := hr.inv.step cfg _
  have hfa : srv1.world.Faithful := faithful_step cfg hr.faithful _
  refine ⟨hi, hfa, ?_⟩
  have e3 : srv1 = (srv.start c q uuid true).1 := by
    show (srv.step cfg (.first c (.connect q) uuid true)).1 = _
    rw [step_first ha]
  have hfind : srv.find q.payload.clientId q.flags.cleanStart = ⟨true, saved.subscriptions,
      srv.store.getWill q.payload.clientId, srv.store.getAllInflight q.payload.clientId⟩ := by
    unfold Server.find
    simp [hclean, hmem, hst]
  have hd : srv.discard q.payload.clientId q.flags.cleanStart = srv := by
    unfold Server.discard; rw [hclean]; rfl
  have he : (srv.enter q).2.2 = Session.new q := by
    unfold Server.enter; rw [hmem]
  have hlog : Call.publications srv1.world.log = before := by
    rw [e3, log_start, if_pos rfl, Call.publications_append, publications_subscribe, List.append_nil]
  refine ⟨restoreWill ((((srv.enter q).2.2.begin uuid true).1).restoreSubscriptions
      ((srv.enter q).1.mapStore (saveStart ((srv.enter q).2.2.begin uuid true).1 saved.subscriptions)).world
        saved.subscriptions).1 (srv.store.getWill q.payload.clientId), ?_, ?_, ?_⟩
  · rw [e3]
    simp only [Server.start, if_true, hfind, hd]
    exact at_eq_some.mpr ⟨_, (Map.get_insert _ _ _ _).trans (if_pos rfl), (Map.get_insert _ _ _ _).trans (if_pos rfl)⟩
  · intro f
    rw [restoreWill_filters, restoreSubscriptions_filters]
    have : (((srv.enter q).2.2.begin uuid true).1).filters = [] := by
      rw [he]
      unfold Session.filters
      rw [begin_subscriptions]; rfl
    rw [this]; simp
  · intro f hf hvf
    obtain ⟨st, g1, g2, g3, sent, g4, g5⟩ := (restore_get saved.subscriptions (((srv.enter q).2.2.begin uuid true).1)
      ((srv.enter q).1.mapStore (saveStart ((srv.enter q).2.2.begin uuid true).1 saved.subscriptions)).world f).1 hf
    have hpath : st.rx.path = splitLevels f := (isLevels_iff _ _).mp g3
    have hw : srv1.world = ((((srv.enter q).2.2.begin uuid true).1).restoreSubscriptions
      ((srv.enter q).1.mapStore (saveStart ((srv.enter q).2.2.begin uuid true).1 saved.subscriptions)).world
        saved.subscriptions).2 := by
      rw [e3]
      simp only [Server.start, if_true, hfind, hd]
      rfl
    obtain ⟨topics, t1, t2, t3⟩ := hfa.retained.lookup f hvf
    rw [hlog] at t2 t3
    rw [← hw] at g2 g4
    exact ⟨st, sent, topics, by rw [restoreWill_subscriptions]; exact g1, hpath, by rw [← hpath]; exact g4, g5, t1, t2,
      by rw [g2]; exact t3⟩

/-- C39: what a client that resumes its session from the storage is sent for a filter it had, exactly: a mailbox (as in
C112) begins anew, with the retained messages the filter matches. -/
theorem C39_mailbox (cfg : AuthConfig) (srv : Server) (hr : srv.Reachable cfg) (c : Nat) (q : ConnectPacket) (uuid : Str)
    (ha : Admitted cfg srv c q) (hclean : q.flags.cleanStart = false)
    (hmem : srv.sessions.get q.payload.clientId = none) (saved : SessionState)
    (hst : srv.store.loadSession q.payload.clientId = some saved) (f : Str) (hf : f ∈ saved.subscriptions)
    (es : List Event) :
    let srv1 := (srv.step cfg (.first c (.connect q) uuid true)).1
    let before := Call.publications srv.world.log
    CalmRun cfg c f srv1 es → (∀ x ∈ published cfg srv1 es, ValidTopic x.1) →
    ∃ topics : List Str, topics.Nodup ∧
      (∀ t, t ∈ topics ↔ Matches f t ∧ (retainedOf t before).isSome) ∧
      srv1.delivered cfg c f es =
        (drawn cfg c f srv1 ⟨topics.filterMap (fun t => retainedOf t before), []⟩ es).map (forwarded f) := by
  intro srv1 before hc hv
  obtain ⟨i1, i2, s3, h4, _, h6⟩ := restored (uuid := uuid) hr ha hclean hmem hst
  obtain ⟨st, sent, topics, g1, g2, g3, g4, t1, t2, t3⟩ := h6 f hf (hr.sound.stored _ _ hst f hf)
  refine ⟨topics, t1, t2, ?_⟩
  have hb : st.box sent = ⟨topics.filterMap (fun t => retainedOf t before), []⟩ := by
    unfold SubStream.box
    rw [g4, List.drop_length, t3]; rfl
  rw [draws cfg c f es i1 i2 h4 g1 g2 g3 (by omega) hc hv, hb]

/-- After a restart with the same storage, the client `x` that had subscribed to `a/+` comes back; it is sent the
message published on `a/b` afterwards. -/
example : let srv := Server.init.run {} [.first 0 (.connect (exConnect (str "x") false)) (str "u") true,
        .recv 0 (.subscribe ⟨7, none, [⟨str "a/+", {}⟩]⟩), .restart]
    let es : List Event := [.recv 3 (.publish { topicName := str "a/b", payload := some [3] }), .deliver 3 (str "a/+")]
    Admitted {} srv 3 (exConnect (str "x") false) ∧ srv.sessions.get (str "x") = none ∧
    srv.store.loadSession (str "x") = some ⟨str "x", [str "a/+"], false⟩ ∧
    calmB {} 3 (str "a/+") (srv.step {} (.first 3 (.connect (exConnect (str "x") false)) (str "u") true)).1 es = true ∧
    (srv.step {} (.first 3 (.connect (exConnect (str "x") false)) (str "u") true)).1.delivered {} 3 (str "a/+") es =
      [.publish { topicName := str "a/+", payload := some [3] }] := by
  refine ⟨⟨?_, by simp⟩, by decide +kernel⟩
  rw [isOpen_iff]; decide +kernel

/-! ## The identifier the server has chosen -/

/-- Nobody who connects in the history names identifier `cid`. -/
def Spec.NobodyNames (cid : Str) (es : List Event) : Prop :=
  ∀ c q u w, Event.first c (.connect q) u w ∈ es → q.payload.clientId ≠ cid

theorem not_in_memory (cfg : AuthConfig) {cid : Str} (es : List Event) (hn : NobodyNames cid es) :
    (Server.init.run cfg es).sessions.get cid = none := by
  induction es using snoc_induction with
  | h0 => rfl
  | hs es e ih =>
    have ih := ih (fun c q u w h => hn c q u w (List.mem_append_left _ h))
    rw [run_snoc]
    by_cases h1 : ∃ c p u w, e = .first c p u w
    · obtain ⟨c, p, u, w, rfl⟩ := h1
      rcases step_first_cases cfg (Server.init.run cfg es) c p u w with ⟨h', _⟩ | ⟨q, rfl, _, h'⟩
      · rw [h']; exact ih
      · rw [h']
        have hne := hn c q u w (by simp)
        obtain ⟨r, _, h2, _⟩ := start_effect (Server.init.run cfg es) c q u w
        rcases h2 with ⟨_, _, _, h2, _⟩ | ⟨_, _, h2⟩
        · rw [h2]; exact ih
        · rw [h2, if_neg hne]; exact ih
    · by_cases h2 : e = .restart
      · subst h2; rfl
      · rw [(calm cfg _ (fun c p u w he => h1 ⟨c, p, u, w, he⟩) h2).table]; exact ih

/-- On connection `c`, and with no other client that gives no identifier resuming its session, nothing changes the
identifier of its session. -/
theorem keeps_id (cfg : AuthConfig) {c : Nat} {uuid : Str} (es : List Event) : ∀ {srv : Server}, Inv srv →
    (∀ k s, srv.conns.get c = some k → srv.heap.get k.session = some s → s.clientId = uuid ∧ k.key = []) →
    (∀ d p u w, Event.first d p u w ∈ es → d ≠ c) →
    (∀ d q u w, Event.first d (.connect q) u w ∈ es → q.payload.clientId = [] → q.flags.cleanStart = true) →
    ∀ s, (srv.run cfg es).at c = some s → s.clientId = uuid := by
  induction es with
  | nil =>
    intro srv _ h _ _ s hs
    obtain ⟨k, h1, h2⟩ := at_eq_some.mp hs
    exact (h k s h1 h2).1
  | cons e es ih =>
    intro srv hi h hc ha s hs
    refine ih (hi.step cfg e) ?_ (fun d p u w hm => hc d p u w (List.mem_cons_of_mem _ hm))
      (fun d q u w hm => ha d q u w (List.mem_cons_of_mem _ hm)) s hs
    by_cases h1 : ∃ d p u w, e = .first d p u w
    · obtain ⟨d, p, u, w, rfl⟩ := h1
      rcases step_first_cases cfg srv d p u w with ⟨h', _⟩ | ⟨q, rfl, _, h'⟩
      · rw [h']; exact h
      · rw [h']
        have hd := hc d _ u w List.mem_cons_self
        obtain ⟨r, ⟨s', hh⟩, h2, h3⟩ := start_effect srv d q u w
        intro k s hk hs
        have hk0 : srv.conns.get c = some k := by
          rw [h3] at hk
          split at hk
          · rw [Map.get_insert, if_neg hd] at hk; exact hk
          · exact hk
        have hr : r ≠ k.session := by
          rintro rfl
          rcases h2 with ⟨q1, q2, _⟩ | ⟨q1, _⟩
          · have := hi.keyed c k _ hk0 q2
            obtain ⟨s0, hs0⟩ := (hi.conns c k hk0).2
            have h0 := (h k s0 hk0 hs0).2
            rw [ha d q u w List.mem_cons_self (this.symm.trans h0)] at q1
            cases q1
          · have := (hi.conns c k hk0).1
            omega
        rw [hh, Map.get_insert, if_neg hr] at hs
        exact h k s hk0 hs
    · by_cases h2 : e = .restart
      · subst h2
        intro k s hk
        cases hk
      · have hcalm := calm cfg srv (e := e) (fun d p u w he => h1 ⟨d, p, u, w, he⟩) h2
        intro k s hk hs
        obtain ⟨s0, h4, h5⟩ := hcalm.heap _ _ hs
        have hk0 : srv.conns.get c = some k := by
          have hloc : ∀ d, LocalTo d e → srv.conns.get c = some k := by
            intro d hl
            rcases (step_local cfg srv hl).conns with h6 | h6
            · rw [h6] at hk; exact hk
            · rw [h6] at hk; exact (get_erase_some _ _ _ _ hk)
          cases e with
          | first d p u w => exact absurd ⟨d, p, u, w, rfl⟩ h1
          | recv d p => exact hloc d (.recv p)
          | deliver d f => exact hloc d (.deliver f)
          | close d => exact hloc d .close
          | abort d => exact get_erase_some _ _ _ _ hk
          | restart => exact absurd rfl h2
        obtain ⟨h6, h7⟩ := h k s0 hk0 h4
        exact ⟨h5.trans h6, h7⟩

/-! ## C118 -/

/-- A client comes without an identifier, is given one, subscribes or unsubscribes, leaves and comes back under it:
after `es0` it connects on connection `c` and is given `uuid`; after `es1` the connection is still open and its
SUBSCRIBE or UNSUBSCRIBE `p` arrives; after `es2` it connects on `c'`, naming `uuid` and not asking for a clean
start. -/
structure Spec.ComesBack (cfg : AuthConfig) (es0 : List Event) (c : Nat) (p0 : ConnectPacket) (uuid : Str)
    (es1 : List Event) (p : Packet) (es2 : List Event) (c' : Nat) (q : ConnectPacket) : Prop where
  admitted : Admitted cfg (Server.init.run cfg es0) c p0
  anonymous : p0.payload.clientId = []
  chosen : uuid ≠ []
  /-- nobody else uses the identifier -/
  nobody : NobodyNames uuid (es0 ++ es1)
  own : ∀ d x u w, Event.first d x u w ∈ es1 → d ≠ c
  /-- others without an identifier ask for a clean start, as otherwise they are given the same session (C45) -/
  clean : ∀ d y u w, Event.first d (.connect y) u w ∈ es1 → y.payload.clientId = [] → y.flags.cleanStart = true
  change : (∃ x, p = .subscribe x) ∨ ∃ x, p = .unsubscribe x
  still : (Server.init.run cfg (es0 ++ .first c (.connect p0) uuid true :: es1)).isOpen c
  /-- `p` is its last SUBSCRIBE or UNSUBSCRIBE, and nobody else uses the identifier -/
  last : LeavesStored cfg uuid (Server.init.run cfg (es0 ++ .first c (.connect p0) uuid true :: es1 ++ [.recv c p])) es2
  names : q.payload.clientId = uuid
  resumes : q.flags.cleanStart = false
  back : Admitted cfg (Server.init.run cfg (es0 ++ .first c (.connect p0) uuid true :: es1 ++ .recv c p :: es2)) c' q

theorem leaves_names {cfg : AuthConfig} {cid : Str} (es : List Event) : ∀ {srv : Server}, LeavesStored cfg cid srv es →
    NobodyNames cid es := by
  induction es with
  | nil => intro srv _ c q u w h; cases h
  | cons e es ih =>
    intro srv h c q u w hm
    rcases List.mem_cons.mp hm with rfl | hm
    · exact fun hc => h.1 (Or.inl hc)
    · exact ih h.2 c q u w hm

theorem Spec.ComesBack.saved {cfg : AuthConfig} {es0 : List Event} {c : Nat} {p0 : ConnectPacket} {uuid : Str}
    {es1 : List Event} {p : Packet} {es2 : List Event} {c' : Nat} {q : ConnectPacket}
    (h : ComesBack cfg es0 c p0 uuid es1 p es2 c' q) :
    let srv1 := Server.init.run cfg (es0 ++ .first c (.connect p0) uuid true :: es1 ++ [.recv c p])
    let srv2 := Server.init.run cfg (es0 ++ .first c (.connect p0) uuid true :: es1 ++ .recv c p :: es2)
    ∃ s1, srv1.at c = some s1 ∧ srv2.sessions.get q.payload.clientId = none ∧
      srv2.store.loadSession q.payload.clientId = some ⟨uuid, s1.filters, false⟩ := by
  intro srv1 srv2
  obtain ⟨k0, hk0⟩ := h.still
  have hr : (Server.init.run cfg (es0 ++ .first c (.connect p0) uuid true :: es1)).Reachable cfg := ⟨_, rfl⟩
  obtain ⟨s, hs0⟩ := (hr.inv.conns c k0 hk0).2
  have hs : (Server.init.run cfg (es0 ++ .first c (.connect p0) uuid true :: es1)).at c = some s :=
    at_eq_some.mpr ⟨k0, hk0, hs0⟩
  have hid : s.clientId = uuid := by
    rw [run_append, run_cons] at hs
    refine keeps_id cfg es1 (Inv.step cfg (Reachable.inv (cfg := cfg) ⟨_, rfl⟩) _) ?_ h.own h.clean s hs
    intro k s hk hh
    rw [step_first h.admitted] at hk hh
    simp only [Server.start, if_true, conns_put, heap_put] at hk hh
    rw [Map.get_insert, if_pos rfl] at hk
    cases hk
    simp only [Map.get_insert, if_true, Option.some.injEq] at hh
    obtain ⟨n1, n2, _⟩ := enter_session ((Server.init.run cfg es0).discard p0.payload.clientId p0.flags.cleanStart) p0
    obtain ⟨_, b2, _⟩ := begin_eq _ uuid ((Server.init.run cfg es0).find p0.payload.clientId p0.flags.cleanStart).resume
      p0 n1 n2
    refine ⟨?_, h.anonymous⟩
    rw [← hh, restoreWill_client, restoreSubscriptions_client, b2]
    unfold identity; rw [if_pos h.anonymous]
  obtain ⟨s1, h1, hid1, hload⟩ := C39_saved cfg _ c s hs p h.change
  rw [hid1, hid] at hload
  have e1 : srv1 = ((Server.init.run cfg (es0 ++ .first c (.connect p0) uuid true :: es1)).step cfg (.recv c p)).1 :=
    run_snoc _ _ _ _
  have e2 : srv2 = srv1.run cfg es2 := by
    show Server.init.run cfg (es0 ++ .first c (.connect p0) uuid true :: es1 ++ .recv c p :: es2) = _
    rw [show es0 ++ .first c (.connect p0) uuid true :: es1 ++ .recv c p :: es2 =
      (es0 ++ .first c (.connect p0) uuid true :: es1 ++ [.recv c p]) ++ es2 by simp, run_append]
  rw [h.names]
  refine ⟨s1, by rw [e1]; exact h1, ?_, ?_⟩
  · apply not_in_memory
    intro d y u w hm
    simp only [List.mem_append, List.mem_cons, Event.first.injEq, reduceCtorEq, false_or] at hm
    rcases hm with (hm | ⟨_, hy, _⟩ | hm) | hm
    · exact h.nobody d y u w (List.mem_append_left _ hm)
    · cases hy
      rw [h.anonymous]; exact Ne.symm h.chosen
    · exact h.nobody d y u w (List.mem_append_right _ hm)
    · exact leaves_names es2 h.last d y u w hm
  · rw [e2, (leaves_run cfg es2 h.last).1]
    exact (congrArg (fun x => x.store.loadSession uuid) e1).trans hload

/-- C118 (partial): a client that was given an identifier by the server (an MQTT 5 client is told it in the CONNACK) and
comes back under it finds its session: it is told so, it has exactly the subscriptions it had, and it is sent again exactly the messages it has not
acknowledged, each once, marked as duplicates.  Missing, because it is false (`C118_away_lost_false`): the messages
published while it was away. -/
theorem C118_found_partial (cfg : AuthConfig) (es0 : List Event) (c : Nat) (p0 : ConnectPacket) (uuid : Str)
    (es1 : List Event) (p : Packet) (es2 : List Event) (c' : Nat) (q : ConnectPacket)
    (h : ComesBack cfg es0 c p0 uuid es1 p es2 c' q) (u : Str) :
    let srv1 := Server.init.run cfg (es0 ++ .first c (.connect p0) uuid true :: es1 ++ [.recv c p])
    let all := es0 ++ .first c (.connect p0) uuid true :: es1 ++ .recv c p :: es2
    let r := (Server.init.run cfg all).step cfg (.first c' (.connect q) u true)
    (p0.protocolVersion = .v5 → ∃ ack rest,
      ((Server.init.run cfg es0).step cfg (.first c (.connect p0) uuid true)).2.sent = .connAck ack :: rest ∧
      ack.properties = some { assignedClientId := some uuid }) ∧
    (∃ s1 s3, srv1.at c = some s1 ∧ r.1.at c' = some s3 ∧ ∀ f, f ∈ s3.filters ↔ f ∈ s1.filters) ∧
    ∃ again : List Inflight, r.2.sent = .connAck (connAckOf q u true) :: again.map resent ∧
      (again.map (·.packetId)).Nodup ∧
      ∀ i, i ∈ again ↔ unacknowledged cfg uuid i.packetId Server.init none all = some i := by
  intro srv1 all r
  obtain ⟨s1, h1, h2, h3⟩ := h.saved
  have hr : (Server.init.run cfg all).Reachable cfg := ⟨_, rfl⟩
  obtain ⟨_, _, s3, h4, h5, _⟩ := restored (uuid := u) hr h.back h.resumes h2 h3
  refine ⟨fun hv => ?_, ⟨s1, s3, h1, h4, h5⟩, ?_⟩
  · obtain ⟨present, rest, g, _⟩ := C44_session_present cfg _ c p0 uuid h.admitted
    exact ⟨_, _, g, if_pos ⟨h.anonymous, hv⟩⟩
  obtain ⟨ack, again, g1, g2, g3⟩ := C41_resent cfg all c' q u h.back h.resumes h2 (by rw [h3]; rfl)
  obtain ⟨present, rest, g4, g5⟩ := C44_session_present cfg (Server.init.run cfg all) c' q u h.back
  have hp : present = true := g5.mpr ⟨h.resumes, Or.inr ⟨_, h3⟩⟩
  subst hp
  rw [g1] at g4
  simp only [List.cons.injEq, Packet.connAck.injEq] at g4
  refine ⟨again, by rw [← g4.1]; exact g1, g2, ?_⟩
  rw [h.names] at g3
  exact g3

/-- C118: what it is sent after it has come back, exactly: for each filter it had, a mailbox (as in C112) begins
anew, with the retained messages the filter matches. -/
theorem C118_mailbox (cfg : AuthConfig) (es0 : List Event) (c : Nat) (p0 : ConnectPacket) (uuid : Str)
    (es1 : List Event) (p : Packet) (es2 : List Event) (c' : Nat) (q : ConnectPacket)
    (h : ComesBack cfg es0 c p0 uuid es1 p es2 c' q) (u : Str) (f : Str) :
    let srv1 := Server.init.run cfg (es0 ++ .first c (.connect p0) uuid true :: es1 ++ [.recv c p])
    let srv2 := Server.init.run cfg (es0 ++ .first c (.connect p0) uuid true :: es1 ++ .recv c p :: es2)
    let srv3 := (srv2.step cfg (.first c' (.connect q) u true)).1
    let before := Call.publications srv2.world.log
    ∀ s1, srv1.at c = some s1 → f ∈ s1.filters →
    ∀ es, CalmRun cfg c' f srv3 es → (∀ x ∈ published cfg srv3 es, ValidTopic x.1) →
    ∃ topics : List Str, topics.Nodup ∧
      (∀ t, t ∈ topics ↔ Matches f t ∧ (retainedOf t before).isSome) ∧
      srv3.delivered cfg c' f es =
        (drawn cfg c' f srv3 ⟨topics.filterMap (fun t => retainedOf t before), []⟩ es).map (forwarded f) := by
  intro srv1 srv2 srv3 before s1 h1 hf es hc hv
  obtain ⟨s1', h1', h2, h3⟩ := h.saved
  have : s1' = s1 := Option.some.inj (h1'.symm.trans h1)
  subst this
  exact C39_mailbox cfg srv2 ⟨_, rfl⟩ c' q u h.back h.resumes h2 _ h3 f hf es hc hv

/-- C118 is false for the messages published while the client is away, always: unless they are retained, it is never
sent them, whatever their QoS; all it is sent for a filter is published after it has come back. -/
theorem C118_away_lost_false (cfg : AuthConfig) (es0 : List Event) (c : Nat) (p0 : ConnectPacket) (uuid : Str)
    (es1 : List Event) (p : Packet) (es2 : List Event) (c' : Nat) (q : ConnectPacket)
    (h : ComesBack cfg es0 c p0 uuid es1 p es2 c' q) (u : Str) (f : Str) :
    let srv1 := Server.init.run cfg (es0 ++ .first c (.connect p0) uuid true :: es1 ++ [.recv c p])
    let srv2 := Server.init.run cfg (es0 ++ .first c (.connect p0) uuid true :: es1 ++ .recv c p :: es2)
    let srv3 := (srv2.step cfg (.first c' (.connect q) u true)).1
    (∀ t, Matches f t → retainedOf t (Call.publications srv2.world.log) = none) →
    ∀ s1, srv1.at c = some s1 → f ∈ s1.filters →
    ∀ es, CalmRun cfg c' f srv3 es → (∀ x ∈ published cfg srv3 es, ValidTopic x.1) →
      (srv3.delivered cfg c' f es).Sublist ((matching f (published cfg srv3 es)).map (forwarded f)) := by
  intro srv1 srv2 srv3 hn s1 h1 hf es hc hv
  obtain ⟨topics, _, t2, t3⟩ := C118_mailbox cfg es0 c p0 uuid es1 p es2 c' q h u f s1 h1 hf es hc hv
  have : topics = [] := by
    cases topics with
    | nil => rfl
    | cons t ts =>
      obtain ⟨g1, g2⟩ := (t2 t).mp List.mem_cons_self
      rw [hn t g1] at g2; cases g2
  subst this
  rw [t3]
  have := drawn_sublist cfg c' f es srv3 ⟨[], []⟩
  exact this.map _

/-! A client without an identifier is given `id`, subscribes to `a/+`, is sent a QoS 1 message it does not acknowledge,
and leaves; another message is published while it is away.  When it comes back as `id` it is told that its session is
present and is sent the first message again, but nothing of the second one; a third one reaches it. -/

/-- What happens between its SUBSCRIBE and its return. -/
def exMeantime : List Event := [.first 1 (.connect (exConnect (str "y") true)) (str "v") true,
  .recv 1 (.publish { qos := .atLeastOnce, topicName := str "a/b", packetId := some 1, payload := some [1] }),
  .deliver 0 (str "a/+"), .close 0,
  .recv 1 (.publish { qos := .atLeastOnce, topicName := str "a/b", packetId := some 2, payload := some [2] })]
/-- Its SUBSCRIBE. -/
def exAsking : Packet := .subscribe ⟨7, none, [⟨str "a/+", {}⟩]⟩
/-- Everything until its return. -/
def exStayed : List Event := [.first 0 (.connect (exConnect [] true)) (str "id") true] ++ .recv 0 exAsking :: exMeantime
/-- What happens afterwards. -/
def exReturned : List Event := [.deliver 2 (str "a/+"),
  .recv 1 (.publish { qos := .atLeastOnce, topicName := str "a/b", packetId := some 3, payload := some [3] }),
  .deliver 2 (str "a/+")]

theorem exComesBack : ComesBack {} [] 0 (exConnect [] true) (str "id") [] exAsking exMeantime 2
    (exConnect (str "id") false) := by
  refine ⟨⟨?_, by simp⟩, rfl, by decide +kernel, fun c q u w h => by simp at h, fun d x u w h => by simp at h,
    fun d x u w h => by simp at h, Or.inl ⟨_, rfl⟩, ?_, ⟨?_, ?_, ?_, ?_, ?_, trivial⟩, rfl, rfl, ⟨?_, by simp⟩⟩
  · rw [isOpen_iff]; decide +kernel
  · rw [isOpen_iff]; decide +kernel
  · simp only [Event.Stores]; decide +kernel
  · exact id
  · exact id
  · exact id
  · exact id
  · rw [isOpen_iff]; decide +kernel

example : ((Server.init.run {} exStayed).step {} (.first 2 (.connect (exConnect (str "id") false)) (str "w") true)).2.sent =
      [.connAck (connAckOf (exConnect (str "id") false) (str "w") true),
        .publish { dup := true, qos := .atLeastOnce, topicName := str "a/+", packetId := some 1, payload := some [1] }] ∧
    calmB {} 2 (str "a/+") ((Server.init.run {} exStayed).step {}
      (.first 2 (.connect (exConnect (str "id") false)) (str "w") true)).1 exReturned = true ∧
    ((Server.init.run {} exStayed).step {} (.first 2 (.connect (exConnect (str "id") false)) (str "w") true)).1.delivered {}
      2 (str "a/+") exReturned =
        [.publish { qos := .atLeastOnce, topicName := str "a/+", packetId := some 3, payload := some [3] }] ∧
    ((Server.init.run {} (exStayed.take 2)).at 0).map (·.filters) = some [str "a/+"] := by decide +kernel

end Mercurio
