import Verif.Lemmas.Plain

/-!
# C133: the server is a plain broker
-/

namespace Mercurio

open Spec Server

/-! ## The end of a connection -/

theorem Fit.put {srv : Server} (hF : Fit srv) {w : World} {cs : List Call} (hg : srv.world.Grows w cs) {s : Session}
    (hs : AllGood w s) (r : Nat) : Fit ({ srv with world := w }.put r s) := by
  refine ⟨hg.after, fun r' s' h => ?_⟩
  have h' : (srv.heap.insert r s).get r' = some s' := h
  rw [Map.get_insert] at h'
  split at h'
  · cases h'; exact hs
  · exact (hF.streams r' s' h').grow hg

theorem who_open {srv : Server} {c : Nat} {k : Conn} {s : Session} (hk : srv.conns.get c = some k)
    (hs : srv.heap.get k.session = some s) :
    (plainOf srv).who c = some (k.session, profileOf srv.world.broker.tree s) := by
  simp [Plain.who, plainOf, hk, hs]

theorem put_same {srv : Server} {r : Nat} {s s' : Session} (hs : srv.heap.get r = some s)
    (he : profileOf srv.world.broker.tree s' = profileOf srv.world.broker.tree s) :
    plainOf (srv.put r s') = plainOf srv := by
  rw [plainOf_put, upd_self _ _ (by rw [he]; simp [plainOf, hs])]

theorem plainOf_modify {srv : Server} {r : Nat} {s s' : Session} (g : Profile → Profile)
    (hs : srv.heap.get r = some s)
    (he : profileOf srv.world.broker.tree s' = g (profileOf srv.world.broker.tree s)) :
    plainOf (srv.put r s') = (plainOf srv).modify r g := by
  rw [plainOf_put, he]
  have : (plainOf srv).account r = some (profileOf srv.world.broker.tree s) := by simp [plainOf, hs]
  simp only [Plain.modify, this, Option.map_some]

theorem plainOf_finish {srv : Server} {c : Nat} {k : Conn} {s : Session} (hk : srv.conns.get c = some k)
    (hF : Fit (srv.put k.session s)) (hw : ∀ w, s.will = some w → ValidTopic w.topic) :
    plainOf (srv.finish c k.session s) = (plainOf (srv.put k.session s)).hangUp c := by
  have hwho := who_open (srv := srv.put k.session s) hk (s := s) (by simp [Server.put, Map.get_insert])
  unfold Plain.hangUp
  rw [hwho]
  unfold Server.finish
  cases hwill : s.will with
  | none =>
    simp only [profileOf, hwill]
    exact plainOf_conns (srv.put k.session s) c
  | some w =>
    simp only [profileOf, hwill]
    rw [plainOf_deleteWill, plainOf_put]
    have hF' : Fit { srv.put k.session s with conns := srv.conns.erase c } := ⟨hF.faithful, hF.streams⟩
    have e1 : plainOf { srv.put k.session s with conns := srv.conns.erase c } = (plainOf (srv.put k.session s)).drop c :=
      plainOf_conns _ _
    have e2 := plainOf_publish hF' (.will c) (willMessage w) (hw w hwill)
    rw [e1] at e2
    have e3 : (⟨none, w.topic, false, w.qos, w.retain, some w.payload⟩ : Message) = willMessage w := rfl
    rw [e3, ← e2]
    have e4 := plainOf_put { srv with conns := srv.conns.erase c, world := srv.world.publish (.will c) w.topic (willMessage w) }
      k.session s
    have e5 : plainOf { ({ srv.put k.session s with conns := srv.conns.erase c } : Server) with
        world := (srv.put k.session s).world.publish (.will c) w.topic (willMessage w) } = _ := e4
    simp only [Plain.modify]
    erw [e5]
    simp only [upd_same, upd_upd, Option.map_some]
    rfl

/-! ## A packet -/

theorem Fit.conns {srv : Server} (h : Fit srv) (cs : Map Nat Conn) : Fit { srv with conns := cs } := ⟨h.faithful, h.streams⟩

theorem codes_eq (g : SubStream → Mailbox) (fs : List Str) : ∀ m : Map Str SubStream,
    (Session.unsubscribeLoop m fs).2 = Plain.codes (fun f => (m.get f).map g) fs := by
  induction fs with
  | nil => intro m; rfl
  | cons f fs ih =>
    intro m
    simp only [Session.unsubscribeLoop, Plain.codes]
    rw [ih, get_erase_upd, map_upd, Option.map_none]
    have : (if (m.get f).isSome then ReasonCode.success else .noSubscriptionExisted) =
        open Classical in if (m.get f).map g = none then .noSubscriptionExisted else ReasonCode.success := by
      rcases h : m.get f with _ | x <;> simp
    rw [this]

theorem fresh_box {w : World} {f : Str} {st : SubStream} (h : Fresh w f st) :
    st.box (channelOf w.broker.tree st.rx) = ⟨w.broker.store.getRetained f, []⟩ := by
  obtain ⟨h1, _, sent, h3, h4⟩ := h
  rw [channelOf_eq h3]
  unfold SubStream.box
  rw [h1, h4, List.drop_length]; rfl

/-- The mailboxes after subscribing. -/
theorem opens_loop {srv : Server} (hF : Fit srv) {s : Session} (hs : AllGood srv.world s) (fs : List Str) :
    (plainOf srv).Opens (profileOf srv.world.broker.tree s).boxes (· ∈ fs)
      (profileOf (s.subscribeLoop srv.world fs).2.1.broker.tree (s.subscribeLoop srv.world fs).1).boxes := by
  intro f
  obtain ⟨h1, h2⟩ := subscribeLoop_get fs s srv.world f
  refine ⟨fun hf => ?_, fun hf => ?_⟩
  · obtain ⟨st, hst, hfr⟩ := h1 hf
    obtain ⟨topics, t1, t2, t3⟩ := hF.faithful.retained.lookup f hf.2
    refine ⟨_, ⟨topics, t1, t2, rfl⟩, ?_⟩
    simp only [profileOf, hst, Option.map_some]
    rw [fresh_box hfr, (subscribeLoop_world fs s srv.world).1, t3]
    rfl
  · simp only [profileOf]
    rw [h2 hf]
    cases hst : s.subscriptions.get f with
    | none => rfl
    | some st =>
      have hG := hs f st hst
      obtain ⟨sent, c1, c2⟩ := hG.channel
      have c3 := (subscribeLoop_world fs s srv.world).2 _ _ c1
      simp only [Option.map_some]
      rw [channelOf_eq (by rw [hG.path]; exact c3), channelOf_eq (by rw [hG.path]; exact c1)]

theorem filters_boxes (t : TopicTree Message) (s : Session) (f : Str) :
    f ∈ s.filters ↔ (profileOf t s).boxes f ≠ none := by
  rw [Session.filters, ← Map.get_isSome]
  simp only [profileOf]
  cases s.subscriptions.get f <;> simp

/-- The state after a SUBSCRIBE or UNSUBSCRIBE. -/
theorem plainOf_filed {srv : Server} {r : Nat} {s s' : Session} (hs : srv.heap.get r = some s)
    (hname : s'.clientId = s.clientId) (hver : s'.connect.protocolVersion = s.connect.protocolVersion)
    (hwill : s'.will = s.will) (hauth : s'.authMethod = s.authMethod) :
    plainOf ((srv.mapStore fun st => st.saveSession s'.clientId (stateOf s'.clientId s'.filters)).put r s') =
      (plainOf srv).file r s.clientId (profileOf srv.world.broker.tree s').boxes := by
  rw [plainOf_put, plainOf_saveSession]
  have ha : (plainOf srv).account r = some (profileOf srv.world.broker.tree s) := by simp [plainOf, hs]
  simp only [Plain.file, Plain.modify, ha, Option.map_some]
  ext1
  · rfl
  · simp only [hname]
    congr 2
    funext f
    exact propext (filters_boxes srv.world.broker.tree s' f)
  · rfl
  · rfl
  · rfl
  · show upd _ _ _ = upd _ _ _
    congr 2
    ext1
    · exact hname
    · exact hver
    · rfl
    · exact hwill
    · exact hauth
  · rfl

theorem packetCalls_quiet (c : Nat) {p : Packet} (h : ∀ q, p ≠ .publish q) : Call.publications (packetCalls c p) = [] := by
  cases p with
  | publish q => exact absurd rfl (h q)
  | subscribe q =>
    simp only [packetCalls]
    generalize (List.filter _ _ : List Str) = l
    induction l with
    | nil => rfl
    | cons a l ih => exact ih
  | _ => rfl

theorem handleAuth_eq (s : Session) (w : World) (m : AuthManager) (p : AuthPacket) :
    ∃ r, s.handleAuth w (some m) p = ⟨{ s with authMethod := (Plain.authStep m s.authMethod p).1 }, w, r⟩ ∧
      ((Plain.authStep m s.authMethod p).2 = none ∧ (∃ e, r = .error e) ∨
        ∃ x, (Plain.authStep m s.authMethod p).2 = some x ∧ r = .ok (some x)) := by
  obtain ⟨reason, ⟨method, data, x1, x2⟩⟩ := p
  obtain ⟨cn, cid, subs, un, pr, wl, current⟩ := s
  simp only [Session.handleAuth, Plain.authStep, Session.authStart, Session.authContinue]
  by_cases h1 : reason = .reAuthenticate
  · subst h1
    cases method with
    | none => exact ⟨_, rfl, Or.inl ⟨rfl, _, rfl⟩⟩
    | some x =>
      simp only []
      by_cases hs : m.supportsMethod x = true
      · simp only [hs, if_true]
        cases m.startAuth x data with
        | success => exact ⟨_, rfl, Or.inr ⟨_, rfl, rfl⟩⟩
        | «continue» d => exact ⟨_, rfl, Or.inr ⟨_, rfl, rfl⟩⟩
        | failed r => exact ⟨_, rfl, Or.inl ⟨rfl, _, rfl⟩⟩
      · simp only [hs, if_false]
        exact ⟨_, rfl, Or.inl ⟨rfl, _, rfl⟩⟩
  · by_cases h2 : reason = .continueAuthentication
    · subst h2
      cases current with
      | none => exact ⟨_, rfl, Or.inl ⟨rfl, _, rfl⟩⟩
      | some x =>
        cases data with
        | none => exact ⟨_, rfl, Or.inl ⟨rfl, _, rfl⟩⟩
        | some d =>
          simp only []
          cases m.continueAuth x d with
          | success => exact ⟨_, rfl, Or.inr ⟨_, rfl, rfl⟩⟩
          | «continue» d => exact ⟨_, rfl, Or.inr ⟨_, rfl, rfl⟩⟩
          | failed r => exact ⟨_, rfl, Or.inl ⟨rfl, _, rfl⟩⟩
    · cases reason <;> first | exact absurd rfl h1 | exact absurd rfl h2 | exact ⟨_, rfl, Or.inl ⟨rfl, _, rfl⟩⟩

/-- A packet on an open connection. -/
theorem recv_plain {cfg : AuthConfig} {srv : Server} (hF : Fit srv) {c : Nat} {k : Conn} {s : Session}
    (hk : srv.conns.get c = some k) (hs : srv.heap.get k.session = some s)
    (hw : ∀ w, s.will = some w → ValidTopic w.topic) (p : Packet) :
    (plainOf srv).Receives cfg c k.session (profileOf srv.world.broker.tree s) p
      (plainOf (srv.recv cfg c k.session s p).1) (srv.recv cfg c k.session s p).2.sent ∧
    (srv.recv cfg c k.session s p).2.panicked = false := by
  have hA := hF.streams _ _ hs
  have hself : Fit ({ srv with world := srv.world }.put k.session s) := hF.put (grows_refl hF.faithful) hA _
  have hend : plainOf (srv.finish c k.session s) = (plainOf srv).hangUp c := by
    rw [plainOf_finish hk hself hw, put_same hs rfl]
  cases p with
  | publish p =>
    by_cases hv : ValidTopic p.topicName
    · simp only [Plain.Receives, if_pos hv]
      have hpub := plainOf_publish hF (.client c) (Session.messageOf p) hv
      have hh : s.processIncoming srv.world cfg.manager c (.publish p) =
          ⟨s.notePublish p, srv.world.publish (.client c) p.topicName (Session.messageOf p), Session.publishResponse p⟩ := by
        simp only [Session.processIncoming, Session.handlePublish, ok_of_valid hv]
      have hg : srv.world.Grows (srv.world.publish (.client c) p.topicName (Session.messageOf p))
          [.publish (.client c) p.topicName (Session.messageOf p)] :=
        ⟨hF.faithful, hF.faithful.publish _ _ _, rfl, by simp⟩
      have hprof : ∀ t, profileOf t (s.notePublish p) = profileOf t s := by
        intro t
        unfold Session.notePublish
        cases p.qos <;> cases p.packetId <;> rfl
      have hA' : AllGood (srv.world.publish (.client c) p.topicName (Session.messageOf p)) (s.notePublish p) := by
        refine (hA.grow hg).congr ?_
        unfold Session.notePublish
        cases p.qos <;> cases p.packetId <;> rfl
      have hfin : plainOf (({ srv with world := srv.world.publish (.client c) p.topicName (Session.messageOf p) } : Server).finish c
          k.session (s.notePublish p)) = ((plainOf srv).publish p.topicName (Session.messageOf p)).hangUp c := by
        rw [plainOf_finish (srv := { srv with world := srv.world.publish (.client c) p.topicName (Session.messageOf p) }) (k := k)
          hk (hF.put hg hA' _) (by
          have := congrArg Profile.will (hprof srv.world.broker.tree)
          intro w h
          exact hw w (this.symm.trans h)), put_same (srv := { srv with world := srv.world.publish (.client c) p.topicName (Session.messageOf p) }) (s := s) hs (hprof _), hpub]
      have hok : plainOf (({ srv with world := srv.world.publish (.client c) p.topicName (Session.messageOf p) } : Server).put
          k.session (s.notePublish p)) = (plainOf srv).publish p.topicName (Session.messageOf p) := by
        rw [put_same (srv := { srv with world := srv.world.publish (.client c) p.topicName (Session.messageOf p) }) (s := s) hs (hprof _), hpub]
      simp only [Server.recv, hh]
      change ((plainOf srv).publish p.topicName (Session.messageOf p)).Answered c p _ _ ∧ _
      clear hh hpub hg hA'
      generalize Session.messageOf p = m at *
      unfold Plain.Answered Session.publishResponse
      cases hq : p.qos <;> cases hi : p.packetId <;> simp only [hq, hi] at hfin hok ⊢ <;>
        first | exact ⟨⟨hok, by trivial⟩, by trivial⟩ | exact ⟨⟨hfin, by trivial⟩, by trivial⟩
    · simp only [Plain.Receives, if_neg hv]
      obtain ⟨e, he⟩ := error_of_invalid hv
      simp only [Server.recv, Session.processIncoming, Session.handlePublish, he]
      exact ⟨⟨hend, trivial⟩, trivial⟩
  | subscribe p =>
    have hg := processIncoming_grows hF.faithful s cfg.manager c (.subscribe p)
    obtain ⟨subs, hsub⟩ := subscribeLoop_session (p.payload.map (·.topicFilter)) s srv.world
    have hworld := plainOf_world hF hg (packetCalls_quiet c (by simp)) (subscribeLoop_world _ s srv.world).1
    refine ⟨⟨_, opens_loop hF hA _, ?_, ?_⟩, rfl⟩
    · rw [← hworld]
      exact plainOf_filed (srv := { srv with world := (s.processIncoming srv.world cfg.manager c (.subscribe p)).world })
        (s' := (s.subscribeLoop srv.world (p.payload.map (·.topicFilter))).1) hs
        (by rw [hsub]) (by rw [hsub]) (by rw [hsub]) (by rw [hsub])
    · show [Packet.subAck _] = _
      rw [subscribeLoop_codes, List.map_map]; rfl
  | unsubscribe p =>
    refine ⟨⟨?_, ?_⟩, rfl⟩
    · have := plainOf_filed (srv := srv) (s' := { s with subscriptions := (Session.unsubscribeLoop s.subscriptions p.payload).1 }) hs
        rfl rfl rfl rfl
      refine Eq.trans this ?_
      congr 1
      funext f
      show ((Session.unsubscribeLoop s.subscriptions p.payload).1.get f).map _ = _
      rw [(unsubscribeLoop_eq p.payload s.subscriptions).2 f]
      by_cases hf : f ∈ p.payload <;> simp [hf, profileOf]
    · show [Packet.unsubAck _] = _
      rw [codes_eq fun st => st.box (channelOf srv.world.broker.tree st.rx)]; rfl
  | disconnect d =>
    refine ⟨⟨?_, rfl⟩, rfl⟩
    show plainOf (((srv.mapStore fun st => st.deleteWill s.clientId).finish c k.session { s with will := none })) = _
    have e : (srv.mapStore fun st => st.deleteWill s.clientId).finish c k.session { s with will := none } =
      ({ srv with conns := srv.conns.erase c }.put k.session { s with will := none }).mapStore fun st => st.deleteWill s.clientId := rfl
    rw [e, plainOf_deleteWill, plainOf_modify (srv := { srv with conns := srv.conns.erase c }) (s := s)
      (s' := { s with will := none }) (fun s => { s with will := none }) hs rfl, plainOf_conns]
    rfl
  | auth p =>
    simp only [Plain.Receives, Server.recv, Session.processIncoming]
    cases hm : cfg.manager with
    | none => exact ⟨⟨hend, rfl⟩, rfl⟩
    | some m =>
      obtain ⟨r, hh, hr⟩ := handleAuth_eq s srv.world m p
      rw [hh]
      simp only []
      have hprof : (profileOf srv.world.broker.tree s).auth = s.authMethod := rfl
      rw [hprof]
      have hmod := plainOf_modify (srv := srv) (s := s) (s' := { s with authMethod := (Plain.authStep m s.authMethod p).1 })
        (fun x => { x with auth := (Plain.authStep m s.authMethod p).1 }) hs rfl
      rcases hr with ⟨hr, e, rfl⟩ | ⟨x, hr, rfl⟩ <;> rw [hr]
      · simp only []
        refine ⟨⟨?_, trivial⟩, trivial⟩
        rw [← hmod]
        exact plainOf_finish (s := { s with authMethod := (Plain.authStep m s.authMethod p).1 }) hk
          (hF.put (s := { s with authMethod := (Plain.authStep m s.authMethod p).1 }) (grows_refl hF.faithful) (hA.congr rfl) _) hw
      · simp only []
        refine ⟨⟨?_, rfl⟩, trivial⟩
        rw [← hmod]
        rfl
  | pubAck a =>
    refine ⟨⟨?_, rfl⟩, rfl⟩
    have := put_same (srv := srv.mapStore fun st => st.removeInflight s.clientId a.packetId)
      (s' := { s with unacked := s.unacked.erase a.packetId }) hs rfl
    rw [plainOf_removeInflight] at this
    exact this
  | pubComp a =>
    refine ⟨⟨?_, rfl⟩, rfl⟩
    have := put_same (srv := srv.mapStore fun st => st.removeInflight s.clientId a.packetId)
      (s' := { s with pubrecs := s.pubrecs.erase a.packetId }) hs rfl
    rw [plainOf_removeInflight] at this
    exact this
  | pubRec a => 
    refine ⟨⟨?_, rfl⟩, rfl⟩
    exact put_same hs rfl
  | pubRel a =>
    refine ⟨⟨?_, rfl⟩, rfl⟩
    exact put_same hs rfl
  | pingReq =>
    refine ⟨⟨?_, rfl⟩, rfl⟩
    exact put_same hs rfl
  | _ => exact ⟨⟨hend, rfl⟩, rfl⟩

/-! ## A message for a subscriber -/

theorem deliver_plain {srv : Server} (hF : Fit srv) {c : Nat} {k : Conn} {s : Session}
    (hs : srv.heap.get k.session = some s) (f : Str) :
    (plainOf srv).Sends c k.session (profileOf srv.world.broker.tree s) f
      (plainOf (srv.deliver c k.session s f).1) (srv.deliver c k.session s f).2 := by
  have hA := hF.streams _ _ hs
  unfold Plain.Sends Server.deliver Session.processOutgoing
  cases hst : s.subscriptions.get f with
  | none =>
    simp only [profileOf, hst, Option.map_none]
    exact ⟨trivial, trivial⟩
  | some st =>
    have hG := hA f st hst
    obtain ⟨sent, h1, h2⟩ := hG.channel
    have h1' : TopicNode.sentAt srv.world.broker.tree st.rx.path = some sent := by rw [hG.path]; exact h1
    have hbox : (profileOf srv.world.broker.tree s).boxes f = some (st.box sent) := by
      simp only [profileOf, hst, Option.map_some]
      rw [channelOf_eq h1']
    simp only [hbox]
    rcases poll_box h1' h2 with ⟨hp, ht⟩ | ⟨m, st', hp, ht⟩
    · simp only [hp, ht]
      exact ⟨trivial, trivial⟩
    · simp only [hp, ht]
      obtain ⟨hpath, _⟩ := poll_some h1' h2 hp
      have hprof : profileOf srv.world.broker.tree { s with subscriptions := s.subscriptions.insert f st' } =
          { profileOf srv.world.broker.tree s with
            boxes := upd (profileOf srv.world.broker.tree s).boxes f (some (st'.box sent)) } := by
        ext1 <;> first | rfl | skip
        show (fun g => ((s.subscriptions.insert f st').get g).map _) = _
        rw [get_insert_upd, map_upd, Option.map_some, channelOf_eq (by rw [hpath]; exact h1')]
        rfl
      have hput : ∀ s' : Session, profileOf srv.world.broker.tree s' =
            profileOf srv.world.broker.tree { s with subscriptions := s.subscriptions.insert f st' } →
          plainOf (srv.put k.session s') = (plainOf srv).modify k.session fun s => { s with boxes := upd s.boxes f (some (st'.box sent)) } :=
        fun s' he => plainOf_modify (srv := srv) (s := s) (s' := s')
          (fun s => { s with boxes := upd s.boxes f (some (st'.box sent)) }) hs (he.trans hprof)
      cases hi : m.packetId with
      | none =>
        simp only [Session.noteOutgoing, Session.outgoingPacket, hi]
        exact ⟨hput _ rfl, by simp [forwarded, hi]⟩
      | some id =>
        cases hq : m.qos with
        | atMostOnce =>
          simp only [Session.noteOutgoing, Session.outgoingPacket, hi, hq]
          exact ⟨hput _ rfl, by simp [forwarded, hi, hq]⟩
        | invalid =>
          simp only [Session.noteOutgoing, Session.outgoingPacket, hi, hq]
          refine ⟨?_, trivial⟩
          rw [← hput _ rfl]
          exact plainOf_conns (srv.put k.session _) c
        | atLeastOnce =>
          simp only [Session.noteOutgoing, Session.outgoingPacket, hi, hq]
          refine ⟨?_, by simp [forwarded, hi, hq]⟩
          refine Eq.trans (plainOf_storeInflight (srv.put k.session { s with
            subscriptions := s.subscriptions.insert f st'
            unacked := s.unacked.insert id ⟨m.dup, .atLeastOnce, false, f, some id, none, m.payload⟩ }) _ _ _) ?_
          exact congrArg (fun b => Plain.note b s.clientId id _) (hput { s with
            subscriptions := s.subscriptions.insert f st'
            unacked := s.unacked.insert id ⟨m.dup, .atLeastOnce, false, f, some id, none, m.payload⟩ } rfl)
        | exactlyOnce =>
          simp only [Session.noteOutgoing, Session.outgoingPacket, hi, hq]
          refine ⟨?_, by simp [forwarded, hi, hq]⟩
          refine Eq.trans (plainOf_storeInflight (srv.put k.session { s with
            subscriptions := s.subscriptions.insert f st'
            unacked := s.unacked.insert id ⟨m.dup, .exactlyOnce, false, f, some id, none, m.payload⟩ }) _ _ _) ?_
          exact congrArg (fun b => Plain.note b s.clientId id _) (hput { s with
            subscriptions := s.subscriptions.insert f st'
            unacked := s.unacked.insert id ⟨m.dup, .exactlyOnce, false, f, some id, none, m.payload⟩ } rfl)

/-! ## A client is let in -/

theorem restore_loop (fs : List Str) : ∀ (s : Session) (w : World), (∀ f ∈ fs, ValidFilter f) →
    s.restoreSubscriptions w fs = ((s.subscribeLoop w fs).1, (s.subscribeLoop w fs).2.1) := by
  induction fs with
  | nil => intro s w _; rfl
  | cons f fs ih =>
    intro s w h
    rw [subscribeLoop_cons_valid _ _ _ (h f (by simp))]
    exact ih _ _ fun g hg => h g (by simp [hg])

theorem plainOf_discard (srv : Server) (id : Str) (clean : Bool) :
    plainOf (srv.discard id clean) = if clean then (plainOf srv).forget id else plainOf srv := by
  cases clean with
  | false => rfl
  | true =>
    simp only [if_true]
    ext1
    · rfl
    · show (fun n => ((srv.store.sessions.erase id).get n).map _) = _
      rw [get_erase_upd, map_upd]; rfl
    · show (srv.store.wills.erase id).get = _
      rw [get_erase_upd]; rfl
    · rfl
    · show (srv.sessions.erase id).get = _
      rw [get_erase_upd]; rfl
    · rfl
    · rfl

theorem Fit.discard {srv : Server} (h : Fit srv) (id : Str) (clean : Bool) : Fit (srv.discard id clean) := by
  cases clean with
  | false => exact h
  | true =>
    have hf : (srv.world.mapStore fun s => (s.deleteSession id).deleteWill id).Faithful :=
      h.faithful.mapStore fun s => rfl
    exact ⟨hf, fun r s hs => (h.streams r s hs).grow (grows_of_log h.faithful hf rfl)⟩

theorem find_discard (srv : Server) (id : Str) (clean : Bool) :
    srv.find id clean = (srv.discard id clean).find id false := by
  cases clean with
  | false => rfl
  | true =>
    have h1 : (srv.discard id true).sessions.get id = none := discard_clean_get srv id
    have h2 : (srv.discard id true).store.loadSession id = none := by
      show (srv.store.sessions.erase id).get id = none
      simp [Map.get_erase]
    simp [Server.find, h1, h2]

theorem plainOf_saveStart (srv : Server) (s : Session) (subs : List Str) :
    plainOf (srv.mapStore (saveStart s subs)) =
      { plainOf srv with
        kept := upd (plainOf srv).kept s.clientId (some (· ∈ subs))
        wills := match s.will with
          | none => (plainOf srv).wills
          | some w => upd (plainOf srv).wills s.clientId (some w) } := by
  have e := plainOf_saveSession srv s.clientId (stateOf s.clientId subs)
  cases hw : s.will with
  | none =>
    have : srv.mapStore (saveStart s subs) = srv.mapStore fun st => st.saveSession s.clientId (stateOf s.clientId subs) := by
      unfold saveStart; simp only [hw]
    rw [this, e]; rfl
  | some w =>
    have : srv.mapStore (saveStart s subs) =
        (srv.mapStore fun st => st.saveSession s.clientId (stateOf s.clientId subs)).mapStore fun st => st.storeWill s.clientId w := by
      unfold saveStart; simp only [hw]; rfl
    rw [this, plainOf_storeWill, e]; rfl

/-- What is known of a server when a client comes. -/
structure Able (srv : Server) : Prop where
  fit : Fit srv
  table : ∀ key r, srv.sessions.get key = some r → ∃ s, srv.heap.get r = some s
  fresh : srv.heap.get srv.fresh = none
  stored : ∀ cid st, srv.store.sessions.get cid = some st → ∀ f ∈ st.subscriptions, ValidFilter f
  owed : ∀ cid, (plainOf srv).Owes cid (srv.store.getAllInflight cid)

theorem Able.discard {srv : Server} (h : Able srv) (id : Str) (clean : Bool) : Able (srv.discard id clean) := by
  cases clean with
  | false => exact h
  | true =>
    refine ⟨h.fit.discard id true, fun key r hk => ?_, h.fresh, fun cid st hc => ?_, h.owed⟩
    · have hk' : (srv.sessions.erase id).get key = some r := hk
      rw [Map.get_erase] at hk'
      split at hk'
      · simp at hk'
      · exact h.table key r hk'
    · have hc' : (srv.store.sessions.erase id).get cid = some st := hc
      rw [Map.get_erase] at hc'
      split at hc'
      · simp at hc'
      · exact h.stored cid st hc'

/-- What a client that comes in finds. -/
theorem found_eq (srv : Server) (id : Str) :
    (srv.find id false).resume = decide ((srv.sessions.get id).isSome ∨ (srv.store.loadSession id).isSome) ∧
    (∀ f, f ∈ (srv.find id false).subscriptions ↔ srv.sessions.get id = none ∧ ∃ st, srv.store.loadSession id = some st ∧ f ∈ st.subscriptions) ∧
    (srv.find id false).will = (if (srv.sessions.get id).isSome ∨ srv.store.loadSession id = none then none else srv.store.getWill id) ∧
    (srv.find id false).inflight =
      (if (srv.sessions.get id).isSome ∨ srv.store.loadSession id = none then [] else srv.store.getAllInflight id) := by
  unfold Server.find
  cases h1 : srv.sessions.get id <;> cases h2 : srv.store.loadSession id <;> simp [Found.none]

theorem start_plain {srv : Server} (h : Able srv) (c : Nat) (p : ConnectPacket) (uuid : Str) (written : Bool) :
    (plainOf srv).Begins c p uuid written (plainOf (srv.start c p uuid written).1) (srv.start c p uuid written).2 := by
  unfold Plain.Begins Server.start
  simp only []
  rw [find_discard, ← plainOf_discard]
  have hq := h.discard p.payload.clientId p.flags.cleanStart
  generalize srv.discard p.payload.clientId p.flags.cleanStart = q at hq ⊢
  clear h srv
  obtain ⟨f1, f2, f3, f4⟩ := found_eq q p.payload.clientId
  have hvalid : ∀ f ∈ (q.find p.payload.clientId false).subscriptions, ValidFilter f := by
    intro f hf
    obtain ⟨_, st, h1, h2⟩ := (f2 f).mp hf
    exact hq.stored _ st h1 f h2
  generalize q.find p.payload.clientId false = found at *
  -- the session entered, and the profile there was before
  have hent : ∃ s0, (plainOf q).Enters p.payload.clientId (q.enter p).2.1 s0 (plainOf (q.enter p).1) ∧
      AllGood q.world (q.enter p).2.2 ∧ (q.enter p).1.world = q.world ∧
      s0.boxes = (profileOf q.world.broker.tree (q.enter p).2.2).boxes ∧ s0.auth = (q.enter p).2.2.authMethod ∧
      Fit (q.enter p).1 := by
    unfold Server.enter Plain.Enters
    cases hk : q.sessions.get p.payload.clientId with
    | none =>
      have hk' : (plainOf q).known p.payload.clientId = none := hk
      simp only [hk']
      refine ⟨profileOf q.world.broker.tree (Session.new p), ⟨?_, rfl, rfl, ?_⟩, ?_, by trivial, by trivial, by trivial, ⟨hq.fit.faithful, hq.fit.streams⟩⟩
      · simp [plainOf, hq.fresh]
      · ext1 <;> first | rfl | exact get_insert_upd _ _ _
      · intro f st hst; simp [Session.new, Map.get] at hst
    | some r =>
      have hk' : (plainOf q).known p.payload.clientId = some r := hk
      obtain ⟨s, hs⟩ := hq.table _ _ hk
      simp only [hk', hs]
      exact ⟨profileOf q.world.broker.tree s, ⟨trivial, by simp [plainOf, hs], trivial⟩, (hq.fit.streams r s hs).congr rfl, by trivial, by trivial, by trivial, hq.fit⟩
  obtain ⟨s0, hE, hA, hW, hB, hAu, hF1⟩ := hent
  obtain ⟨n1, n2, n3⟩ := enter_session q p
  obtain ⟨b1, b2, b3, b4, _, _, b7⟩ := begin_eq _ uuid found.resume p n1 n2
  have b8 : ((q.enter p).2.2.begin uuid found.resume).1.connect.protocolVersion = p.protocolVersion := by
    refine Eq.trans ?_ (congrArg ConnectPacket.protocolVersion n1)
    unfold Session.begin; split <;> rfl
  generalize ((q.enter p).2.2.begin uuid found.resume) = b at *
  have hA1 : AllGood (q.enter p).1.world b.1 := by rw [hW]; exact hA.congr b4
  have hprof : ({ s0 with name := (if p.payload.clientId = [] then uuid else p.payload.clientId), version := p.protocolVersion, will := willIn p } : Profile) = profileOf (q.enter p).1.world.broker.tree b.1 := by
    rw [hW]
    ext1
    · exact b2.symm
    · exact b8.symm
    · rw [hB]; simp only [profileOf, b4]
    · simp only [profileOf, b3, n3]
      unfold willIn willOfConnect
      cases p.flags.willFlag <;> cases p.payload.willTopic <;> rfl
    · rw [hAu]; exact b7.symm
  refine ⟨(q.enter p).2.1, s0, plainOf (q.enter p).1, hE, ?_⟩
  have hprof' := hprof
  cases written with
  | false =>
    simp only [Bool.false_eq_true, if_false]
    rw [hprof]
    exact ⟨plainOf_put _ _ _, trivial⟩
  | true =>
    simp only [if_true]
    have hname : (if p.payload.clientId = [] then uuid else p.payload.clientId) = b.1.clientId := b2.symm
    have hwill : willIn p = b.1.will := (congrArg Profile.will hprof :)
    have hboxes : s0.boxes = (profileOf (q.enter p).1.world.broker.tree b.1).boxes := (congrArg Profile.boxes hprof :)
    have hauth : s0.auth = b.1.authMethod := (congrArg Profile.auth hprof :)
    have hrest : (fun f => ∃ fs, (if (plainOf q).known p.payload.clientId = none then (plainOf q).kept p.payload.clientId
        else none) = some fs ∧ fs f) = (· ∈ found.subscriptions) := by
      funext f
      rw [f2 f]
      simp only [plainOf]
      rcases Option.eq_none_or_eq_some (q.sessions.get p.payload.clientId) with h1 | ⟨r, h1⟩ <;>
        rcases Option.eq_none_or_eq_some (q.store.loadSession p.payload.clientId) with h2 | ⟨st, h2⟩ <;> simp [h1, h2]
    have hnone : ((if (plainOf q).known p.payload.clientId = none then (plainOf q).kept p.payload.clientId else none) = none) =
        ((q.sessions.get p.payload.clientId).isSome ∨ q.store.loadSession p.payload.clientId = none) := by
      simp only [plainOf]
      rcases Option.eq_none_or_eq_some (q.sessions.get p.payload.clientId) with h1 | ⟨r, h1⟩ <;>
        rcases Option.eq_none_or_eq_some (q.store.loadSession p.payload.clientId) with h2 | ⟨st, h2⟩ <;> simp [h1, h2]
    have hpresent : ((plainOf q).known p.payload.clientId ≠ none ∨
        (if (plainOf q).known p.payload.clientId = none then (plainOf q).kept p.payload.clientId else none) ≠ none) =
        ((q.sessions.get p.payload.clientId).isSome ∨ (q.store.loadSession p.payload.clientId).isSome) := by
      simp only [plainOf]
      rcases Option.eq_none_or_eq_some (q.sessions.get p.payload.clientId) with h1 | ⟨r, h1⟩ <;>
        rcases Option.eq_none_or_eq_some (q.store.loadSession p.payload.clientId) with h2 | ⟨st, h2⟩ <;> simp [h1, h2]
    simp only [hname, hwill, hrest, hnone, hpresent]
    -- the storage updates
    have hFs : Fit ((q.enter p).1.mapStore (saveStart b.1 found.subscriptions)) := by
      have hf : ((q.enter p).1.world.mapStore (saveStart b.1 found.subscriptions)).Faithful :=
        hF1.faithful.mapStore fun st => by unfold saveStart; cases b.1.will <;> rfl
      exact ⟨hf, fun r s hs => (hF1.streams r s hs).grow (grows_of_log hF1.faithful hf rfl)⟩
    have hAs : AllGood ((q.enter p).1.mapStore (saveStart b.1 found.subscriptions)).world b.1 :=
      hA1.grow (grows_of_log hF1.faithful hFs.faithful rfl)
    have hplain := plainOf_saveStart (q.enter p).1 b.1 found.subscriptions
    have hret : (plainOf ((q.enter p).1.mapStore (saveStart b.1 found.subscriptions))).retained = (plainOf q).retained := by
      show (fun t => retainedOf t (Call.publications (q.enter p).1.world.log)) = _
      rw [hW]; rfl
    have htree : ((q.enter p).1.mapStore (saveStart b.1 found.subscriptions)).world.broker.tree =
      (q.enter p).1.world.broker.tree := rfl
    have hconns : ((q.enter p).1.mapStore (saveStart b.1 found.subscriptions)).conns = (q.enter p).1.conns := rfl
    have hopen := opens_loop hFs hAs found.subscriptions
    rw [htree, ← hboxes] at hopen
    generalize hX : (q.enter p).1.mapStore (saveStart b.1 found.subscriptions) = X at *
    rw [restore_loop _ _ _ hvalid]
    obtain ⟨subs, hsub⟩ := subscribeLoop_session found.subscriptions b.1 X.world
    have hg : X.world.Grows (b.1.subscribeLoop X.world found.subscriptions).2.1 ((found.subscriptions.filter fun f =>
        open Classical in decide (ValidFilter f)).map Call.subscribe) :=
      ⟨hFs.faithful, hFs.faithful.subscribeLoop _ _, log_subscribeLoop _ _ _, by simp⟩
    have hworld := plainOf_world hFs hg (by
      generalize (List.filter _ _ : List Str) = l
      induction l with
      | nil => rfl
      | cons a l ih => exact ih) (subscribeLoop_world _ b.1 X.world).1
    refine ⟨(profileOf (b.1.subscribeLoop X.world found.subscriptions).2.1.broker.tree (b.1.subscribeLoop X.world found.subscriptions).1).boxes,
      found.inflight, ?_, ?_, ?_, ?_⟩
    · intro f
      obtain ⟨o1, o2⟩ := hopen f
      refine ⟨fun hf => ?_, o2⟩
      obtain ⟨rs, ⟨topics, t1, t2, t3⟩, o3⟩ := o1 hf
      rw [hret] at t2 t3
      exact ⟨rs, ⟨topics, t1, t2, t3⟩, o3⟩
    · rw [f4]
      by_cases hn : (q.sessions.get p.payload.clientId).isSome = true ∨ q.store.loadSession p.payload.clientId = none
      · simp only [if_pos hn]
      · simp only [if_neg hn]; exact hq.owed _
    · rw [plainOf_put]
      have e2 : plainOf { X with world := (b.1.subscribeLoop X.world found.subscriptions).2.1, conns := X.conns.insert c (Conn.mk (q.enter p).2.1 p.payload.clientId) } =
          { plainOf { X with world := (b.1.subscribeLoop X.world found.subscriptions).2.1 } with
            conn := upd (plainOf X).conn c (some (q.enter p).2.1) } := by
        ext1 <;> first | rfl | skip
        show (fun c' => ((X.conns.insert c _).get c').map _) = _
        rw [get_insert_upd, map_upd]; rfl
      rw [e2, hworld, hplain]
      ext1
      · rfl
      · rfl
      · rfl
      · rfl
      · rfl
      · show upd _ _ _ = upd _ _ _
        congr 2
        rw [f3, hsub]
        ext1
        · show (restoreWill _ _).clientId = _
          unfold restoreWill; split <;> rfl
        · show (restoreWill _ _).connect.protocolVersion = _
          rw [← b8]; unfold restoreWill; split <;> rfl
        · show (fun f => ((restoreWill _ _).subscriptions.get f).map _) = (fun f => (Session.subscriptions _ |>.get f).map _)
          unfold restoreWill; split <;> rfl
        · show (restoreWill _ _).will = _
          unfold restoreWill
          split
          · rename_i w hw
            split at hw
            · simp at hw
            · rename_i hn
              rw [if_neg hn]
              show _ = (q.store.getWill p.payload.clientId).or _
              rw [hw]; rfl
          · rename_i hw
            split at hw
            · rename_i hn; rw [if_pos hn]
            · rename_i hn
              rw [if_neg hn]
              show _ = (q.store.getWill p.payload.clientId).or _
              rw [hw]; rfl
        · show (restoreWill _ _).authMethod = _
          rw [hauth]; unfold restoreWill; split <;> rfl
      · rfl
    · rw [b1, f1]
      congr 1

/-! ## Wills have valid topics -/

/-- All wills have valid topics. -/
structure Spec.Plain.Fair (b : Plain) : Prop where
  account : ∀ n s w, b.account n = some s → s.will = some w → ValidTopic w.topic
  wills : ∀ name w, b.wills name = some w → ValidTopic w.topic

theorem Spec.Plain.Fair.publish {b : Plain} (h : b.Fair) (t : Str) (m : Message) : (b.publish t m).Fair := by
  refine ⟨fun n s w hs hw => ?_, h.wills⟩
  simp only [Plain.publish, Option.map_eq_some_iff] at hs
  obtain ⟨s0, h0, rfl⟩ := hs
  exact h.account n s0 w h0 hw

theorem Spec.Plain.Fair.modify {b : Plain} (h : b.Fair) (n : Nat) {g : Profile → Profile}
    (hg : ∀ s w, (g s).will = some w → s.will = some w) : (b.modify n g).Fair := by
  refine ⟨fun n' s w hs hw => ?_, h.wills⟩
  simp only [Plain.modify, upd] at hs
  split at hs
  · rw [Option.map_eq_some_iff] at hs
    obtain ⟨s0, h0, rfl⟩ := hs
    exact h.account n s0 w h0 (hg s0 w hw)
  · exact h.account n' s w hs hw

theorem Spec.Plain.Fair.drop {b : Plain} (h : b.Fair) (c : Nat) : (b.drop c).Fair := ⟨h.account, h.wills⟩

theorem Spec.Plain.Fair.noWill {b : Plain} (h : b.Fair) (name : Str) :
    ({ b with wills := upd b.wills name none } : Plain).Fair := by
  refine ⟨h.account, fun n w hw => ?_⟩
  simp only [upd] at hw
  split at hw
  · simp at hw
  · exact h.wills n w hw

theorem Spec.Plain.Fair.hangUp {b : Plain} (h : b.Fair) (c : Nat) : (b.hangUp c).Fair := by
  unfold Plain.hangUp
  split
  · exact h
  · split
    · exact h.drop c
    · exact (((h.drop c).publish _ _).modify _ (by simp)).noWill _

theorem Spec.Plain.Fair.note {b : Plain} (h : b.Fair) (name : Str) (id : UInt16) (i : Option Inflight) :
    (b.note name id i).Fair := ⟨h.account, h.wills⟩

theorem Spec.Plain.Fair.file {b : Plain} (h : b.Fair) (n : Nat) (name : Str) (boxes : Str → Option Mailbox) :
    (b.file n name boxes).Fair := by
  have := h.modify n (g := fun s => { s with boxes := boxes }) (fun s w hw => hw)
  exact ⟨this.account, this.wills⟩

theorem Spec.Plain.Fair.receives {cfg : AuthConfig} {b b' : Plain} (h : b.Fair) {c n : Nat} {s : Profile} {p : Packet}
    {out : List Packet} (hr : b.Receives cfg c n s p b' out) : b'.Fair := by
  cases p with
  | publish p =>
    simp only [Plain.Receives] at hr
    split at hr
    · unfold Plain.Answered at hr
      split at hr <;> rw [hr.1]
      · exact h.publish _ _
      · exact h.publish _ _
      · exact h.publish _ _
      · exact (h.publish _ _).hangUp c
    · rw [hr.1]; exact h.hangUp c
  | pubAck a => rw [hr.1]; exact h.note _ _ _
  | pubComp a => rw [hr.1]; exact h.note _ _ _
  | pubRec a => rw [hr.1]; exact h
  | pubRel a => rw [hr.1]; exact h
  | pingReq => rw [hr.1]; exact h
  | subscribe p =>
    obtain ⟨boxes, _, e, _⟩ := hr
    rw [e]; exact h.file _ _ _
  | unsubscribe p => rw [hr.1]; exact h.file _ _ _
  | disconnect d =>
    rw [hr.1]
    exact ((h.drop c).modify n (g := fun s => { s with will := none }) (by simp)).noWill s.name
  | auth p =>
    simp only [Plain.Receives] at hr
    split at hr
    · rw [hr.1]; exact h.hangUp c
    · rename_i m _
      have hm : (b.modify n fun x => { x with auth := (Plain.authStep m s.auth p).1 }).Fair := h.modify n (fun s w hw => hw)
      split at hr
      · rw [hr.1]; exact hm.hangUp c
      · rw [hr.1]; exact hm
  | _ => rw [hr.1]; exact h.hangUp c

theorem Spec.Plain.Fair.sends {b b' : Plain} (h : b.Fair) {c n : Nat} {s : Profile} {f : Str} {out : Out}
    (hr : b.Sends c n s f b' out) : b'.Fair := by
  unfold Plain.Sends at hr
  split at hr
  · rw [hr.1]; exact h
  · split at hr
    · rw [hr.1]; exact h
    · rename_i rest _
      have hm : ∀ x : Option Mailbox, (b.modify n fun s => { s with boxes := upd s.boxes f x }).Fair :=
        fun x => h.modify n (fun s w hw => hw)
      simp only [] at hr
      split at hr <;> rw [hr.1]
      · exact (hm _).drop c
      · exact (hm _).note _ _ _
      · exact (hm _).note _ _ _
      · exact hm _

theorem Spec.Plain.Fair.begins {b b' : Plain} (h : b.Fair) {c : Nat} {p : ConnectPacket} {uuid : Str} {written : Bool} {out : Out}
    (hp : ∀ w, willIn p = some w → ValidTopic w.topic) (hr : b.Begins c p uuid written b' out) : b'.Fair := by
  unfold Plain.Begins at hr
  simp only [] at hr
  have h1 : (if p.flags.cleanStart then b.forget p.payload.clientId else b).Fair := by
    split
    · have := h.noWill p.payload.clientId
      exact ⟨this.account, this.wills⟩
    · exact h
  generalize (if p.flags.cleanStart then b.forget p.payload.clientId else b) = q at h1 hr
  obtain ⟨n, s, b1, he, hr⟩ := hr
  have h2 : b1.Fair ∧ b1.wills = q.wills := by
    unfold Plain.Enters at he
    split at he
    · rw [he.2.2]; exact ⟨h1, rfl⟩
    · rw [he.2.2.2]; exact ⟨⟨h1.account, h1.wills⟩, rfl⟩
  have hset : ∀ (x : Profile) (n' : Nat) (s' : Profile) (w : StoredWill), (∀ w, x.will = some w → ValidTopic w.topic) →
      upd b1.account n (some x) n' = some s' → s'.will = some w → ValidTopic w.topic := by
    intro x n' s' w hx hs hw
    simp only [upd] at hs
    split at hs
    · cases hs; exact hx w hw
    · exact h2.1.account n' s' w hs hw
  split at hr
  · obtain ⟨boxes, again, _, _, e, _⟩ := hr
    rw [e]
    refine ⟨fun n' s' w hs hw => hset _ n' s' w ?_ hs hw, fun name w hw => ?_⟩
    · intro w hw
      have hw' : (if (if q.known p.payload.clientId = none then q.kept p.payload.clientId else none) = none then willIn p
        else (q.wills p.payload.clientId).or (willIn p)) = some w := hw
      generalize (if q.known p.payload.clientId = none then q.kept p.payload.clientId else none) = z at hw'
      split at hw'
      · exact hp w hw'
      · rcases Option.eq_none_or_eq_some (q.wills p.payload.clientId) with hq | ⟨x, hq⟩
        · rw [hq] at hw'; exact hp w hw'
        · rw [hq] at hw'
          simp only [Option.some_or, Option.some.injEq] at hw'
          rw [← hw']; exact h1.wills _ _ hq
    · rcases Option.eq_none_or_eq_some (willIn p) with hn | ⟨w', hs⟩
      · simp only [hn] at hw
        exact h2.1.wills name w hw
      · generalize (if p.payload.clientId = [] then uuid else p.payload.clientId) = z at hw
        simp only [hs, upd] at hw
        split at hw
        · cases hw; exact hp w hs
        · exact h2.1.wills name w hw
  · rw [hr.1]
    exact ⟨fun n' s' w hs hw => hset _ n' s' w hp hs hw, h2.1.wills⟩

theorem Spec.Plain.Fair.does {cfg : AuthConfig} {b b' : Plain} (h : b.Fair) {e : Event} {out : Out}
    (hp : ∀ c p uuid written w, e = .first c (.connect p) uuid written → willIn p = some w → ValidTopic w.topic)
    (hr : b.Does cfg e b' out) : b'.Fair := by
  cases e with
  | first c p uuid written =>
    simp only [Plain.Does] at hr
    split at hr
    · rw [hr.1]; exact h
    · split at hr
      · split at hr
        · rw [hr.1]; exact h
        · exact h.begins (fun w hw => hp _ _ _ _ w rfl hw) hr
      · rw [hr.1]; exact h
  | recv c p =>
    simp only [Plain.Does] at hr
    split at hr
    · rw [hr.1]; exact h
    · obtain ⟨sent, hr, _⟩ := hr
      exact h.receives hr
  | deliver c f =>
    simp only [Plain.Does] at hr
    split at hr
    · rw [hr.1]; exact h
    · exact h.sends hr
  | close c => rw [hr.1]; exact h.hangUp c
  | abort c => rw [hr.1]; exact h.drop c
  | restart => rw [hr.1]; exact ⟨fun n s w hs => (by cases hs), h.wills⟩

/-! ## Reachable servers -/

/-- No session has a number that is still to be given. -/
theorem fresh_reachable {cfg : AuthConfig} {srv : Server} (h : srv.Reachable cfg) :
    ∀ r s, srv.heap.get r = some s → r < srv.fresh := by
  have key : Inv srv ∧ ∀ r s, srv.heap.get r = some s → r < srv.fresh := by
    refine h.induction (P := fun srv => Inv srv ∧ ∀ r s, srv.heap.get r = some s → r < srv.fresh)
      ⟨Inv.init, by simp [Server.init, Map.get]⟩ fun srv e ⟨hi, hf⟩ => ⟨hi.step cfg e, ?_⟩
    have loc : ∀ {c : Nat} {e : Event}, LocalTo c e → ∀ r s, (srv.step cfg e).1.heap.get r = some s → r < (srv.step cfg e).1.fresh := by
      intro c e he r s hr
      have hl := step_local cfg srv he
      rw [hl.fresh]
      rcases hl.heap with hh | ⟨k, s0, s1, hk, _, hh⟩
      · rw [hh] at hr; exact hf r s hr
      · rw [hh, Map.get_insert] at hr
        split at hr
        · rename_i e; rw [← e]; exact (hi.conns _ _ hk).1
        · exact hf r s hr
    cases e with
    | first c p uuid w =>
      rcases step_first_cases cfg srv c p uuid w with ⟨h', _⟩ | ⟨q, _, _, h'⟩
      · rw [h']; exact hf
      · rw [h']
        obtain ⟨r0, hh⟩ := start_effect srv c q uuid w
        intro r s hr
        obtain ⟨s', hs'⟩ := hh.heap
        rw [hs', Map.get_insert] at hr
        rcases hh.table with ⟨_, ht, _, _, he⟩ | ⟨e0, he, _⟩
        · rw [he]
          split at hr
          · rename_i e; rw [← e]; exact (hi.table _ _ ht).1
          · exact hf r s hr
        · rw [he]
          split at hr
          · omega
          · have := hf r s hr; omega
    | recv c p => exact loc (.recv p)
    | deliver c f => exact loc (.deliver f)
    | close c => exact loc .close
    | abort c => exact hf
    | restart => intro r s hr; simp [Server.step, Map.get] at hr
  exact key.2

theorem able_reachable {cfg : AuthConfig} {srv : Server} (h : srv.Reachable cfg) : Able srv := by
  refine ⟨⟨h.sound.faithful, h.sound.streams⟩, fun key r hk => (h.inv.table key r hk).2, ?_, h.sound.stored, fun cid => ?_⟩
  · rcases Option.eq_none_or_eq_some (srv.heap.get srv.fresh) with hn | ⟨s, hs⟩
    · exact hn
    · exact absurd (fresh_reachable h _ _ hs) (Nat.lt_irrefl _)
  · have hO := Server.Reachable.inflightOk h
    obtain ⟨es, rfl⟩ := h
    exact getAllInflight_iff hO cid fun id i hi => by
      rw [C41_stored] at hi; exact unacknowledged_id cfg _ _ _ _ hi

/-- One event. -/
theorem step_plain {cfg : AuthConfig} {srv : Server} (h : Able srv) (hw : (plainOf srv).Fair) (hi : Inv srv) (e : Event) :
    (plainOf srv).Does cfg e (plainOf (srv.step cfg e).1) (srv.step cfg e).2 := by
  have hwill : ∀ r s, srv.heap.get r = some s → ∀ w, s.will = some w → ValidTopic w.topic := by
    intro r s hs w hsw
    exact hw.account r (profileOf srv.world.broker.tree s) w (by simp [plainOf, hs]) hsw
  have hwho : ∀ c, srv.conns.get c = none ∧ (plainOf srv).who c = none ∨
      ∃ k s, srv.conns.get c = some k ∧ srv.heap.get k.session = some s ∧
        (plainOf srv).who c = some (k.session, profileOf srv.world.broker.tree s) := by
    intro c
    rcases Option.eq_none_or_eq_some (srv.conns.get c) with hn | ⟨k, hk⟩
    · exact Or.inl ⟨hn, by simp [Plain.who, plainOf, hn]⟩
    · obtain ⟨_, s, hs⟩ := hi.conns c k hk
      exact Or.inr ⟨k, s, hk, hs, who_open hk hs⟩
  cases e with
  | first c p uuid written =>
    simp only [Plain.Does, Server.step]
    rcases Option.eq_none_or_eq_some (srv.conns.get c) with hn | ⟨k, hk⟩
    · rw [if_neg (by simp [plainOf, hn]), if_neg (by simp [hn])]
      cases p with
      | connect p =>
        simp only []
        have ht : Plain.Trusted cfg p ↔ authenticated cfg p = true := by
          unfold Plain.Trusted authenticated
          cases p.payload.userName <;> cases p.payload.password <;> cases cfg.validator <;> simp
        unfold Server.connect
        by_cases ha : cfg.requireAuth = true ∧ ¬ Plain.Trusted cfg p
        · rw [if_pos ha, if_pos (by rw [ht] at ha; simp [ha.1, ha.2])]
          exact ⟨rfl, rfl⟩
        · rw [if_neg ha, if_neg (by rw [ht] at ha; simpa using ha)]
          exact start_plain h c p uuid written
      | _ => exact ⟨rfl, rfl⟩
    · rw [if_pos (by simp [plainOf, hk]), if_pos (by simp [hk])]
      exact ⟨rfl, rfl⟩
  | recv c p =>
    simp only [Plain.Does, Server.step, Server.onConn]
    rcases hwho c with ⟨h1, h2⟩ | ⟨k, s, h1, h2, h3⟩
    · rw [h1, h2]; exact ⟨rfl, rfl⟩
    · rw [h1, h3]
      simp only [h2]
      obtain ⟨r1, r2⟩ := recv_plain (cfg := cfg) h.fit h1 h2 (hwill _ _ h2) p
      refine ⟨_, r1, ?_⟩
      generalize (srv.recv cfg c k.session s p).2 = o at r2
      cases o; cases r2; rfl
  | deliver c f =>
    simp only [Plain.Does, Server.step, Server.onConn]
    rcases hwho c with ⟨h1, h2⟩ | ⟨k, s, h1, h2, h3⟩
    · rw [h1, h2]; exact ⟨rfl, rfl⟩
    · rw [h1, h3]
      simp only [h2]
      exact deliver_plain h.fit h2 f
  | close c =>
    simp only [Plain.Does, Server.step, Server.onConn]
    rcases hwho c with ⟨h1, h2⟩ | ⟨k, s, h1, h2, h3⟩
    · rw [h1]; simp only [Plain.hangUp, h2]; exact ⟨trivial, trivial⟩
    · rw [h1]
      simp only [h2]
      have hF : Fit ({ srv with world := srv.world }.put k.session s) :=
        h.fit.put (grows_refl h.fit.faithful) (h.fit.streams _ _ h2) _
      have := plainOf_finish h1 hF (hwill _ _ h2)
      rw [put_same h2 rfl] at this
      exact ⟨this, trivial⟩
  | abort c => exact ⟨plainOf_conns srv c, rfl⟩
  | restart =>
    refine ⟨?_, rfl⟩
    have e : Call.publications srv.world.restart.log = Call.publications srv.world.log := by
      rw [show srv.world.restart.log = srv.world.log ++ [.restart] from rfl, Call.publications_append]; simp [Call.publications]
    ext1
    · funext t; show retainedOf t (Call.publications srv.world.restart.log) = retainedOf t _; rw [e]
    all_goals rfl

theorem goes_plain {cfg : AuthConfig} (es : List Event) : ∀ srv : Server, srv.Reachable cfg → (plainOf srv).Fair →
    ProperWills es → (plainOf srv).Goes cfg (srv.trace cfg es) (plainOf (srv.run cfg es)) := by
  induction es with
  | nil => intro srv _ _ _; exact .done _
  | cons e es ih =>
    intro srv hr hf hp
    have hd := step_plain (cfg := cfg) (able_reachable hr) hf hr.inv e
    refine .step hd (ih (srv.step cfg e).1 ?_ (hf.does ?_ hd) fun c p uuid written w hm hw => hp c p uuid written w (by simp [hm]) hw)
    · obtain ⟨l, rfl⟩ := hr
      exact ⟨l ++ [e], (run_snoc cfg _ l e).symm⟩
    · rintro c p uuid written w rfl hw
      exact hp c p uuid written w (by simp) hw

/-- C133: whatever the clients do, as long as the wills they announce have valid topics, the server does what a plain broker
does (which subscription gets which message, what is retained, kept and sent again, when a will is published), event by event
and packet by packet. -/
theorem C133_refines (cfg : AuthConfig) (es : List Event) (h : ProperWills es) :
    ∃ b, Plain.new.Goes cfg (Server.init.trace cfg es) b :=
  ⟨_, goes_plain (cfg := cfg) es Server.init ⟨[], rfl⟩
    ⟨fun n s w hs => (by cases hs), fun name w hw => (by cases hw)⟩ h⟩

/-! ## What the plain broker leaves open -/

theorem answered_decided {b b1 b2 : Plain} {c : Nat} {p : PublishPacket} {o1 o2 : List Packet}
    (h1 : b.Answered c p b1 o1) (h2 : b.Answered c p b2 o2) : b1 = b2 ∧ o1 = o2 := by
  unfold Plain.Answered at h1 h2
  cases hq : p.qos <;> cases hp : p.packetId <;> rw [hq, hp] at h1 h2 <;> exact ⟨h1.1.trans h2.1.symm, h1.2.trans h2.2.symm⟩

theorem sends_decided {b b1 b2 : Plain} {c n : Nat} {s : Profile} {f : Str} {o1 o2 : Out}
    (h1 : b.Sends c n s f b1 o1) (h2 : b.Sends c n s f b2 o2) : b1 = b2 ∧ o1 = o2 := by
  unfold Plain.Sends at h1 h2
  cases hb : s.boxes f with
  | none => rw [hb] at h1 h2; exact ⟨h1.1.trans h2.1.symm, h1.2.trans h2.2.symm⟩
  | some box =>
    rw [hb] at h1 h2
    simp only [] at h1 h2
    generalize box.take = z at h1 h2
    obtain ⟨x, rest⟩ := z
    cases x with
    | none => exact ⟨h1.1.trans h2.1.symm, h1.2.trans h2.2.symm⟩
    | some m =>
      obtain ⟨id, topic, dup, qos, retain, payload⟩ := m
      cases qos <;> cases id <;> exact ⟨h1.1.trans h2.1.symm, h1.2.trans h2.2.symm⟩

theorem receives_decided {cfg : AuthConfig} {b b1 b2 : Plain} {c n : Nat} {s : Profile} {p : Packet} {o1 o2 : List Packet}
    (h1 : b.Receives cfg c n s p b1 o1) (h2 : b.Receives cfg c n s p b2 o2) :
    o1 = o2 ∧ ((∀ q, p ≠ .subscribe q) → b1 = b2) := by
  cases p with
  | publish p =>
    simp only [Plain.Receives] at h1 h2
    split at h1
    · rename_i hv
      rw [if_pos hv] at h2
      have := answered_decided h1 h2
      exact ⟨this.2, fun _ => this.1⟩
    · rename_i hv
      rw [if_neg hv] at h2
      rw [h1.1, h1.2, h2.1, h2.2]; exact ⟨rfl, fun _ => rfl⟩
  | subscribe p =>
    obtain ⟨_, _, _, e1⟩ := h1
    obtain ⟨_, _, _, e2⟩ := h2
    exact ⟨e1.trans e2.symm, fun h => absurd rfl (h p)⟩
  | auth p =>
    simp only [Plain.Receives] at h1 h2
    cases hm : cfg.manager with
    | none =>
      rw [hm] at h1 h2
      rw [h1.1, h1.2, h2.1, h2.2]; exact ⟨rfl, fun _ => rfl⟩
    | some m =>
      rw [hm] at h1 h2
      simp only [] at h1 h2
      cases hr : (Plain.authStep m s.auth p).2 <;> rw [hr] at h1 h2 <;> rw [h1.1, h1.2, h2.1, h2.2] <;> exact ⟨rfl, fun _ => rfl⟩
  | _ => rw [h1.1, h1.2, h2.1, h2.2]; exact ⟨rfl, fun _ => rfl⟩

theorem owes_perm {b : Plain} {name : Str} {l1 l2 : List Inflight} (h1 : b.Owes name l1) (h2 : b.Owes name l2) : l1.Perm l2 :=
  (List.perm_ext_iff_of_nodup (h1.1.of_map _ fun _ _ h e => h (e ▸ rfl)) (h2.1.of_map _ fun _ _ h e => h (e ▸ rfl))).mpr fun i => (h1.2 i).trans (h2.2 i).symm

theorem begins_decided {b b1 b2 : Plain} {c : Nat} {p : ConnectPacket} {uuid : Str} {written : Bool} {o1 o2 : Out}
    (h1 : b.Begins c p uuid written b1 o1) (h2 : b.Begins c p uuid written b2 o2) :
    o1.panicked = o2.panicked ∧ o1.sent.Perm o2.sent := by
  unfold Plain.Begins at h1 h2
  simp only [] at h1 h2
  obtain ⟨_, _, _, _, h1⟩ := h1
  obtain ⟨_, _, _, _, h2⟩ := h2
  cases written with
  | false =>
    simp only [Bool.false_eq_true, if_false] at h1 h2
    rw [h1.2, h2.2]; exact ⟨rfl, .refl _⟩
  | true =>
    simp only [if_true] at h1 h2
    obtain ⟨_, again1, _, a1, _, e1⟩ := h1
    obtain ⟨_, again2, _, a2, _, e2⟩ := h2
    rw [e1, e2]
    refine ⟨rfl, .cons _ (.map _ ?_)⟩
    generalize (if p.flags.cleanStart = true then b.forget p.payload.clientId else b) = q at a1 a2
    generalize (if q.known p.payload.clientId = none then q.kept p.payload.clientId else none) = r at a1 a2
    by_cases hr : r = none
    · rw [if_pos hr] at a1 a2; rw [a1, a2]
    · rw [if_neg hr] at a1 a2; exact owes_perm a1 a2

/-- The plain broker decides what is sent, up to the order of the messages sent again after a CONNECT, and it decides what it
knows from then on, except when somebody connects or subscribes (where the order of retained messages and the number of a new
account are open). -/
theorem C133_decided {cfg : AuthConfig} {b b1 b2 : Plain} {e : Event} {o1 o2 : Out} (h1 : b.Does cfg e b1 o1)
    (h2 : b.Does cfg e b2 o2) :
    o1.panicked = o2.panicked ∧ o1.sent.Perm o2.sent ∧
    ((∀ c p uuid written, e ≠ .first c p uuid written) → o1 = o2 ∧ ((∀ c p, e ≠ .recv c (.subscribe p)) → b1 = b2)) := by
  cases e with
  | first c p uuid written =>
    refine ⟨?_, ?_, fun h => absurd rfl (h c p uuid written)⟩ <;>
    · simp only [Plain.Does] at h1 h2
      by_cases hc : b.conn c ≠ none
      · rw [if_pos hc] at h1 h2
        rw [h1.2, h2.2]
      · rw [if_neg hc] at h1 h2
        cases p with
        | connect p =>
          simp only [] at h1 h2
          by_cases ha : cfg.requireAuth = true ∧ ¬ Plain.Trusted cfg p
          · rw [if_pos ha] at h1 h2
            rw [h1.2, h2.2]
          · rw [if_neg ha] at h1 h2
            have := begins_decided h1 h2
            first | exact this.1 | exact this.2
        | _ => rw [h1.2, h2.2]
  | recv c p =>
    simp only [Plain.Does] at h1 h2
    cases hw : b.who c with
    | none =>
      rw [hw] at h1 h2
      rw [h1.1, h1.2, h2.1, h2.2]
      exact ⟨rfl, .refl _, fun _ => ⟨rfl, fun _ => rfl⟩⟩
    | some ns =>
      rw [hw] at h1 h2
      obtain ⟨s1, r1, rfl⟩ := h1
      obtain ⟨s2, r2, rfl⟩ := h2
      obtain ⟨e1, e2⟩ := receives_decided r1 r2
      subst e1
      exact ⟨rfl, .refl _, fun _ => ⟨rfl, fun h => e2 fun q hq => h c q (by rw [hq])⟩⟩
  | deliver c f =>
    simp only [Plain.Does] at h1 h2
    have : b1 = b2 ∧ o1 = o2 := by
      cases hw : b.who c with
      | none =>
        rw [hw] at h1 h2
        exact ⟨h1.1.trans h2.1.symm, h1.2.trans h2.2.symm⟩
      | some ns =>
        rw [hw] at h1 h2
        exact sends_decided h1 h2
    rw [this.1, this.2]
    exact ⟨rfl, .refl _, fun _ => ⟨rfl, fun _ => rfl⟩⟩
  | close c =>
    rw [h1.1, h1.2, h2.1, h2.2]
    exact ⟨rfl, .refl _, fun _ => ⟨rfl, fun _ => rfl⟩⟩
  | abort c =>
    rw [h1.1, h1.2, h2.1, h2.2]
    exact ⟨rfl, .refl _, fun _ => ⟨rfl, fun _ => rfl⟩⟩
  | restart =>
    rw [h1.1, h1.2, h2.1, h2.2]
    exact ⟨rfl, .refl _, fun _ => ⟨rfl, fun _ => rfl⟩⟩

/-! ## Examples -/

/-- Two clients with wills come; one subscribes; the other publishes and is cut off; the first one gets the message, the server
restarts, and it comes back. -/
def exDay : List Event :=
  [.first 0 (.connect (exConnect (str "x") true)) (str "uuid") true,
   .recv 0 (.subscribe ⟨1, none, [⟨str "a/+", {}⟩, ⟨str "gone", {}⟩]⟩),
   .first 1 (.connect (exConnect (str "y") true)) (str "v") true,
   .recv 1 (.publish exPublish), .close 1, .deliver 0 (str "a/+"), .deliver 0 (str "gone"), .restart,
   .first 2 (.connect (exConnect (str "x") false)) (str "w") true]

theorem exDay_proper : ProperWills exDay := by
  have ht : ValidTopic (str "gone") := (C22_publish_topic_iff _).mp (by decide +kernel)
  intro c p uuid written w hm hw
  simp only [exDay, List.mem_cons, Event.first.injEq, Packet.connect.injEq, reduceCtorEq, false_or, or_false, List.not_mem_nil] at hm
  rcases hm with ⟨_, rfl, _⟩ | ⟨_, rfl, _⟩ | ⟨_, rfl, _⟩ <;> (cases hw; exact ht)

example : ∃ b, Plain.new.Goes exCfg (Server.init.trace exCfg exDay) b := C133_refines exCfg exDay exDay_proper

/-- The packets sent in this history. -/
example : (Server.init.trace exCfg exDay).map (fun x => x.2.sent) =
    [[.connAck { protocolVersion := .v5, sessionPresent := false }],
     [.subAck { protocolVersion := .v5, packetId := 1, payload := [.grantedQoS0, .grantedQoS0] }],
     [.connAck { protocolVersion := .v5, sessionPresent := false }],
     [.pubRec { packetId := 7 }], [],
     [.publish { qos := .exactlyOnce, topicName := str "a/+", packetId := some 7, payload := some (str "22") }],
     [.publish { qos := .atLeastOnce, topicName := str "gone", payload := some (str "bye") }], [],
     [.connAck { protocolVersion := .v5, sessionPresent := true },
      .publish { dup := true, qos := .exactlyOnce, topicName := str "a/+", packetId := some 7, payload := some (str "22") }]] := by
  decide +kernel

/-- The hypotheses of `C133_decided` hold at every step of such a history. -/
example : ∃ b1 o1, Plain.new.Does exCfg (.first 0 (.connect (exConnect (str "x") true)) (str "uuid") true) b1 o1 ∧ o1.sent.length = 1 := by
  have h := C133_refines exCfg exDay exDay_proper
  obtain ⟨b, h⟩ := h
  cases h with
  | step hd _ => exact ⟨_, _, hd, by decide +kernel⟩

end Mercurio
