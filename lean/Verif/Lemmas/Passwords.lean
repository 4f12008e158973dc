import Verif.Spec.Log

/-!
# The server without passwords
-/

namespace Mercurio

open Spec

/-- A session without the password of its CONNECT. -/
def Session.hide (s : Session) : Session := { s with connect := withoutPassword s.connect }

/-- A server without the passwords in its sessions. -/
def Server.hide (srv : Server) : Server := { srv with heap := srv.heap.map fun e => (e.1, e.2.hide) }

theorem get_hide (m : Map Nat Session) (r : Nat) :
    Map.get (m.map fun e => (e.1, e.2.hide)) r = (m.get r).map Session.hide := by
  induction m with
  | nil => rfl
  | cons e m ih =>
    obtain ⟨k, s⟩ := e
    simp only [List.map_cons, Map.get]
    split
    · rfl
    · exact ih

theorem insert_hide (m : Map Nat Session) (r : Nat) (s : Session) :
    Map.insert (m.map fun e => (e.1, e.2.hide)) r s.hide = (m.insert r s).map fun e => (e.1, e.2.hide) := by
  unfold Map.insert Map.erase
  rw [List.map_cons, List.filter_map]
  rfl

namespace Session

theorem hide_addSubscription (s : Session) (w : World) (f : Str) :
    s.hide.addSubscription w f = ((s.addSubscription w f).1.hide, (s.addSubscription w f).2) := rfl

theorem hide_restore (fs : List Str) : ∀ (s : Session) (w : World),
    s.hide.restoreSubscriptions w fs = ((s.restoreSubscriptions w fs).1.hide, (s.restoreSubscriptions w fs).2) := by
  induction fs with
  | nil => intro s w; rfl
  | cons f fs ih =>
    intro s w
    simp only [restoreSubscriptions, hide_addSubscription, ih]

theorem hide_subscribeLoop (fs : List Str) : ∀ (s : Session) (w : World),
    s.hide.subscribeLoop w fs = ((s.subscribeLoop w fs).1.hide, (s.subscribeLoop w fs).2) := by
  induction fs with
  | nil => intro s w; rfl
  | cons f fs ih =>
    intro s w
    simp only [subscribeLoop]
    split
    · simp only [ih]
    · simp only [hide_addSubscription, ih]

theorem hide_begin (s : Session) (uuid : Str) (resume : Bool) :
    s.hide.begin uuid resume = ((s.begin uuid resume).1.hide, (s.begin uuid resume).2) := by
  have h : s.hide.connect.payload.clientId = s.connect.payload.clientId := rfl
  unfold begin
  rw [h]
  split <;> rfl

theorem hide_new (p : ConnectPacket) : Session.new (withoutPassword p) = (Session.new p).hide := rfl

theorem hide_setConnect (s : Session) (p : ConnectPacket) :
    s.hide.setConnect (withoutPassword p) = (s.setConnect p).hide := rfl

/-- A packet without its password. -/
def bare : Packet → Packet
  | .connect p => .connect (withoutPassword p)
  | p => p

theorem hide_notePublish (s : Session) (p : PublishPacket) : s.hide.notePublish p = (s.notePublish p).hide := by
  unfold notePublish
  split <;> rfl

theorem hide_processIncoming (s : Session) (w : World) (m : Option AuthManager) (c : Nat) (p : Packet) :
    s.hide.processIncoming w m c (bare p) =
      ⟨(s.processIncoming w m c p).session.hide, (s.processIncoming w m c p).world,
        (s.processIncoming w m c p).result⟩ := by
  cases p with
  | publish p =>
    simp only [bare, processIncoming, handlePublish]
    split
    · rfl
    · rw [hide_notePublish]
  | subscribe p =>
    simp only [bare, processIncoming, handleSubscribe, hide_subscribeLoop]
    rfl
  | auth p =>
    simp only [bare, processIncoming, handleAuth]
    split <;> rfl
  | _ => rfl

theorem hide_noteOutgoing (s : Session) (p : PublishPacket) :
    s.hide.noteOutgoing p = (s.noteOutgoing p).map Session.hide := by
  unfold noteOutgoing
  split
  · rfl
  · split <;> rfl

/-- What goes out, without the password in the session. -/
def Outgoing.hide : Outgoing → Outgoing
  | .idle => .idle
  | .packet s p => .packet s.hide p
  | .panicked s => .panicked s.hide

theorem hide_processOutgoing (s : Session) (t : TopicTree Message) (f : Str) :
    s.hide.processOutgoing t f = (s.processOutgoing t f).hide := by
  unfold processOutgoing
  have h : s.hide.subscriptions = s.subscriptions := rfl
  rw [h]
  split
  · rfl
  · split
    · rfl
    · rename_i st m st' _
      have := hide_noteOutgoing { s with subscriptions := s.subscriptions.insert f st' } (outgoingPacket f m)
      change noteOutgoing { s.hide with subscriptions := s.subscriptions.insert f st' } (outgoingPacket f m) = _ at this
      simp only [this]
      cases noteOutgoing { s with subscriptions := s.subscriptions.insert f st' } (outgoingPacket f m) <;> rfl

end Session

namespace Server

theorem hide_put (srv : Server) (r : Nat) (s : Session) : srv.hide.put r s.hide = (srv.put r s).hide := by
  unfold put hide
  simp only [insert_hide]

theorem hide_mapStore (srv : Server) (f : MemoryStore → MemoryStore) : srv.hide.mapStore f = (srv.mapStore f).hide := rfl

theorem hide_find (srv : Server) (cid : Str) (clean : Bool) : srv.hide.find cid clean = srv.find cid clean := rfl

theorem hide_discard (srv : Server) (cid : Str) (clean : Bool) :
    srv.hide.discard cid clean = (srv.discard cid clean).hide := by
  unfold discard
  split <;> rfl

theorem hide_enter (srv : Server) (p : ConnectPacket) :
    srv.hide.enter (withoutPassword p) = ((srv.enter p).1.hide, (srv.enter p).2.1, (srv.enter p).2.2.hide) := by
  unfold enter
  have h : srv.hide.sessions = srv.sessions := rfl
  have hc : (withoutPassword p).payload.clientId = p.payload.clientId := rfl
  simp only [h, hc]
  cases hs : srv.sessions.get p.payload.clientId with
  | none => rfl
  | some r =>
    have hg : srv.hide.heap.get r = (srv.heap.get r).map Session.hide := get_hide _ _
    simp only [hg]
    cases srv.heap.get r with
    | none => rfl
    | some s => rfl

theorem hide_restoreWill (s : Session) (w : Option StoredWill) : restoreWill s.hide w = (restoreWill s w).hide := by
  unfold restoreWill
  split <;> rfl

theorem hide_start (srv : Server) (c : Nat) (p : ConnectPacket) (uuid : Str) (w : Bool) :
    srv.hide.start c (withoutPassword p) uuid w = ((srv.start c p uuid w).1.hide, (srv.start c p uuid w).2) := by
  unfold start
  have hc : (withoutPassword p).payload.clientId = p.payload.clientId := rfl
  have hf : (withoutPassword p).flags = p.flags := rfl
  simp only [hc, hf, hide_find, hide_discard, hide_enter, Session.hide_begin]
  split
  · have h1 : ∀ s : Session, s.hide.clientId = s.clientId := fun _ => rfl
    have h2 : ∀ (s : Session) l, saveStart s.hide l = saveStart s l := fun _ _ => rfl
    simp only [h2, hide_mapStore]
    have h3 : ∀ v : Server, v.hide.world = v.world := fun _ => rfl
    simp only [h3, Session.hide_restore, hide_restoreWill]
    refine Prod.ext ?_ rfl
    exact hide_put { (((srv.discard p.payload.clientId p.flags.cleanStart).enter p).1.mapStore _) with
      world := _, conns := _ } _ _
  · exact Prod.ext (hide_put _ _ _) rfl

theorem hide_finish (srv : Server) (c r : Nat) (s : Session) :
    srv.hide.finish c r s.hide = (srv.finish c r s).hide := by
  unfold finish
  have h : s.hide.will = s.will := rfl
  simp only [h]
  split
  · exact hide_put { srv with conns := srv.conns.erase c } r s
  · rename_i w _
    have := hide_put { srv with conns := srv.conns.erase c, world := srv.world.publish (.will c) w.topic (willMessage w) } r
      { s with will := none }
    exact congrArg (fun v => Server.mapStore v _) this

theorem hide_onConn (srv : Server) (c : Nat) (f g : Nat → Session → Server × Out)
    (h : ∀ r s, g r s.hide = ((f r s).1.hide, (f r s).2)) :
    srv.hide.onConn c g = ((srv.onConn c f).1.hide, (srv.onConn c f).2) := by
  unfold onConn
  have hc : srv.hide.conns = srv.conns := rfl
  rw [hc]
  cases srv.conns.get c with
  | none => rfl
  | some k =>
    have hg : srv.hide.heap.get k.session = (srv.heap.get k.session).map Session.hide := get_hide _ _
    simp only [hg]
    cases srv.heap.get k.session with
    | none => rfl
    | some s => exact h _ _

theorem hide_recv (cfg : AuthConfig) (srv : Server) (c r : Nat) (s : Session) (p : Packet) :
    srv.hide.recv cfg c r s.hide (Session.bare p) = ((srv.recv cfg c r s p).1.hide, (srv.recv cfg c r s p).2) := by
  have key : ∀ p : Packet,
      (match (s.hide.processIncoming srv.hide.world cfg.manager c (Session.bare p)).result with
      | .error _ => ((({ srv.hide with world := (s.hide.processIncoming srv.hide.world cfg.manager c (Session.bare p)).world } : Server).finish c r
          (s.hide.processIncoming srv.hide.world cfg.manager c (Session.bare p)).session, {}) : Server × Out)
      | .ok res => (((({ srv.hide with world := (s.hide.processIncoming srv.hide.world cfg.manager c (Session.bare p)).world } : Server).mapStore
          (saveAfter (s.hide.processIncoming srv.hide.world cfg.manager c (Session.bare p)).session (Session.bare p))).put r
          (s.hide.processIncoming srv.hide.world cfg.manager c (Session.bare p)).session), { sent := res.toList })) =
      (let x : Server × Out := match (s.processIncoming srv.world cfg.manager c p).result with
        | .error _ => (({ srv with world := (s.processIncoming srv.world cfg.manager c p).world } : Server).finish c r
            (s.processIncoming srv.world cfg.manager c p).session, {})
        | .ok res => ((({ srv with world := (s.processIncoming srv.world cfg.manager c p).world } : Server).mapStore
            (saveAfter (s.processIncoming srv.world cfg.manager c p).session p)).put r
            (s.processIncoming srv.world cfg.manager c p).session, { sent := res.toList })
       (x.1.hide, x.2)) := by
    intro p
    have hw : srv.hide.world = srv.world := rfl
    rw [hw, Session.hide_processIncoming]
    generalize s.processIncoming srv.world cfg.manager c p = h
    dsimp only
    have hsa : saveAfter h.session.hide (Session.bare p) = saveAfter h.session p := by
      cases p <;> rfl
    rw [hsa]
    cases h.result with
    | error e => exact Prod.ext (hide_finish { srv with world := h.world } c r h.session) rfl
    | ok res =>
      refine Prod.ext ?_ rfl
      exact hide_put (Server.mapStore { srv with world := h.world } (saveAfter h.session p)) r h.session
  cases p with
  | disconnect p =>
    exact Prod.ext (hide_finish (srv.mapStore fun st => st.deleteWill s.clientId) c r { s with will := none }) rfl
  | connect p => exact key (.connect p)
  | connAck p => exact key (.connAck p)
  | publish p => exact key (.publish p)
  | pubAck p => exact key (.pubAck p)
  | pubRec p => exact key (.pubRec p)
  | pubRel p => exact key (.pubRel p)
  | pubComp p => exact key (.pubComp p)
  | subscribe p => exact key (.subscribe p)
  | subAck p => exact key (.subAck p)
  | unsubscribe p => exact key (.unsubscribe p)
  | unsubAck p => exact key (.unsubAck p)
  | pingReq => exact key .pingReq
  | pingResp => exact key .pingResp
  | auth p => exact key (.auth p)

theorem hide_deliver (srv : Server) (c r : Nat) (s : Session) (f : Str) :
    srv.hide.deliver c r s.hide f = ((srv.deliver c r s f).1.hide, (srv.deliver c r s f).2) := by
  unfold deliver
  have hw : srv.hide.world = srv.world := rfl
  rw [hw, Session.hide_processOutgoing]
  cases s.processOutgoing srv.world.broker.tree f with
  | idle => rfl
  | packet s' p => exact Prod.ext (hide_put (srv.mapStore (saveOutgoing s' p)) r s') rfl
  | panicked s' => exact Prod.ext (hide_put { srv with conns := srv.conns.erase c } r s') rfl

theorem hide_connect (cfg : AuthConfig) (srv : Server) (c : Nat) (p : ConnectPacket) (uuid : Str) (w : Bool)
    (h : (cfg.requireAuth && !authenticated cfg p) = false) :
    ((srv.connect cfg c p uuid w).1.hide, (srv.connect cfg c p uuid w).2) = srv.hide.start c (withoutPassword p) uuid w := by
  unfold connect
  rw [h, hide_start]
  rfl

/-- Events other than first packets do not look at passwords at all. -/
theorem hide_step (cfg : AuthConfig) (srv : Server) (e : Event)
    (h : ∀ c p uuid w, e ≠ .first c (.connect p) uuid w) :
    ((srv.step cfg e).1.hide, (srv.step cfg e).2) = srv.hide.step cfg (hidden e) := by
  have hc : srv.hide.conns = srv.conns := rfl
  cases e with
  | first c p uuid w =>
    cases p with
    | connect p => exact absurd rfl (h c p uuid w)
    | _ => simp only [hidden, step, hc]; split <;> rfl
  | recv c p =>
    have hh : hidden (.recv c p) = .recv c (Session.bare p) := by cases p <;> rfl
    rw [hh]
    exact (hide_onConn srv c (fun r s => srv.recv cfg c r s p) (fun r s => srv.hide.recv cfg c r s (Session.bare p))
      (fun r s => hide_recv cfg srv c r s p)).symm
  | deliver c f =>
    exact (hide_onConn srv c (fun r s => srv.deliver c r s f) (fun r s => srv.hide.deliver c r s f)
      (fun r s => hide_deliver srv c r s f)).symm
  | close c =>
    exact (hide_onConn srv c (fun r s => (srv.finish c r s, {})) (fun r s => (srv.hide.finish c r s, {}))
      (fun r s => Prod.ext (hide_finish srv c r s) rfl)).symm
  | abort c => rfl
  | restart => rfl

/-- The check of credentials gives the same result. -/
theorem authenticated_same {cfg : AuthConfig} {c : Nat} {p p' : ConnectPacket} {uuid : Str} {w : Bool}
    (h : SameButPassword cfg (.first c (.connect p) uuid w) (.first c (.connect p') uuid w)) :
    withoutPassword p = withoutPassword p' ∧
    (cfg.requireAuth && !authenticated cfg p) = (cfg.requireAuth && !authenticated cfg p') ∧
    (cfg.requireAuth = true → refusalLog cfg p = refusalLog cfg p') := by
  have hp : withoutPassword p = withoutPassword p' := by
    have := h.same
    simp only [hidden] at this
    injection this with _ h2
    injection h2
  have hu : p.payload.userName = p'.payload.userName :=
    (congrArg (fun x : ConnectPacket => x.payload.userName) hp : (withoutPassword p).payload.userName = _)
  have key : cfg.requireAuth = true → authenticated cfg p = authenticated cfg p' ∧ refusalLog cfg p = refusalLog cfg p' := by
    intro hr
    obtain ⟨h1, h2⟩ := h.verdict hr c p p' uuid w rfl rfl
    unfold authenticated refusalLog
    rw [← hu]
    cases hu' : p.payload.userName with
    | none => simp
    | some u =>
      cases hp1 : p.payload.password with
      | none =>
        rw [hp1] at h1
        cases hp2 : p'.payload.password with
        | none => simp
        | some _ => rw [hp2] at h1; simp at h1
      | some pw =>
        rw [hp1] at h1
        cases hp2 : p'.payload.password with
        | none => rw [hp2] at h1; simp at h1
        | some pw' =>
          cases hv : cfg.validator with
          | none => simp
          | some v =>
            have := h2 v u pw pw' hv hu' hp1 hp2
            simp only [this]
            exact ⟨trivial, trivial⟩
  refine ⟨hp, ?_, fun hr => (key hr).2⟩
  cases hr : cfg.requireAuth with
  | false => rfl
  | true => rw [(key hr).1]

theorem first_same {cfg : AuthConfig} {e' : Event} {c : Nat} {p : ConnectPacket} {uuid : Str} {w : Bool}
    (he : SameButPassword cfg (.first c (.connect p) uuid w) e') : ∃ p', e' = .first c (.connect p') uuid w := by
  have := he.same
  cases e' with
  | first c' q uuid' w' =>
    cases q with
    | connect p' =>
      simp only [hidden] at this
      injection this with h1 h2 h3 h4
      subst h1 h3 h4
      exact ⟨p', rfl⟩
    | _ => simp [hidden] at this
  | recv c' q => cases q <;> simp [hidden] at this
  | _ => simp [hidden] at this

theorem not_first_same {cfg : AuthConfig} {e e' : Event} (he : SameButPassword cfg e e')
    (h : ¬ ∃ c p uuid w, e = .first c (.connect p) uuid w) : ∀ c p uuid w, e' ≠ .first c (.connect p) uuid w := by
  rintro c p uuid w rfl
  have := he.same
  cases e with
  | first c' q uuid' w' =>
    cases q with
    | connect p' => exact h ⟨_, _, _, _, rfl⟩
    | _ => simp [hidden] at this
  | recv c' q => cases q <;> simp [hidden] at this
  | _ => simp [hidden] at this

/-- One step with passwords that fare the same. -/
theorem same_step {cfg : AuthConfig} {srv srv' : Server} (hs : srv.hide = srv'.hide) {e e' : Event}
    (he : SameButPassword cfg e e') :
    (srv.step cfg e).1.hide = (srv'.step cfg e').1.hide ∧ (srv.step cfg e).2 = (srv'.step cfg e').2 := by
  have hc : srv.conns = srv'.conns := (congrArg (fun v : Server => v.conns) hs : srv.hide.conns = _)
  by_cases h : ∃ c p uuid w, e = .first c (.connect p) uuid w
  · obtain ⟨c, p, uuid, w, rfl⟩ := h
    obtain ⟨p', rfl⟩ := first_same he
    obtain ⟨h1, h2, h3⟩ := authenticated_same he
    simp only [step, hc]
    split
    · exact ⟨hs, rfl⟩
    · cases ha : (cfg.requireAuth && !authenticated cfg p) with
      | true =>
        have ha' := h2 ▸ ha
        unfold connect
        rw [if_pos ha, if_pos ha']
        refine ⟨hs, ?_⟩
        have hv : p.protocolVersion = p'.protocolVersion := 
          (congrArg (fun x : ConnectPacket => x.protocolVersion) h1 : (withoutPassword p).protocolVersion = _)
        simp only [refusal, hv]
      | false =>
        have ha' := h2 ▸ ha
        have e1 := hide_connect cfg srv c p uuid w ha
        have e2 := hide_connect cfg srv' c p' uuid w ha'
        rw [hs, h1, ← e2] at e1
        exact Prod.mk.injEq _ _ _ _ ▸ e1
  · have h' := not_first_same he h
    have e1 := hide_step cfg srv e (fun c p u w hh => h ⟨c, p, u, w, hh⟩)
    have e2 := hide_step cfg srv' e' h'
    rw [hs, he.same, ← e2] at e1
    exact Prod.mk.injEq _ _ _ _ ▸ e1

/-! ## The log -/

theorem hide_logAt (srv : Server) (c : Nat) (f g : Session → List LogLine) (h : ∀ s, g s.hide = f s) :
    srv.hide.logAt c g = srv.logAt c f := by
  unfold logAt
  have hc : srv.hide.conns = srv.conns := rfl
  rw [hc]
  cases srv.conns.get c with
  | none => rfl
  | some k =>
    have hg : srv.hide.heap.get k.session = (srv.heap.get k.session).map Session.hide := get_hide _ _
    simp only [hg]
    cases srv.heap.get k.session with
    | none => rfl
    | some s => exact h _

theorem hide_startLog (srv : Server) (p : ConnectPacket) (uuid : Str) (w : Bool) :
    srv.hide.startLog (withoutPassword p) uuid w = srv.startLog p uuid w := by
  unfold startLog
  have hc : (withoutPassword p).payload.clientId = p.payload.clientId := rfl
  have hf : (withoutPassword p).flags = p.flags := rfl
  simp only [hc, hf, hide_find, hide_discard, hide_enter, Session.hide_begin]
  rfl

theorem hide_recvLog (pr : Printing) (cfg : AuthConfig) (srv : Server) (c : Nat) (s : Session) (p : Packet) :
    srv.hide.recvLog pr cfg c s.hide (Session.bare p) = srv.recvLog pr cfg c s p := by
  have key : ∀ p : Packet,
      (match (s.hide.processIncoming srv.hide.world cfg.manager c (Session.bare p)).result with
      | .error e => willLog (s.hide.processIncoming srv.hide.world cfg.manager c (Session.bare p)).session ++ [errorLine e]
      | .ok none => []
      | .ok (some res) => [⟨.debug, str "Sending response packet:" ++ pr.packet res ++ str " to client " ++
          pr.text (s.hide.processIncoming srv.hide.world cfg.manager c (Session.bare p)).session.clientId, none⟩]) =
      (match (s.processIncoming srv.world cfg.manager c p).result with
      | .error e => willLog (s.processIncoming srv.world cfg.manager c p).session ++ [errorLine e]
      | .ok none => []
      | .ok (some res) => [⟨.debug, str "Sending response packet:" ++ pr.packet res ++ str " to client " ++
          pr.text (s.processIncoming srv.world cfg.manager c p).session.clientId, none⟩] : List LogLine) := by
    intro p
    have hw : srv.hide.world = srv.world := rfl
    rw [hw, Session.hide_processIncoming]
    rfl
  cases p with
  | disconnect p => rfl
  | connect p => exact key (.connect p)
  | connAck p => exact key (.connAck p)
  | publish p => exact key (.publish p)
  | pubAck p => exact key (.pubAck p)
  | pubRec p => exact key (.pubRec p)
  | pubRel p => exact key (.pubRel p)
  | pubComp p => exact key (.pubComp p)
  | subscribe p => exact key (.subscribe p)
  | subAck p => exact key (.subAck p)
  | unsubscribe p => exact key (.unsubscribe p)
  | unsubAck p => exact key (.unsubAck p)
  | pingReq => exact key .pingReq
  | pingResp => exact key .pingResp
  | auth p => exact key (.auth p)

theorem hide_deliverLog (pr : Printing) (srv : Server) (s : Session) (f : Str) :
    srv.hide.deliverLog pr s.hide f = srv.deliverLog pr s f := by
  unfold deliverLog
  have hw : srv.hide.world = srv.world := rfl
  rw [hw, Session.hide_processOutgoing]
  cases s.processOutgoing srv.world.broker.tree f <;> rfl

theorem hide_logged (pr : Printing) (cfg : AuthConfig) (srv : Server) (why : Ending) (e : Event)
    (h : ∀ c p uuid w, e ≠ .first c (.connect p) uuid w) :
    srv.logged pr cfg why e = srv.hide.logged pr cfg why (hidden e) := by
  have hc : srv.hide.conns = srv.conns := rfl
  cases e with
  | first c p uuid w =>
    cases p with
    | connect p => exact absurd rfl (h c p uuid w)
    | _ => simp only [hidden, logged, hc]
  | recv c p =>
    have hh : hidden (.recv c p) = .recv c (Session.bare p) := by cases p <;> rfl
    rw [hh]
    exact (hide_logAt srv c _ _ (fun s => hide_recvLog pr cfg srv c s p)).symm
  | deliver c f => exact (hide_logAt srv c _ _ (fun s => hide_deliverLog pr srv s f)).symm
  | close c =>
    exact (hide_logAt srv c _ _ (fun s => (rfl : closeLog s.hide why = closeLog s why))).symm
  | abort c => rfl
  | restart => rfl

theorem same_logged (pr : Printing) {cfg : AuthConfig} {srv srv' : Server} (hs : srv.hide = srv'.hide) {e e' : Event}
    (why : Ending) (he : SameButPassword cfg e e') :
    srv.logged pr cfg why e = srv'.logged pr cfg why e' := by
  have hc : srv.conns = srv'.conns := (congrArg (fun v : Server => v.conns) hs : srv.hide.conns = _)
  by_cases h : ∃ c p uuid w, e = .first c (.connect p) uuid w
  · obtain ⟨c, p, uuid, w, rfl⟩ := h
    obtain ⟨p', rfl⟩ := first_same he
    obtain ⟨h1, h2, h3⟩ := authenticated_same he
    simp only [logged, hc]
    split
    · rfl
    · cases ha : (cfg.requireAuth && !authenticated cfg p) with
      | true =>
        have ha' := h2 ▸ ha
        rw [if_pos rfl, if_pos ha']
        simp only [Bool.and_eq_true] at ha
        exact h3 ha.1
      | false =>
        have ha' : (cfg.requireAuth && !authenticated cfg p') = false := h2 ▸ ha
        rw [ha', if_neg (by simp), if_neg (by simp), ← hide_startLog srv, ← hide_startLog srv', hs, h1]
  · rw [hide_logged pr cfg srv why e (fun c p u w hh => h ⟨c, p, u, w, hh⟩),
      hide_logged pr cfg srv' why e' (not_first_same he h), hs, he.same]

end Server

end Mercurio
