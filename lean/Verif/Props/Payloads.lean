import Verif.Lemmas.Payloads
import Verif.Props.LogTold

/-!
# C123, C124: payloads are opaque
-/

namespace Mercurio

open Spec Server

theorem recode_outputs {f : Buf → Buf} (hf : KeepsEmpty f) (cfg : AuthConfig) (es : List Event) : ∀ srv : Server,
    outputs cfg (srv.recode f) (es.map (recodeEvent f)) = (outputs cfg srv es).map (recodeOut f) := by
  induction es with
  | nil => intro srv; rfl
  | cons e es ih =>
    intro srv
    simp only [List.map_cons, outputs, recode_step hf, ih]

/-- C123: the server handles payloads as opaque: if all payloads that clients publish, and those of their wills, are
replaced, by any replacement that keeps empty payloads empty and others non-empty, then the server sends exactly the same packets
at the same events, with the payloads replaced in the same way. -/
theorem C123_opaque (f : Buf → Buf) (hf : KeepsEmpty f) (cfg : AuthConfig) (es : List Event) :
    outputs cfg Server.init (es.map (recodeEvent f)) = (outputs cfg Server.init es).map (recodeOut f) := by
  have := recode_outputs hf cfg es Server.init
  rwa [recode_init] at this

theorem recodePacket_of_ne {f : Buf → Buf} {p : Packet} (h : ∀ b, payloadOf p = some b → f b = b) : recodePacket f p = p := by
  cases p with
  | publish p =>
    obtain ⟨d, q, r, t, i, pr, pl⟩ := p
    cases pl with
    | none => rfl
    | some b => simp only [recodePacket, Option.map_some, h b rfl]
  | connect p =>
    obtain ⟨n, fl, ka, pr, ⟨c, wp, wt, wl, u, pw⟩⟩ := p
    cases wl with
    | none => rfl
    | some b => simp only [recodePacket, Option.map_some, h b rfl]
  | _ => rfl

/-- C123: the server invents no payload: every payload it sends is empty or is one that a client sent before, in
a PUBLISH or as the payload of its will. -/
theorem C123_not_invented (cfg : AuthConfig) (es : List Event) (e : Event) (p : Packet) (b : Buf) (hb : b ≠ [])
    (h : p ∈ ((Server.init.run cfg es).step cfg e).2.sent) (hp : payloadOf p = some b) :
    ∃ e' ∈ es ++ [e], ∃ q, packetIn e' = some q ∧ payloadOf q = some b := by
  refine Classical.byContradiction fun hn => ?_
  let f : Buf → Buf := fun x => if x = b then b ++ [0] else x
  have hf : KeepsEmpty f := by
    intro x
    simp only [f]
    split
    · rename_i hx; subst hx; simp [hb]
    · exact Iff.rfl
  have hid : ∀ e' ∈ es ++ [e], recodeEvent f e' = e' := by
    intro e' he'
    have hq : ∀ q, packetIn e' = some q → recodePacket f q = q := by
      intro q hq
      refine recodePacket_of_ne fun x hx => ?_
      simp only [f]
      split
      · rename_i hxb; subst hxb
        exact absurd ⟨e', he', q, hq, hx⟩ hn
      · rfl
    cases e' with
    | first c q u w => simp only [recodeEvent, hq q rfl]
    | recv c q => simp only [recodeEvent, hq q rfl]
    | _ => rfl
  have hrun : ∀ (es' : List Event) (srv : Server), (∀ e' ∈ es', recodeEvent f e' = e') →
      (srv.recode f).run cfg es' = (srv.run cfg es').recode f := by
    intro es'
    induction es' with
    | nil => intro srv _; rfl
    | cons a es' ih =>
      intro srv ha
      have h1 := recode_step hf cfg srv a
      rw [ha a (by simp)] at h1
      show ((srv.recode f).step cfg a).1.run cfg es' = _
      rw [h1]
      exact ih _ fun x hx => ha x (by simp [hx])
  have h1 := hrun es Server.init (fun x hx => hid x (by simp [hx]))
  rw [recode_init] at h1
  have h2 := recode_step hf cfg (Server.init.run cfg es) e
  rw [hid e (by simp), ← h1] at h2
  have h3 : ((Server.init.run cfg es).step cfg e).2.sent =
      ((Server.init.run cfg es).step cfg e).2.sent.map (recodePacket f) :=
    congrArg (fun o : Out => o.sent) (congrArg Prod.snd h2)
  have h4 : ∀ l : List Packet, l = l.map (recodePacket f) → ∀ x ∈ l, x = recodePacket f x := by
    intro l
    induction l with
    | nil => intro _ x hx; simp at hx
    | cons a l ih =>
      intro hl x hx
      simp only [List.map_cons, List.cons.injEq] at hl
      rcases List.mem_cons.mp hx with rfl | hx
      · exact hl.1
      · exact ih hl.2 x hx
  have h5 := congrArg payloadOf (h4 _ h3 p h)
  have hfb : f b = b ++ [0] := by simp [f]
  cases p with
  | publish p =>
    simp only [payloadOf, recodePacket] at h5 hp
    rw [hp, Option.map_some, hfb] at h5
    simp at h5
  | connect p =>
    simp only [payloadOf, recodePacket] at h5 hp
    rw [hp, Option.map_some, hfb] at h5
    simp at h5
  | _ => cases hp

/-! ## C124: payloads and the log -/

theorem recode_logAt {f : Buf → Buf} (srv : Server) (c : Nat) (g h : Session → List LogLine) (P : LogLine → Bool)
    (hh : ∀ s, (h (s.recode f)).filter P = (g s).filter P) :
    ((srv.recode f).logAt c h).filter P = (srv.logAt c g).filter P := by
  unfold logAt
  have hc : (srv.recode f).conns = srv.conns := rfl
  rw [hc]
  cases srv.conns.get c with
  | none => rfl
  | some k =>
    have hg : (srv.recode f).heap.get k.session = (srv.heap.get k.session).map (Session.recode f) := onValues_get _ _ _
    simp only [hg]
    cases srv.heap.get k.session with
    | none => rfl
    | some s => exact hh _

theorem recode_willLog {f : Buf → Buf} (s : Session) : willLog (s.recode f) = willLog s := by
  unfold willLog
  show (match s.will.map (StoredWill.recode f) with | none => _ | some w => _) = _
  cases s.will <;> rfl

theorem recode_closeLog {f : Buf → Buf} (s : Session) (why : Ending) : closeLog (s.recode f) why = closeLog s why := by
  cases why <;> simp only [closeLog, recode_willLog] <;> rfl

theorem recode_recvLog {f : Buf → Buf} (hf : KeepsEmpty f) (pr : Printing) (cfg : AuthConfig) (srv : Server) (c : Nat)
    (s : Session) (p : Packet) : (srv.recode f).recvLog pr cfg c (s.recode f) (recodePacket f p) = srv.recvLog pr cfg c s p := by
  have key : ∀ p : Packet,
      (match ((s.recode f).processIncoming (srv.recode f).world cfg.manager c (recodePacket f p)).result with
      | .error e => willLog ((s.recode f).processIncoming (srv.recode f).world cfg.manager c (recodePacket f p)).session ++ [errorLine e]
      | .ok none => []
      | .ok (some res) => [⟨.debug, str "Sending response packet:" ++ pr.packet res ++ str " to client " ++
          pr.text ((s.recode f).processIncoming (srv.recode f).world cfg.manager c (recodePacket f p)).session.clientId, none⟩]) =
      (match (s.processIncoming srv.world cfg.manager c p).result with
      | .error e => willLog (s.processIncoming srv.world cfg.manager c p).session ++ [errorLine e]
      | .ok none => []
      | .ok (some res) => [⟨.debug, str "Sending response packet:" ++ pr.packet res ++ str " to client " ++
          pr.text (s.processIncoming srv.world cfg.manager c p).session.clientId, none⟩] : List LogLine) := by
    intro p
    have hw : (srv.recode f).world = srv.world.recode f := rfl
    rw [hw, Session.recode_processIncoming hf]
    simp only [Handled.recode, recode_willLog]
    rfl
  cases p with
  | disconnect p => rfl
  | connect p => exact key (.connect p)
  | connAck p => exact key (.connAck p)
  | publish p => exact key (.publish p)
  | pubAck p => exact key (.pubAck p)
  | pubRec p => exact key (.pubRec p)
  | pubRel p => exact key (.pubRel p)
  | pubComp p => exact key (.pubComp p)
  | subscribe p => exact key (.subscribe p)
  | subAck p => exact key (.subAck p)
  | unsubscribe p => exact key (.unsubscribe p)
  | unsubAck p => exact key (.unsubAck p)
  | pingReq => exact key .pingReq
  | pingResp => exact key .pingResp
  | auth p => exact key (.auth p)

theorem recode_startLog {f : Buf → Buf} (hf : KeepsEmpty f) (srv : Server) (p : ConnectPacket) (uuid : Str) (w : Bool) :
    (srv.recode f).startLog (p.recode f) uuid w = srv.startLog p uuid w := by
  unfold startLog
  have hc : (p.recode f).payload.clientId = p.payload.clientId := rfl
  have hfl : (p.recode f).flags = p.flags := rfl
  simp only [hc, hfl, recode_find, recode_discard, recode_enter hf, Session.recode_begin, Found.recode]
  have h1 : (srv.recode f).foundLog p.payload.clientId p.flags.cleanStart = srv.foundLog p.payload.clientId p.flags.cleanStart := by
    unfold foundLog
    have hs : (srv.recode f).sessions = srv.sessions := rfl
    have h1 : (srv.recode f).store = srv.store.recode f := rfl
    have h2 : (srv.store.recode f).loadSession p.payload.clientId = srv.store.loadSession p.payload.clientId := rfl
    rw [hs, h1, h2]
    simp only [MemoryStore.recode_getWill, MemoryStore.recode_getAllInflight, Option.isSome_map, List.isEmpty_map, List.length_map]
  rw [h1]
  rfl

theorem recode_logged {f : Buf → Buf} (hf : KeepsEmpty f) (pr : Printing) (cfg : AuthConfig) (srv : Server) (why : Ending)
    (e : Event) : ((srv.recode f).logged pr cfg why (recodeEvent f e)).filter (fun l => !onlyDebug l) =
      (srv.logged pr cfg why e).filter (fun l => !onlyDebug l) := by
  have hc : (srv.recode f).conns = srv.conns := rfl
  cases e with
  | first c p uuid w =>
    cases p with
    | connect p =>
      simp only [recodeEvent, recodePacket, logged, hc]
      have ha : authenticated cfg (p.recode f) = authenticated cfg p := rfl
      have hr : refusalLog cfg (p.recode f) = refusalLog cfg p := rfl
      have hs := recode_startLog hf srv p uuid w
      have hp : ({ p with payload := { p.payload with willPayload := p.payload.willPayload.map f } } : ConnectPacket) =
        p.recode f := rfl
      rw [hp, ha, hr, hs]
    | _ => simp only [recodeEvent, recodePacket, logged, hc]
  | recv c p => exact recode_logAt srv c _ _ _ (fun s => by rw [recode_recvLog hf])
  | deliver c t =>
    refine recode_logAt srv c _ _ _ (fun s => ?_)
    unfold deliverLog
    have hw : (srv.recode f).world.broker.tree = TopicNode.map (Message.recode f) srv.world.broker.tree := rfl
    rw [hw, Session.recode_processOutgoing]
    cases s.processOutgoing srv.world.broker.tree t with
    | idle => rfl
    | packet s' p => simp [Session.Outgoing.recode, onlyDebug]
    | panicked s' => rfl
  | close c => exact recode_logAt srv c _ _ _ (fun s => by rw [recode_closeLog])
  | abort c => rfl
  | restart => rfl

theorem keepsEmpty_blank : KeepsEmpty blank := by
  intro b
  unfold blank
  split <;> simp_all

/-- C124: unless debugging is switched on, nothing that clients publish or leave as their wills shows in the log: two histories
that are the same but for payloads (empty ones being empty in both) write the same lines above the debug level. -/
theorem C124_payloads (pr : Printing) (cfg : AuthConfig) (es es' : List (Event × Ending)) (h : SameButPayloads es es') :
    (Server.init.log pr cfg es).filter (fun l => !onlyDebug l) =
      (Server.init.log pr cfg es').filter (fun l => !onlyDebug l) := by
  have key : ∀ (es : List (Event × Ending)) (srv : Server),
      ((srv.recode blank).log pr cfg (es.map fun x => (recodeEvent blank x.1, x.2))).filter (fun l => !onlyDebug l) =
        (srv.log pr cfg es).filter (fun l => !onlyDebug l) := by
    intro es
    induction es with
    | nil => intro srv; rfl
    | cons x es ih =>
      intro srv
      simp only [List.map_cons, log, List.filter_append, recode_step keepsEmpty_blank, ih,
        recode_logged keepsEmpty_blank]
  have h1 := key es Server.init
  have h2 := key es' Server.init
  rw [recode_init] at h1 h2
  rw [← h1, ← h2, h]

/-- C124 is false at the debug level: whenever a message is sent to a client, the whole packet is written to the log, its
payload included. -/
theorem C124_debug_false (pr : Printing) (cfg : AuthConfig) (srv : Server) (c : Nat) (t : Str) (p : PublishPacket) (why : Ending)
    (h : (srv.step cfg (.deliver c t)).2.sent = [.publish p]) :
    ∃ rest, srv.logged pr cfg why (.deliver c t) =
      [⟨.debug, str "Sending outgoing packet: " ++ pr.packet (.publish p) ++ rest, none⟩] := by
  simp only [step, onConn] at h
  simp only [logged, logAt]
  cases hc : srv.conns.get c with
  | none => simp [hc] at h
  | some k =>
    simp only [hc] at h ⊢
    cases hs : srv.heap.get k.session with
    | none => simp [hs] at h
    | some s =>
      simp only [hs] at h ⊢
      unfold deliver at h
      unfold deliverLog
      cases ho : s.processOutgoing srv.world.broker.tree t with
      | idle => simp [ho] at h
      | panicked s' => simp [ho] at h
      | packet s' q =>
        simp only [ho, List.cons.injEq, Packet.publish.injEq, and_true] at h
        subst h
        exact ⟨str " to client " ++ pr.text s'.clientId, by simp only [List.append_assoc]⟩

/-! ## Examples -/

/-- A replacement of payloads: every byte is negated. -/
def exFlip (b : Buf) : Buf := b.map fun x => 255 - x

theorem exFlip_keeps : KeepsEmpty exFlip := fun b => by simp [exFlip]

/-- The CONNECT of `exConnect` with another payload of the will. -/
def exLeaving (id : Str) (y : UInt8) : ConnectPacket :=
  { exConnect id true with payload := { (exConnect id true).payload with willPayload := some [y] } }

/-- One client subscribes, the other publishes a retained message and has a will. -/
def exTalk (x y : UInt8) : List Event :=
  [.first 0 (.connect (exLeaving (str "x") y)) (str "i") true,
   .recv 0 (.subscribe ⟨7, none, [⟨str "a/+", {}⟩, ⟨str "gone", {}⟩]⟩),
   .first 1 (.connect (exLeaving (str "y") y)) (str "j") true,
   .recv 1 (.publish { qos := .atLeastOnce, topicName := str "a/b", packetId := some 1, retain := true, payload := some [x] }),
   .close 1, .deliver 0 (str "a/+"), .deliver 0 (str "gone")]

/-- The payloads that are sent follow those that are published. -/
example : KeepsEmpty exFlip ∧ exTalk 254 253 = (exTalk 1 2).map (recodeEvent exFlip) ∧
    ((outputs exCfg Server.init (exTalk 1 2)).flatMap (·.sent)).filterMap payloadOf = [[1], [2]] ∧
    ((outputs exCfg Server.init (exTalk 254 253)).flatMap (·.sent)).filterMap payloadOf = [[254], [253]] := by
  refine ⟨exFlip_keeps, by decide +kernel, by decide +kernel, by decide +kernel⟩

/-- A payload that is sent, and the event it comes from. -/
example : ∃ p ∈ ((Server.init.run exCfg ((exTalk 1 2).take 6)).step exCfg (.deliver 0 (str "gone"))).2.sent,
    payloadOf p = some [2] ∧ ([2] : Buf) ≠ [] := by
  refine ⟨.publish { dup := false, qos := .atLeastOnce, retain := false, topicName := str "gone", packetId := none, payload := some [2] },
    by decide +kernel, rfl, by decide⟩

/-- Two histories with different payloads, and what the log says. -/
example : SameButPayloads ((exTalk 1 2).map fun e => (e, .quiet)) ((exTalk 3 4).map fun e => (e, .quiet)) ∧
    (Server.init.log exPrinting exCfg ((exTalk 1 2).map fun e => (e, .quiet))).filter (fun l => !onlyDebug l) =
      [⟨.info, str "Client with id `x` started a session", none⟩,
       ⟨.info, str "Client with id `y` started a session", none⟩,
       ⟨.info, str "Publishing will message for client `y` on topic `gone`", none⟩] := by
  refine ⟨?_, by decide +kernel⟩
  unfold SameButPayloads
  decide +kernel

/-- A message that is sent, for the debug level. -/
example : ((Server.init.run exCfg ((exTalk 1 2).take 6)).step exCfg (.deliver 0 (str "gone"))).2.sent =
    [.publish { dup := false, qos := .atLeastOnce, retain := false, topicName := str "gone", packetId := none, payload := some [2] }] := by
  decide +kernel

end Mercurio
