import Verif.Lemmas.Passwords
import Verif.Lemmas.ServerLog
import Verif.Lemmas.Persist
import Verif.Props.Session
import Verif.Props.Packets

/-!
# C120, C121: what is in the log
-/

namespace Mercurio

open Spec Server

/-! ## C120: passwords -/

/-- C120: two histories from the same state that are the same but for the passwords of clients, where corresponding
passwords are both accepted or both refused, have the same log, at every level of detail; every packet that is
sent is the same; and in the end the same connections are open, and the broker and the storage have the same contents. -/
theorem C120_passwords (pr : Printing) (cfg : AuthConfig) (srv : Server) (es es' : List (Event × Ending))
    (h : SameButPasswords cfg es es') :
    srv.log pr cfg es = srv.log pr cfg es' ∧
    outputs cfg srv (es.map Prod.fst) = outputs cfg srv (es'.map Prod.fst) ∧
    (srv.run cfg (es.map Prod.fst)).conns = (srv.run cfg (es'.map Prod.fst)).conns ∧
    (srv.run cfg (es.map Prod.fst)).world = (srv.run cfg (es'.map Prod.fst)).world := by
  have key : ∀ srv srv' : Server, srv.hide = srv'.hide →
      srv.log pr cfg es = srv'.log pr cfg es' ∧
      outputs cfg srv (es.map Prod.fst) = outputs cfg srv' (es'.map Prod.fst) ∧
      (srv.run cfg (es.map Prod.fst)).hide = (srv'.run cfg (es'.map Prod.fst)).hide := by
    induction h with
    | nil => intro srv srv' hs; exact ⟨rfl, rfl, hs⟩
    | cons he _ ih =>
      intro srv srv' hs
      obtain ⟨h1, h2⟩ := same_step hs he
      obtain ⟨i1, i2, i3⟩ := ih _ _ h1
      refine ⟨?_, ?_, i3⟩
      · simp only [log]
        rw [same_logged pr hs _ he, i1]
      · simp only [List.map_cons, outputs]
        rw [h2, i2]
  obtain ⟨k1, k2, k3⟩ := key srv srv rfl
  exact ⟨k1, k2, (congrArg (fun v : Server => v.conns) k3 : (srv.run cfg (es.map Prod.fst)).hide.conns = _),
    (congrArg (fun v : Server => v.world) k3 : (srv.run cfg (es.map Prod.fst)).hide.world = _)⟩

/-! ## C121: refused passwords are told -/

theorem quiet_of_level {l : List LogLine} (h : ∀ x ∈ l, x.level ≠ .warn) : l.filter tellsRefused = [] := by
  rw [List.filter_eq_nil_iff]
  intro x hx
  simp [tellsRefused, h x hx]

theorem willLog_level (s : Session) : ∀ x ∈ willLog s, x.level ≠ .warn := by
  unfold willLog
  split <;> simp

theorem startLog_level (srv : Server) (p : ConnectPacket) (uuid : Str) (w : Bool) :
    ∀ x ∈ srv.startLog p uuid w, x.level ≠ .warn := by
  intro x hx
  unfold startLog at hx
  simp only [List.mem_append, List.mem_singleton] at hx
  rcases hx with (hx | rfl) | hx
  · unfold foundLog at hx
    split at hx
    · simp at hx
    · split at hx
      · simp at hx
      · simp only [List.mem_append, List.mem_singleton] at hx
        rcases hx with (rfl | hx) | hx
        · simp
        · split at hx
          · rw [List.mem_singleton.mp hx]; simp
          · simp at hx
        · split at hx
          · simp at hx
          · rw [List.mem_singleton.mp hx]; simp
  · simp [beginLine]
  · split at hx
    · simp at hx
    · rw [List.mem_singleton.mp hx]; simp [errorLine]

theorem recvLog_level (pr : Printing) (cfg : AuthConfig) (srv : Server) (c : Nat) (s : Session) (p : Packet) :
    ∀ x ∈ srv.recvLog pr cfg c s p, x.level ≠ .warn := by
  intro x hx
  unfold recvLog at hx
  split at hx
  · simp at hx
  · dsimp only at hx
    split at hx
    · rcases List.mem_append.mp hx with hx | hx
      · exact willLog_level _ x hx
      · rw [List.mem_singleton.mp hx]; simp [errorLine]
    · simp at hx
    · rw [List.mem_singleton.mp hx]; simp

theorem deliverLog_level (pr : Printing) (srv : Server) (s : Session) (f : Str) :
    ∀ x ∈ srv.deliverLog pr s f, x.level ≠ .warn := by
  intro x hx
  unfold deliverLog at hx
  split at hx
  · rw [List.mem_singleton.mp hx]; simp
  · simp at hx

theorem keepalive_not_told (x : Str) :
    (str "Authentication failed for user `").isPrefixOf (str "Keep-alive timeout for client `" ++ x) = false := by
  have h1 : str "Authentication failed for user `" = 65 :: (str "Authentication failed for user `").tail := by decide +kernel
  have h2 : str "Keep-alive timeout for client `" = 75 :: (str "Keep-alive timeout for client `").tail := by decide +kernel
  rw [h1, h2, List.cons_append]
  rfl

theorem refused_told (u : Str) : tellsRefused (refusedLine u) = true := by
  simp only [tellsRefused, refusedLine, decide_true, Bool.true_and]
  rw [List.append_assoc, List.isPrefixOf_iff_prefix]
  exact List.prefix_append _ _

theorem closeLog_told (s : Session) (why : Ending) : (closeLog s why).filter tellsRefused = [] := by
  cases why with
  | quiet => exact quiet_of_level (willLog_level s)
  | timeout n =>
    simp only [closeLog, List.filter_cons]
    rw [quiet_of_level (willLog_level s), if_neg]
    simp only [tellsRefused, List.append_assoc]
    rw [keepalive_not_told]
    simp
  | failed e =>
    refine quiet_of_level ?_
    intro x hx
    rcases List.mem_append.mp hx with hx | hx
    · exact willLog_level _ x hx
    · rw [List.mem_singleton.mp hx]; simp [errorLine]

theorem logAt_told {srv : Server} {c : Nat} {f : Session → List LogLine} (h : ∀ s, (f s).filter tellsRefused = []) :
    (srv.logAt c f).filter tellsRefused = [] := by
  unfold logAt
  split
  · rfl
  · split
    · rfl
    · exact h _

/-- C121: the warnings about refused passwords in the log are exactly the refused attempts, in order, each with the
user name: every attempt on a server with a configured check is told, and no such line is written for anything else. -/
theorem C121_refused_are_told (pr : Printing) (cfg : AuthConfig) (srv : Server) (es : List (Event × Ending)) :
    ((srv.log pr cfg es).filter tellsRefused).map (·.message) =
      (refusedUsers cfg srv (es.map Prod.fst)).map toldRefused := by
  induction es generalizing srv with
  | nil => rfl
  | cons x es ih =>
    obtain ⟨e, why⟩ := x
    simp only [log, List.map_cons, refusedUsers, List.filter_append, List.map_append]
    rw [ih]
    congr 1
    cases e with
    | first c p uuid w =>
      cases p with
      | connect p =>
        simp only [logged]
        cases hc : srv.conns.get c with
        | some k => cases hr : cfg.requireAuth <;> rfl
        | none =>
          cases hr : cfg.requireAuth with
          | false =>
            simp only [Option.isSome_none, Bool.false_eq_true, if_false, Bool.false_and]
            rw [quiet_of_level (startLog_level _ _ _ _)]; rfl
          | true =>
            simp only [Option.isSome_none, Bool.false_eq_true, if_false, Bool.true_and]
            unfold authenticated refusalLog
            cases hu : p.payload.userName with
            | none => cases cfg.validator <;> simp <;> decide +kernel
            | some u =>
              cases hp : p.payload.password with
              | none => cases cfg.validator <;> simp <;> decide +kernel
              | some pw =>
                cases hv : cfg.validator with
                | none => simp
                | some v =>
                  simp only
                  cases v u pw with
                  | true =>
                    simp only [Bool.not_true, Bool.false_eq_true, if_false, if_true]
                    rw [quiet_of_level (startLog_level _ _ _ _)]; rfl
                  | false =>
                    simp only [Bool.not_false, if_true, Bool.false_eq_true, if_false]
                    rw [List.filter_cons, if_pos (refused_told u)]; rfl
      | _ =>
        simp only [logged]
        split
        · rfl
        · rfl
    | recv c p => simp only [logged]; rw [logAt_told (fun s => quiet_of_level (recvLog_level pr cfg srv c s p))]; rfl
    | deliver c f => simp only [logged]; rw [logAt_told (fun s => quiet_of_level (deliverLog_level pr srv s f))]; rfl
    | close c => simp only [logged]; rw [logAt_told (fun s => closeLog_told s why)]; rfl
    | abort c => rfl
    | restart => rfl

/-- C121 is false if authentication is required and no check is configured (the daemon without a password file):
every CONNECT with a user name and a password is refused, and the log does not say a word about it. -/
theorem C121_silent_false (pr : Printing) (cfg : AuthConfig) (hr : cfg.requireAuth = true) (hv : cfg.validator = none)
    (srv : Server) (c : Nat) (hc : ¬ srv.isOpen c) (p : ConnectPacket) (user : Str) (pw : Buf)
    (hu : p.payload.userName = some user) (hp : p.payload.password = some pw) (uuid : Str) (w : Bool) (why : Ending) :
    srv.logged pr cfg why (.first c (.connect p) uuid w) = [] ∧
    (srv.step cfg (.first c (.connect p) uuid w)).2.sent =
      [.connAck { protocolVersion := p.protocolVersion, reasonCode := .badUserNameOrPassword }] := by
  have hc' : srv.conns.get c = none := by
    cases h : srv.conns.get c with
    | none => rfl
    | some k => exact absurd ⟨k, h⟩ hc
  have ha : authenticated cfg p = false := by simp [authenticated, hu, hp, hv]
  refine ⟨?_, ?_⟩
  · simp [logged, hc', hr, ha, refusalLog, hu, hp, hv]
  · simp [step, connect, hc', hr, ha, refusal]

/-! ## Forged lines -/

/-- A CONNECT whose client identifier and user name are the text `t` between two line feeds. -/
def forger (t : Str) : ConnectPacket where
  protocolVersion := .v3_1_1
  flags := { userName := true, password := true, cleanStart := true }
  keepalive := 60
  properties := none
  payload := { clientId := 10 :: (t ++ [10]), userName := some (10 :: (t ++ [10])), password := some [] }

theorem isUtf8_lines {t : Str} (h : IsUtf8 t) : IsUtf8 (10 :: (t ++ [10])) := by
  obtain ⟨cs, rfl⟩ := h
  refine ⟨'\n' :: (cs ++ ['\n']), ?_⟩
  have : String.utf8EncodeChar '\n' = [10] := by decide +kernel
  simp [this]

/-- C121 is false as for what a reader of the log sees: whatever text `t` (of up to 65533 bytes) a peer chooses, there is
an admissible CONNECT, which the peer can send without knowing any password, that makes the server write a message in which
`t` stands on a line of its own: the warning about its refused password, or, if passwords are not required, the line
about its new session.  (The log's writer leaves line feeds in messages as they are.) -/
theorem C121_forged_false (t : Str) (ht : IsUtf8 t) (hlen : t.length ≤ 65533) :
    ∃ p : ConnectPacket, p.Consistent ∧ p.Admissible ∧
      ∀ (pr : Printing) (cfg : AuthConfig) (srv : Server) (c : Nat) (uuid : Str) (why : Ending), ¬ srv.isOpen c →
        (cfg.requireAuth = true → ∀ check, cfg.validator = some check → (∀ user pw, p.payload.userName = some user →
            p.payload.password = some pw → check user pw = false) →
          ∃ a b, srv.logged pr cfg why (.first c (.connect p) uuid true) = [⟨.warn, a ++ [10] ++ t ++ [10] ++ b, none⟩]) ∧
        (cfg.requireAuth = false →
          ∃ a b, srv.logged pr cfg why (.first c (.connect p) uuid true) = [⟨.info, a ++ [10] ++ t ++ [10] ++ b, none⟩]) := by
  have hf : TextField (10 :: (t ++ [10])) := ⟨isUtf8_lines ht, by simp; omega⟩
  refine ⟨forger t, ?_, ?_, ?_⟩
  · constructor <;> simp [forger]
  · constructor
    · exact hf
    · intro s hs; simp [forger] at hs
    · intro s hs; simp [forger] at hs
    · intro s hs
      simp only [forger, Option.some.injEq] at hs
      exact hs ▸ hf
    · intro s hs
      simp only [forger, Option.some.injEq] at hs
      subst hs
      exact Nat.zero_le _
    · intro q hq; simp [forger] at hq
    · intro q hq; simp [forger] at hq
  · intro pr cfg srv c uuid why hc
    have hc' : srv.conns.get c = none := by
      cases h : srv.conns.get c with
      | none => rfl
      | some k => exact absurd ⟨k, h⟩ hc
    refine ⟨?_, ?_⟩
    · intro hr check hv hno
      have hno' := hno (10 :: (t ++ [10])) [] rfl rfl
      refine ⟨str "Authentication failed for user `", str "`", ?_⟩
      have ha : authenticated cfg (forger t) = false := by
        simp [authenticated, forger, hv, hno']
      simp only [logged, hc', hr, ha]
      simp [refusalLog, forger, hv, hno', refusedLine]
    · intro hr
      refine ⟨str "Client with id `", str "` started a session", ?_⟩
      simp only [logged, hc', hr]
      have hfind : srv.find (forger t).payload.clientId (forger t).flags.cleanStart = Server.Found.none := rfl
      have hfl : srv.foundLog (forger t).payload.clientId (forger t).flags.cleanStart = [] := by
        simp [foundLog, forger]
      have hent : ((srv.discard (forger t).payload.clientId (forger t).flags.cleanStart).enter (forger t)).2.2 =
          Session.new (forger t) := by
        have : (srv.discard (forger t).payload.clientId (forger t).flags.cleanStart).sessions.get
            (forger t).payload.clientId = none := by
          simp [Server.discard, forger, Server.mapStore, Map.get_erase]
        simp only [enter, this]
      simp only [Option.isSome_none, Bool.false_eq_true, if_false, Bool.false_and, startLog, hfind, hfl, hent]
      have hb : ((Session.new (forger t)).begin uuid Server.Found.none.resume).1.clientId = 10 :: (t ++ [10]) := rfl
      rw [hb]
      have hs : str "` started a session" = str "` " ++ str "started" ++ str " a session" := by decide +kernel
      simp [beginLine, Server.Found.none, hs]

/-! ## One line for each message -/

/-- No line feed in the texts that may be quoted later. -/
structure Tidy (srv : Server) : Prop where
  sessions : ∀ r s, srv.heap.get r = some s → 10 ∉ s.clientId ∧ ∀ w, s.will = some w → 10 ∉ w.topic
  stored : ∀ cid w, srv.store.getWill cid = some w → 10 ∉ w.topic

theorem Tidy.init : Tidy Server.init := by
  constructor
  · intro r s h; simp [Server.init, Map.get] at h
  · intro cid w h; simp [Server.init, Server.store, MemoryStore.new, MemoryStore.getWill, Map.get] at h

theorem Tidy.put {srv : Server} (h : Tidy srv) {r : Nat} {s : Session} (hs : 10 ∉ s.clientId)
    (hw : ∀ w, s.will = some w → 10 ∉ w.topic) : Tidy (srv.put r s) := by
  refine ⟨fun r' s' h' => ?_, h.stored⟩
  simp only [Server.put, Map.get_insert] at h'
  split at h'
  · cases h'; exact ⟨hs, hw⟩
  · exact h.sessions r' s' h'

/-- Only the stored wills and the sessions matter. -/
theorem Tidy.congr {srv srv' : Server} (h : Tidy srv) (hh : srv'.heap = srv.heap)
    (hw : ∀ cid w, srv'.store.getWill cid = some w → srv.store.getWill cid = some w) : Tidy srv' :=
  ⟨fun r s hs => h.sessions r s (hh ▸ hs), fun cid w hc => h.stored cid w (hw cid w hc)⟩

theorem publishStore_wills (s : MemoryStore) (t : Str) (m : Message) : (Broker.publishStore s t m).wills = s.wills := by
  unfold Broker.publishStore
  split
  · split
    · unfold MemoryStore.storeRetained; split <;> rfl
    · unfold MemoryStore.storeRetained; split <;> rfl
  · rfl

theorem processIncoming_wills (s : Session) (w : World) (m : Option AuthManager) (c : Nat) (p : Packet) :
    (s.processIncoming w m c p).world.broker.store.wills = w.broker.store.wills := by
  cases p with
  | publish p =>
    simp only [Session.processIncoming, Session.handlePublish]
    split
    · rfl
    · exact publishStore_wills _ _ _
  | subscribe p =>
    simp only [Session.processIncoming, Session.handleSubscribe]
    rw [(subscribeLoop_world _ s w).1]
  | auth p =>
    simp only [Session.processIncoming, Session.handleAuth]
    split <;> rfl
  | _ => rfl

theorem restore_keeps (fs : List Str) : ∀ (s : Session) (w : World),
    (s.restoreSubscriptions w fs).1.clientId = s.clientId ∧ (s.restoreSubscriptions w fs).1.will = s.will ∧
    (s.restoreSubscriptions w fs).2.broker.store = w.broker.store := by
  induction fs with
  | nil => intro s w; exact ⟨rfl, rfl, rfl⟩
  | cons f fs ih => intro s w; exact ih _ _

theorem get_of_erase {V : Type} {m : Map Str V} {k k' : Str} {v : V} (h : (m.erase k).get k' = some v) :
    m.get k' = some v := by
  rw [Map.get_erase] at h
  split at h
  · simp at h
  · exact h

theorem Tidy.finish {srv : Server} (h : Tidy srv) (c r : Nat) {s : Session} (hs : 10 ∉ s.clientId)
    (hw : ∀ w, s.will = some w → 10 ∉ w.topic) : Tidy (srv.finish c r s) := by
  have h0 : Tidy { srv with conns := srv.conns.erase c } := h.congr rfl (fun _ _ h => h)
  unfold Server.finish
  dsimp only
  split
  · exact h0.put hs hw
  · rename_i w _
    have h1 : Tidy { srv with conns := srv.conns.erase c, world := srv.world.publish (.will c) w.topic (willMessage w) } := by
      refine h0.congr rfl (fun cid v hv => ?_)
      unfold MemoryStore.getWill at hv ⊢
      have e : (Broker.publishStore srv.world.broker.store w.topic (willMessage w)).wills = srv.world.broker.store.wills :=
        publishStore_wills _ _ _
      change Map.get (Broker.publishStore srv.world.broker.store w.topic (willMessage w)).wills cid = some v at hv
      rwa [e] at hv
    have h2 := h1.put (r := r) (s := { s with will := none }) hs (by simp)
    refine h2.congr rfl (fun cid v hv => ?_)
    exact get_of_erase hv

theorem willOfConnect_topic {p : ConnectPacket} {w : StoredWill} (h : willOfConnect p = some w) :
    p.payload.willTopic = some w.topic := by
  unfold willOfConnect at h
  split at h
  · split at h
    · simp at h
    · rename_i t ht
      cases h
      exact ht
  · simp at h

theorem enter_keeps (srv : Server) (p : ConnectPacket) :
    (srv.enter p).1.heap = srv.heap ∧ (srv.enter p).1.world = srv.world ∧
    (srv.enter p).2.2.clientId = p.payload.clientId ∧ (srv.enter p).2.2.will = willOfConnect p := by
  unfold Server.enter
  dsimp only
  split
  · exact ⟨rfl, rfl, rfl, rfl⟩
  · split <;> exact ⟨rfl, rfl, rfl, rfl⟩

theorem Tidy.step {cfg : AuthConfig} {srv : Server} (h : Tidy srv) {e : Event} (he : OneLineNames e) :
    Tidy (srv.step cfg e).1 := by
  cases e with
  | first c p uuid w =>
    simp only [Server.step]
    split
    · exact h
    · cases p with
      | connect p =>
        obtain ⟨h1, h2, _, h4⟩ := he
        simp only [Server.connect]
        split
        · exact h
        · have hd : Tidy (srv.discard p.payload.clientId p.flags.cleanStart) := by
            unfold Server.discard
            split
            · exact h.congr rfl (fun cid v hv => get_of_erase hv)
            · exact h
          obtain ⟨e1, e2, e3, e4⟩ := enter_keeps (srv.discard p.payload.clientId p.flags.cleanStart) p
          unfold Server.start
          dsimp only
          generalize (srv.discard p.payload.clientId p.flags.cleanStart).enter p = x at e1 e2 e3 e4 ⊢
          have hx : Tidy x.1 := hd.congr e1 (fun cid v hv => by
            unfold Server.store at hv ⊢; rwa [e2] at hv)
          have hb : ∀ res, 10 ∉ (x.2.2.begin uuid res).1.clientId ∧ (x.2.2.begin uuid res).1.will = willOfConnect p := by
            intro res
            unfold Session.begin
            dsimp only
            split
            · exact ⟨h2, e4⟩
            · exact ⟨e3 ▸ h1, e4⟩
          have hbw : ∀ res v, (x.2.2.begin uuid res).1.will = some v → 10 ∉ v.topic := by
            intro res v hv
            rw [(hb res).2] at hv
            exact h4 _ (willOfConnect_topic hv)
          split
          · refine Tidy.put ?_ ?_ ?_
            · refine Tidy.congr (srv := x.1.mapStore (saveStart
                (x.2.2.begin uuid (srv.find p.payload.clientId p.flags.cleanStart).resume).1
                (srv.find p.payload.clientId p.flags.cleanStart).subscriptions)) ?_ rfl ?_
              · refine ⟨hx.sessions, fun cid v hv => ?_⟩
                change (saveStart _ _ x.1.store).getWill cid = some v at hv
                unfold saveStart at hv
                dsimp only at hv
                split at hv
                · rename_i w0 hw0
                  simp only [MemoryStore.storeWill, MemoryStore.getWill, MemoryStore.saveSession, Map.get_insert] at hv
                  split at hv
                  · cases hv; exact hbw _ _ hw0
                  · exact hx.stored cid v hv
                · exact hx.stored cid v hv
              · intro cid v hv
                unfold Server.store at hv ⊢
                rwa [(restore_keeps _ _ _).2.2] at hv
            · unfold restoreWill
              split
              · show 10 ∉ (Session.restoreSubscriptions _ _ _).1.clientId
                rw [(restore_keeps _ _ _).1]; exact (hb _).1
              · rw [(restore_keeps _ _ _).1]; exact (hb _).1
            · unfold restoreWill
              intro v hv
              split at hv
              · rename_i w0 hw0
                simp only [Option.some.injEq] at hv
                subst hv
                unfold Server.find at hw0
                split at hw0
                · simp [Server.Found.none] at hw0
                · split at hw0
                  · simp at hw0
                  · split at hw0
                    · exact h.stored _ _ hw0
                    · simp [Server.Found.none] at hw0
              · rw [(restore_keeps _ _ _).2.1] at hv
                exact hbw _ _ hv
          · exact hx.put (hb _).1 (hbw _)
      | _ => exact h
  | recv c p =>
    simp only [Server.step, Server.onConn]
    split
    · exact h
    · split
      · exact h
      · rename_i k _ _ s hs
        obtain ⟨a1, a2⟩ := h.sessions _ _ hs
        have main : ∀ p : Packet, Tidy (match (s.processIncoming srv.world cfg.manager c p).result with
            | .error _ => (Server.finish { srv with world := (s.processIncoming srv.world cfg.manager c p).world } c k.session
                (s.processIncoming srv.world cfg.manager c p).session, ({} : Out))
            | .ok res => ((Server.mapStore { srv with world := (s.processIncoming srv.world cfg.manager c p).world }
                (saveAfter (s.processIncoming srv.world cfg.manager c p).session p)).put k.session
                (s.processIncoming srv.world cfg.manager c p).session, { sent := res.toList })).1 := by
          intro p
          obtain ⟨b1, b2, _⟩ := processIncoming_keeps s srv.world cfg.manager c p
          have b3 := processIncoming_wills s srv.world cfg.manager c p
          generalize s.processIncoming srv.world cfg.manager c p = hd at b1 b2 b3 ⊢
          have hw : Tidy { srv with world := hd.world } := h.congr rfl (fun cid v hv => by
            unfold MemoryStore.getWill Server.store at hv ⊢; rwa [b3] at hv)
          split
          · exact hw.finish c _ (b2 ▸ a1) (fun v hv => a2 v (b1 ▸ hv))
          · refine Tidy.put ?_ (b2 ▸ a1) (fun v hv => a2 v (b1 ▸ hv))
            refine hw.congr rfl (fun cid v hv => ?_)
            have : (saveAfter hd.session p (Server.store { srv with world := hd.world })).wills =
                (Server.store { srv with world := hd.world }).wills := by
              unfold saveAfter
              split
              · rfl
              · rfl
              · unfold MemoryStore.removeInflight; split <;> rfl
              · unfold MemoryStore.removeInflight; split <;> rfl
              · rfl
            unfold MemoryStore.getWill at hv ⊢
            rwa [show (Server.store (Server.mapStore { srv with world := hd.world } (saveAfter hd.session p))).wills =
              (Server.store { srv with world := hd.world }).wills from this] at hv
        cases p with
        | disconnect p =>
          have : Tidy (srv.mapStore fun st => st.deleteWill s.clientId) :=
            h.congr rfl (fun cid v hv => get_of_erase hv)
          exact this.finish (s := { s with will := none }) c _ a1 (by simp)
        | connect p => exact main (.connect p)
        | connAck p => exact main (.connAck p)
        | publish p => exact main (.publish p)
        | pubAck p => exact main (.pubAck p)
        | pubRec p => exact main (.pubRec p)
        | pubRel p => exact main (.pubRel p)
        | pubComp p => exact main (.pubComp p)
        | subscribe p => exact main (.subscribe p)
        | subAck p => exact main (.subAck p)
        | unsubscribe p => exact main (.unsubscribe p)
        | unsubAck p => exact main (.unsubAck p)
        | pingReq => exact main .pingReq
        | pingResp => exact main .pingResp
        | auth p => exact main (.auth p)
  | deliver c f =>
    simp only [Server.step, Server.onConn]
    split
    · exact h
    · split
      · exact h
      · rename_i k _ _ s hs
        obtain ⟨a1, a2⟩ := h.sessions _ _ hs
        have hk : ∀ s', (∃ p, s.processOutgoing srv.world.broker.tree f = .packet s' p) ∨
            s.processOutgoing srv.world.broker.tree f = .panicked s' → s'.clientId = s.clientId ∧ s'.will = s.will := by
          intro s' hs'
          unfold Session.processOutgoing at hs'
          split at hs'
          · rcases hs' with ⟨_, h⟩ | h <;> simp at h
          · split at hs'
            · rcases hs' with ⟨_, h⟩ | h <;> simp at h
            · dsimp only at hs'
              unfold Session.noteOutgoing at hs'
              split at hs'
              · rcases hs' with ⟨_, h⟩ | h
                · simp at h
                · simp only [Session.Outgoing.panicked.injEq] at h; rw [← h]; exact ⟨rfl, rfl⟩
              · rename_i s'' hn
                rcases hs' with ⟨_, h⟩ | h
                · simp only [Session.Outgoing.packet.injEq] at h
                  obtain ⟨rfl, _⟩ := h
                  split at hn
                  · cases hn; exact ⟨rfl, rfl⟩
                  · split at hn
                    · cases hn; exact ⟨rfl, rfl⟩
                    · cases hn; exact ⟨rfl, rfl⟩
                    · cases hn; exact ⟨rfl, rfl⟩
                    · simp at hn
                · simp at h
        unfold Server.deliver
        split
        · exact h
        · rename_i s' p hs'
          obtain ⟨b1, b2⟩ := hk s' (Or.inl ⟨p, hs'⟩)
          refine Tidy.put ?_ (b1 ▸ a1) (fun v hv => a2 v (b2 ▸ hv))
          refine h.congr rfl (fun cid v hv => ?_)
          have : (saveOutgoing s' p srv.store).wills = srv.store.wills := by
            unfold saveOutgoing
            split
            · rfl
            · split <;> rfl
          unfold MemoryStore.getWill at hv ⊢
          rwa [show (Server.store (srv.mapStore (saveOutgoing s' p))).wills = srv.store.wills from this] at hv
        · rename_i s' hs'
          obtain ⟨b1, b2⟩ := hk s' (Or.inr hs')
          exact Tidy.put (srv := { srv with conns := srv.conns.erase c }) (h.congr rfl (fun _ _ h => h)) (b1 ▸ a1) (fun v hv => a2 v (b2 ▸ hv))
  | close c =>
    simp only [Server.step, Server.onConn]
    split
    · exact h
    · split
      · exact h
      · rename_i k _ _ s hs
        obtain ⟨a1, a2⟩ := h.sessions _ _ hs
        exact h.finish c _ a1 a2
  | abort c => exact h.congr rfl (fun _ _ h => h)
  | restart => exact ⟨fun r s hs => by simp [Server.step, Map.get] at hs, h.stored⟩

theorem decimal_one_line (n : Nat) : 10 ∉ decimal n := by
  unfold decimal str
  rw [Nat.toString_eq_ofList_toDigits]
  intro h
  have h' : (10 : UInt8) ∈ (Nat.toDigits 10 n).flatMap String.utf8EncodeChar := by
    simpa [String.toByteArray_ofList, List.utf8Encode] using h
  obtain ⟨ch, h1, h2⟩ := List.mem_flatMap.mp h'
  have hd := Nat.isDigit_of_mem_toDigits (by decide) (by decide) h1
  simp only [Char.isDigit, Bool.and_eq_true, decide_eq_true_eq] at hd
  have hu : ch.val.toNat ≤ 57 := UInt32.le_iff_toNat_le.mp hd.2
  have hl : 48 ≤ ch.val.toNat := UInt32.le_iff_toNat_le.mp hd.1
  rw [String.utf8EncodeChar_eq_singleton (by
    simp only [Char.utf8Size]
    rw [if_pos (UInt32.le_iff_toNat_le.mpr (by show ch.val.toNat ≤ 127; omega))])] at h2
  have h3 := congrArg UInt8.toNat (List.mem_singleton.mp h2)
  have h4 : (10 : UInt8).toNat = 10 := rfl
  rw [h4, UInt32.toNat_toUInt8] at h3
  omega

theorem willLog_one_line {s : Session} (hs : 10 ∉ s.clientId) (hw : ∀ w, s.will = some w → 10 ∉ w.topic) :
    ∀ l ∈ willLog s, 10 ∉ l.message := by
  intro l hl
  unfold willLog at hl
  split at hl
  · simp at hl
  · rename_i w hw0
    rw [List.mem_singleton.mp hl]
    simp only [List.mem_append, not_or]
    exact ⟨⟨⟨⟨by decide +kernel, hs⟩, by decide +kernel⟩, hw w hw0⟩, by decide +kernel⟩

theorem errorLine_one_line (e : Err) : 10 ∉ (errorLine e).message := by
  show 10 ∉ str "Connection error"
  decide +kernel

theorem startLog_one_line {srv : Server} {p : ConnectPacket} {uuid : Str} {w : Bool} (h1 : 10 ∉ p.payload.clientId)
    (h2 : 10 ∉ uuid) : ∀ l ∈ srv.startLog p uuid w, 10 ∉ l.message := by
  intro x hx
  unfold startLog at hx
  simp only [List.mem_append, List.mem_singleton] at hx
  rcases hx with (hx | rfl) | hx
  · unfold foundLog at hx
    split at hx
    · simp at hx
    · split at hx
      · simp at hx
      · simp only [List.mem_append, List.mem_singleton] at hx
        rcases hx with (rfl | hx) | hx
        · simp only [List.mem_append, not_or]
          exact ⟨⟨⟨⟨by decide +kernel, h1⟩, by decide +kernel⟩, decimal_one_line _⟩, by decide +kernel⟩
        · split at hx
          · rw [List.mem_singleton.mp hx]
            simp only [List.mem_append, not_or]
            exact ⟨⟨by decide +kernel, h1⟩, by decide +kernel⟩
          · simp at hx
        · split at hx
          · simp at hx
          · rw [List.mem_singleton.mp hx]
            simp only [List.mem_append, not_or]
            exact ⟨⟨⟨⟨by decide +kernel, decimal_one_line _⟩, by decide +kernel⟩, h1⟩, by decide +kernel⟩
  · simp only [beginLine, List.mem_append, not_or]
    obtain ⟨_, _, e3, _⟩ := enter_keeps (srv.discard p.payload.clientId p.flags.cleanStart) p
    refine ⟨⟨⟨⟨by decide +kernel, ?_⟩, by decide +kernel⟩, ?_⟩, by decide +kernel⟩
    · unfold Session.begin
      dsimp only
      split
      · exact h2
      · dsimp only
        rw [e3]
        exact h1
    · split <;> decide +kernel
  · split at hx
    · simp at hx
    · rw [List.mem_singleton.mp hx]; exact errorLine_one_line _

theorem logged_one_line (pr : Printing) {cfg : AuthConfig} {srv : Server} (h : Tidy srv) (why : Ending) {e : Event}
    (he : OneLineNames e) : ∀ l ∈ srv.logged pr cfg why e, l.level ≠ .debug → 10 ∉ l.message := by
  have hat : ∀ c (f : Session → List LogLine), (∀ s, 10 ∉ s.clientId → (∀ w, s.will = some w → 10 ∉ w.topic) →
      ∀ l ∈ f s, l.level ≠ .debug → 10 ∉ l.message) → ∀ l ∈ srv.logAt c f, l.level ≠ .debug → 10 ∉ l.message := by
    intro c f hf l hl
    unfold logAt at hl
    split at hl
    · simp at hl
    · split at hl
      · simp at hl
      · rename_i s hs
        exact hf s (h.sessions _ _ hs).1 (h.sessions _ _ hs).2 l hl
  cases e with
  | first c p uuid w =>
    intro l hl _
    simp only [logged] at hl
    split at hl
    · simp at hl
    · cases p with
      | connect p =>
        obtain ⟨h1, h2, h3, _⟩ := he
        dsimp only at hl
        split at hl
        · unfold refusalLog at hl
          split at hl
          · rename_i u pw hu _
            split at hl
            · split at hl
              · simp at hl
              · rw [List.mem_singleton.mp hl]
                simp only [refusedLine, List.mem_append, not_or]
                exact ⟨⟨by decide +kernel, h3 u hu⟩, by decide +kernel⟩
            · simp at hl
          · rw [List.mem_singleton.mp hl]
            show 10 ∉ str "Authentication required but no credentials provided"
            decide +kernel
        · exact startLog_one_line h1 h2 l hl
      | _ =>
        rw [List.mem_singleton.mp hl]
        show 10 ∉ str "ConnectPacket expectation not met"
        decide +kernel
  | recv c p =>
    refine hat c _ (fun s hs hw l hl hd => ?_)
    unfold recvLog at hl
    split at hl
    · simp at hl
    · dsimp only at hl
      obtain ⟨b1, b2, _⟩ := processIncoming_keeps s srv.world cfg.manager c p
      split at hl
      · rcases List.mem_append.mp hl with hl | hl
        · exact willLog_one_line (b2 ▸ hs) (fun w hw' => hw w (b1 ▸ hw')) l hl
        · rw [List.mem_singleton.mp hl]; exact errorLine_one_line _
      · simp at hl
      · rw [List.mem_singleton.mp hl] at hd; simp at hd
  | deliver c f =>
    refine hat c _ (fun s hs hw l hl hd => ?_)
    unfold deliverLog at hl
    split at hl
    · rw [List.mem_singleton.mp hl] at hd; simp at hd
    · simp at hl
  | close c =>
    refine hat c _ (fun s hs hw l hl hd => ?_)
    cases why with
    | quiet => exact willLog_one_line hs hw l hl
    | timeout n =>
      rcases List.mem_cons.mp hl with rfl | hl
      · simp only [List.mem_append, not_or]
        exact ⟨⟨⟨⟨by decide +kernel, hs⟩, by decide +kernel⟩, decimal_one_line n⟩, by decide +kernel⟩
      · exact willLog_one_line hs hw l hl
    | failed e =>
      rcases List.mem_append.mp hl with hl | hl
      · exact willLog_one_line hs hw l hl
      · rw [List.mem_singleton.mp hl]; exact errorLine_one_line _
  | abort c => intro l hl; simp [logged] at hl
  | restart => intro l hl; simp [logged] at hl

/-- C121 (partial): as long as no client identifier, user name or will topic contains a line feed, every message of the
log is one line (above the level of debugging, at which whole packets are printed): then a line that tells of a refused
password is one that the server wrote, `C121_refused_are_told`. -/
theorem C121_one_line_partial (pr : Printing) (cfg : AuthConfig) (es : List (Event × Ending))
    (h : ∀ x ∈ es, OneLineNames x.1) :
    ∀ l ∈ Server.init.log pr cfg es, l.level ≠ .debug → 10 ∉ l.message := by
  have key : ∀ srv : Server, Tidy srv → ∀ l ∈ srv.log pr cfg es, l.level ≠ .debug → 10 ∉ l.message := by
    induction es with
    | nil => intro srv _ l hl; simp [log] at hl
    | cons x es ih =>
      obtain ⟨e, why⟩ := x
      intro srv ht l hl
      simp only [log] at hl
      rcases List.mem_append.mp hl with hl | hl
      · exact logged_one_line pr ht why (h (e, why) (by simp)) l hl
      · exact ih (fun x hx => h x (by simp [hx])) _ (ht.step (h (e, why) (by simp))) l hl
  exact key _ Tidy.init

/-! ## Examples -/

/-- Printing for the examples. -/
def exPrinting : Printing := ⟨fun s => str "\"" ++ s ++ str "\"", fun _ => str "(packet)"⟩

/-- The CONNECT of `exConnect` with another password. -/
def exWith (id : Str) (pw : Buf) : ConnectPacket :=
  { exConnect id true with payload := { (exConnect id true).payload with password := some pw } }

/-- A client that is refused, one that is admitted and ends by a timeout, and a stray packet. -/
def exLogged (pw : Buf) : List (Event × Ending) :=
  [(.first 0 (.connect (exWith (str "x") pw)) (str "i") true, .quiet),
   (.first 1 (.connect (exConnect (str "y") true)) (str "j") true, .quiet),
   (.first 2 .pingReq (str "k") true, .quiet),
   (.recv 1 .pingReq, .quiet),
   (.close 1, .timeout 90)]

/-- Two wrong passwords, one log. -/
example : SameButPasswords exCfg (exLogged (str "guess")) (exLogged (str "other")) ∧
    Server.init.log exPrinting exCfg (exLogged (str "guess")) =
      [⟨.warn, str "Authentication failed for user `u`", none⟩,
       ⟨.info, str "Client with id `y` started a session", none⟩,
       ⟨.error, str "ConnectPacket expectation not met", none⟩,
       ⟨.debug, str "Sending response packet:(packet) to client \"y\"", none⟩,
       ⟨.warn, str "Keep-alive timeout for client `y` (90s with no packets)", none⟩,
       ⟨.info, str "Publishing will message for client `y` on topic `gone`", none⟩] := by
  refine ⟨.cons ⟨rfl, ?_⟩ (.cons ⟨rfl, ?_⟩ (.cons ⟨rfl, ?_⟩ (.cons ⟨rfl, ?_⟩ (.cons ⟨rfl, ?_⟩ .nil)))), by decide +kernel⟩
  · rintro _ c p p' uuid w he he'
    cases he; cases he'
    refine ⟨rfl, ?_⟩
    intro check user pw pw' hv hu hp hp'
    cases hv; cases hp; cases hp'; cases hu
    decide +kernel
  · rintro _ c p p' uuid w he he'
    cases he; cases he'
    refine ⟨rfl, ?_⟩
    intro check user pw pw' hv hu hp hp'
    cases hp; cases hp'
    rfl
  · rintro _ c p p' uuid w he; cases he
  · rintro _ c p p' uuid w he; cases he
  · rintro _ c p p' uuid w he; cases he

/-- The refused user of the history, and names without line feeds. -/
example : refusedUsers exCfg Server.init ((exLogged (str "guess")).map Prod.fst) = [str "u"] ∧
    ∀ x ∈ exLogged (str "guess"), OneLineNames x.1 := by
  refine ⟨by decide +kernel, ?_⟩
  intro x hx
  simp only [exLogged, List.mem_cons, List.not_mem_nil, or_false] at hx
  rcases hx with rfl | rfl | rfl | rfl | rfl
  · refine ⟨by decide +kernel, by decide +kernel, ?_, ?_⟩
    · intro u hu; cases hu; decide +kernel
    · intro u hu; cases hu; decide +kernel
  · refine ⟨by decide +kernel, by decide +kernel, ?_, ?_⟩
    · intro u hu; cases hu; decide +kernel
    · intro u hu; cases hu; decide +kernel
  · trivial
  · trivial
  · trivial

/-- Authentication without a check. -/
example : ({ requireAuth := true } : AuthConfig).validator = none ∧ ¬ Server.init.isOpen 0 ∧
    (exConnect (str "x") true).payload.userName = some (str "u") ∧
    (exConnect (str "x") true).payload.password = some (str "p") := by
  refine ⟨rfl, ?_, rfl, rfl⟩
  rw [isOpen_iff]; decide +kernel

/-- A forged line, and a server that refuses the password. -/
example : IsUtf8 (str "2026-11-17T00:00:00Z  INFO all is well") ∧
    (str "2026-11-17T00:00:00Z  INFO all is well").length ≤ 65533 ∧
    (∀ user pw, (forger (str "a")).payload.userName = some user → (forger (str "a")).payload.password = some pw →
      (fun u p => u = str "u" ∧ p = str "p" : Str → Buf → Prop) user pw → False) ∧
    Server.init.logged exPrinting exCfg .quiet (.first 0 (.connect (forger (str "a"))) (str "i") true) =
      [⟨.warn, str "Authentication failed for user `\na\n`", none⟩] := by
  refine ⟨⟨"2026-11-17T00:00:00Z  INFO all is well".toList, by decide +kernel⟩, by decide +kernel, ?_, by decide +kernel⟩
  rintro user pw hu _ ⟨rfl, _⟩
  cases hu

end Mercurio
