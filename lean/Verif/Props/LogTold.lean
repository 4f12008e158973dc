import Verif.Props.Log

/-!
# C122: sessions and wills in the log
-/

namespace Mercurio

open Spec Server

/-! ## Which lines begin how -/

/-- A line that tells of a session. -/
theorem tellsSession_head {l : LogLine} (h : tellsSession l = true) : l.message.head? = some 67 := by
  simp only [tellsSession, Bool.and_eq_true, List.isPrefixOf_iff_prefix] at h
  obtain ⟨_, t, ht⟩ := h
  rw [← ht, show str "Client with id `" = 67 :: (str "Client with id `").tail by decide +kernel]
  rfl

/-- A line that tells of a will. -/
theorem tellsWill_head {l : LogLine} (h : tellsWill l = true) : l.message.head? = some 80 := by
  simp only [tellsWill, Bool.and_eq_true, List.isPrefixOf_iff_prefix] at h
  obtain ⟨_, t, ht⟩ := h
  rw [← ht, show str "Publishing will message for client `" =
    80 :: (str "Publishing will message for client `").tail by decide +kernel]
  rfl

theorem tells_info {l : LogLine} : (tellsSession l = true → l.level = .info) ∧ (tellsWill l = true → l.level = .info) := by
  constructor <;> intro h
  · simp only [tellsSession, Bool.and_eq_true, decide_eq_true_eq] at h; exact h.1
  · simp only [tellsWill, Bool.and_eq_true, decide_eq_true_eq] at h; exact h.1

/-- Neither kind of line. -/
def Aside (l : LogLine) : Prop := l.level ≠ .info ∨ (l.message.head? ≠ some 67 ∧ l.message.head? ≠ some 80)

theorem Aside.session {l : LogLine} (h : Aside l) : tellsSession l = false := by
  cases ht : tellsSession l with
  | false => rfl
  | true => exact (h.elim (fun h => h (tells_info.1 ht)) (fun h => h.1 (tellsSession_head ht))).elim

theorem Aside.will {l : LogLine} (h : Aside l) : tellsWill l = false := by
  cases ht : tellsWill l with
  | false => rfl
  | true => exact (h.elim (fun h => h (tells_info.2 ht)) (fun h => h.2 (tellsWill_head ht))).elim

theorem aside_filters {l : List LogLine} (h : ∀ x ∈ l, Aside x) :
    l.filter tellsSession = [] ∧ l.filter tellsWill = [] := by
  simp only [List.filter_eq_nil_iff]
  exact ⟨fun x hx => by simp [(h x hx).session], fun x hx => by simp [(h x hx).will]⟩

theorem restoring_head (x : Str) : (str "Restoring session for client `" ++ x).head? = some 82 ∧
    (str "Restoring will message for client `" ++ x).head? = some 82 ∧ (str "Restoring " ++ x).head? = some 82 := by
  rw [show str "Restoring session for client `" = 82 :: (str "Restoring session for client `").tail by decide +kernel,
    show str "Restoring will message for client `" = 82 :: (str "Restoring will message for client `").tail by
      decide +kernel, show str "Restoring " = 82 :: (str "Restoring ").tail by decide +kernel]
  exact ⟨rfl, rfl, rfl⟩

theorem foundLog_aside (srv : Server) (cid : Str) (clean : Bool) : ∀ x ∈ srv.foundLog cid clean, Aside x := by
  intro x hx
  have hd : (82 : UInt8) ≠ 67 ∧ (82 : UInt8) ≠ 80 := by decide
  unfold foundLog at hx
  split at hx
  · simp at hx
  · split at hx
    · simp at hx
    · simp only [List.mem_append, List.mem_singleton] at hx
      rcases hx with (rfl | hx) | hx
      · refine Or.inr ?_
        simp only [List.append_assoc, (restoring_head _).1]
        simpa using hd
      · split at hx
        · rw [List.mem_singleton.mp hx]
          refine Or.inr ?_
          simp only [List.append_assoc, (restoring_head _).2.1]
          simpa using hd
        · simp at hx
      · split at hx
        · simp at hx
        · rw [List.mem_singleton.mp hx]
          refine Or.inr ?_
          simp only [List.append_assoc, (restoring_head _).2.2]
          simpa using hd

theorem errorLine_aside (e : Err) : Aside (errorLine e) := Or.inl (by simp [errorLine])

theorem beginLine_tells (id : Str) (b : Bool) : tellsSession (beginLine id b) = true ∧
    tellsWill (beginLine id b) = false ∧ (beginLine id b).message = toldSession id b := by
  have h1 : tellsSession (beginLine id b) = true := by
    simp only [tellsSession, beginLine, decide_true, Bool.true_and, List.append_assoc]
    rw [List.isPrefixOf_iff_prefix]
    exact List.prefix_append _ _
  refine ⟨h1, ?_, rfl⟩
  cases hw : tellsWill (beginLine id b) with
  | false => rfl
  | true =>
    have := (tellsSession_head h1).symm.trans (tellsWill_head hw)
    simp at this

theorem willLog_tells (s : Session) : (willLog s).filter tellsSession = [] ∧
    ((willLog s).filter tellsWill).map (·.message) = match s.will with
      | none => []
      | some w => [toldWill s.clientId w.topic] := by
  unfold willLog
  cases s.will with
  | none => exact ⟨rfl, rfl⟩
  | some w =>
    have h1 : tellsWill ⟨.info, str "Publishing will message for client `" ++ s.clientId ++ str "` on topic `" ++
        w.topic ++ str "`", none⟩ = true := by
      simp only [tellsWill, decide_true, Bool.true_and, List.append_assoc]
      rw [List.isPrefixOf_iff_prefix]
      exact List.prefix_append _ _
    have h2 : tellsSession ⟨.info, str "Publishing will message for client `" ++ s.clientId ++ str "` on topic `" ++
        w.topic ++ str "`", none⟩ = false := by
      cases ht : tellsSession ⟨.info, str "Publishing will message for client `" ++ s.clientId ++ str "` on topic `" ++
        w.topic ++ str "`", none⟩ with
      | false => rfl
      | true =>
        have := (tellsSession_head ht).symm.trans (tellsWill_head h1)
        simp at this
    dsimp only
    constructor
    · rw [List.filter_cons, h2]; rfl
    · rw [List.filter_cons, h1]; rfl

theorem recvLog_tells (pr : Printing) (cfg : AuthConfig) (srv : Server) (c : Nat) (s : Session) (p : Packet) :
    (srv.recvLog pr cfg c s p).filter tellsSession = [] := by
  unfold recvLog
  split
  · rfl
  · dsimp only
    split
    · rw [List.filter_append, (willLog_tells _).1,
        (aside_filters (l := [errorLine _]) (by intro x hx; rw [List.mem_singleton.mp hx]; exact errorLine_aside _)).1]
      rfl
    · rfl
    · exact (aside_filters (by intro x hx; rw [List.mem_singleton.mp hx]; exact Or.inl (by simp))).1

theorem deliverLog_tells (pr : Printing) (srv : Server) (s : Session) (f : Str) :
    (srv.deliverLog pr s f).filter tellsSession = [] ∧ (srv.deliverLog pr s f).filter tellsWill = [] := by
  refine aside_filters fun x hx => ?_
  unfold deliverLog at hx
  split at hx
  · rw [List.mem_singleton.mp hx]; exact Or.inl (by simp)
  · simp at hx

theorem closeLog_tells (s : Session) (why : Ending) : (closeLog s why).filter tellsSession = [] ∧
    (closeLog s why).filter tellsWill = (willLog s).filter tellsWill := by
  cases why with
  | quiet => exact ⟨(willLog_tells s).1, rfl⟩
  | timeout n =>
    have h : Aside ⟨.warn, str "Keep-alive timeout for client `" ++ s.clientId ++ str "` (" ++ decimal n ++
      str "s with no packets)", none⟩ := Or.inl (by simp)
    simp only [closeLog, List.filter_cons, h.session, h.will]
    exact ⟨(willLog_tells s).1, rfl⟩
  | failed e =>
    simp only [closeLog, List.filter_append]
    rw [(willLog_tells s).1, (aside_filters (l := [errorLine e])
      (by intro x hx; rw [List.mem_singleton.mp hx]; exact errorLine_aside _)).1,
      (aside_filters (l := [errorLine e]) (by intro x hx; rw [List.mem_singleton.mp hx]; exact errorLine_aside _)).2]
    simp

theorem startLog_tells (srv : Server) (p : ConnectPacket) (uuid : Str) (w : Bool) :
    (srv.startLog p uuid w).filter tellsSession =
      [beginLine (identity p uuid) (srv.find p.payload.clientId p.flags.cleanStart).resume] ∧
    (srv.startLog p uuid w).filter tellsWill = [] := by
  have he : ∀ x ∈ (if w then [] else [errorLine .io]), Aside x := by
    intro x hx
    split at hx
    · simp at hx
    · rw [List.mem_singleton.mp hx]; exact errorLine_aside _
  obtain ⟨h1, h2, _⟩ := enter_session (srv.discard p.payload.clientId p.flags.cleanStart) p
  have hid := (begin_eq _ uuid (srv.find p.payload.clientId p.flags.cleanStart).resume p h1 h2).2.1
  simp only [startLog, hid, List.filter_append, (aside_filters (foundLog_aside srv _ _)).1,
    (aside_filters (foundLog_aside srv _ _)).2, (aside_filters he).1, (aside_filters he).2, List.filter_cons,
    (beginLine_tells _ _).1, (beginLine_tells _ _).2.1]
  simp

theorem refusalLog_tells (cfg : AuthConfig) (p : ConnectPacket) :
    (refusalLog cfg p).filter tellsSession = [] ∧ (refusalLog cfg p).filter tellsWill = [] := by
  refine aside_filters fun x hx => ?_
  unfold refusalLog at hx
  split at hx
  · split at hx
    · split at hx
      · simp at hx
      · rw [List.mem_singleton.mp hx]; exact Or.inl (by simp [refusedLine])
    · simp at hx
  · rw [List.mem_singleton.mp hx]; exact Or.inl (by simp)

theorem logAt_at (srv : Server) (c : Nat) (f : Session → List LogLine) :
    srv.logAt c f = match srv.at c with
      | none => []
      | some s => f s := by
  unfold logAt Server.at
  cases srv.conns.get c <;> rfl

/-! ## C122 -/

/-- C122: as long as CONNACKs can be written, the lines of the log about sessions are exactly the admitted clients, in order,
each with its identifier, and they say "resumed" exactly for those whose CONNACK reports a session. -/
theorem C122_sessions (pr : Printing) (cfg : AuthConfig) (srv : Server) (es : List (Event × Ending))
    (hw : ∀ x ∈ es, ∀ c p uuid w, x.1 = .first c p uuid w → w = true) :
    ((srv.log pr cfg es).filter tellsSession).map (·.message) = sessionsToTell cfg srv (es.map Prod.fst) := by
  induction es generalizing srv with
  | nil => rfl
  | cons x es ih =>
    obtain ⟨e, why⟩ := x
    simp only [log, List.map_cons, sessionsToTell, List.filter_append, List.map_append]
    rw [ih _ fun x hx => hw x (by simp [hx])]
    congr 1
    have hnil : ∀ {l : List LogLine}, l.filter tellsSession = [] → (l.filter tellsSession).map (·.message) = [] := by
      intro l hl; rw [hl]; rfl
    cases e with
    | first c p uuid w =>
      have hww := hw (.first c p uuid w, why) (by simp) c p uuid w rfl
      subst hww
      cases p with
      | connect p =>
        simp only [logged]
        cases hc : srv.conns.get c with
        | some k => simp [Server.step, hc]
        | none =>
          have hco : ¬ srv.isOpen c := by rintro ⟨k, hk⟩; rw [hc] at hk; cases hk
          simp only [Option.isSome_none, Bool.false_eq_true, if_false]
          cases ha : cfg.requireAuth && !authenticated cfg p with
          | true =>
            simp only [if_true]
            rw [hnil (refusalLog_tells cfg p).1]
            simp [Server.step, hc, Server.connect, ha, refusal]
          | false =>
            have hadm : Admitted cfg srv c p := by
              refine ⟨hco, fun hr => ?_⟩
              rw [hr] at ha
              simp at ha
              exact (authenticated_iff cfg p).mp ha
            obtain ⟨h1, h2, _⟩ := enter_session (srv.discard p.payload.clientId p.flags.cleanStart) p
            simp only [Bool.false_eq_true, if_false]
            rw [(startLog_tells srv p uuid true).1, step_first hadm]
            simp only [Server.start, if_true, (begin_eq _ uuid _ p h1 h2).1, List.map_cons, List.map_nil,
              (beginLine_tells _ _).2.2]
            rfl
      | _ =>
        simp only [logged]
        split
        · rfl
        · rfl
    | recv c p =>
      simp only [logged, logAt_at]
      refine hnil ?_
      split
      · rfl
      · exact recvLog_tells pr cfg srv c _ p
    | deliver c f =>
      simp only [logged, logAt_at]
      refine hnil ?_
      split
      · rfl
      · exact (deliverLog_tells pr srv _ f).1
    | close c =>
      simp only [logged, logAt_at]
      refine hnil ?_
      split
      · rfl
      · exact (closeLog_tells _ why).1
    | abort c => rfl
    | restart => rfl

/-- What the log has to tell of a list of calls. -/
def toldOf (srv : Server) (calls : List Call) : List Str := calls.filterMap (fun call => match call with
      | .publish (.will c) topic _ => (srv.at c).map fun s => toldWill s.clientId topic
      | _ => none)

theorem toldOf_willCalls {srv : Server} {c : Nat} {s s' : Session} (h : srv.at c = some s) (hi : s'.clientId = s.clientId)
    (hw : s'.will = s.will) :
    toldOf srv (willCalls c s) = ((willLog s').filter tellsWill).map (·.message) := by
  rw [(willLog_tells s').2, hw, hi]
  unfold willCalls toldOf
  cases s.will with
  | none => rfl
  | some w => simp [h]

/-- C122: the lines of the log about wills are exactly the wills that are published to the broker, in order, each with its
topic and the identifier of the client whose connection ended. -/
theorem C122_wills (pr : Printing) (cfg : AuthConfig) (srv : Server) (es : List (Event × Ending)) :
    ((srv.log pr cfg es).filter tellsWill).map (·.message) = willsToTell cfg srv (es.map Prod.fst) := by
  induction es generalizing srv with
  | nil => rfl
  | cons x es ih =>
    obtain ⟨e, why⟩ := x
    simp only [log, List.map_cons, willsToTell, List.filter_append, List.map_append]
    rw [ih]
    congr 1
    rw [step_log, List.drop_left]
    show _ = toldOf srv (eventCalls cfg srv e)
    have hnil : ∀ {l : List LogLine}, l.filter tellsWill = [] → (l.filter tellsWill).map (·.message) = [] := by
      intro l hl; rw [hl]; rfl
    have hsub : ∀ l : List Str, toldOf srv (l.map Call.subscribe) = [] := by
      intro l
      induction l with
      | nil => rfl
      | cons a l ih => simpa [toldOf] using ih
    cases e with
    | first c p uuid w =>
      have hr : toldOf srv (eventCalls cfg srv (.first c p uuid w)) = [] := by
        cases p with
        | connect q =>
          simp only [eventCalls]
          split
          · exact hsub _
          · rfl
        | _ => rfl
      rw [hr]
      refine hnil ?_
      simp only [logged]
      split
      · rfl
      · cases p with
        | connect q =>
          dsimp only
          split
          · exact (refusalLog_tells cfg q).2
          · exact (startLog_tells srv q uuid w).2
        | _ => rfl
    | recv c p =>
      simp only [logged, logAt_at, eventCalls]
      cases ha : srv.at c with
      | none => rfl
      | some s =>
        dsimp only
        have hp : toldOf srv (packetCalls c p) = [] := by
          cases p with
          | publish p =>
            simp only [packetCalls]
            split <;> rfl
          | subscribe p => exact hsub _
          | _ => rfl
        have happ : ∀ l l', toldOf srv (l ++ l') = toldOf srv l ++ toldOf srv l' := fun l l' => by
          simp [toldOf, List.filterMap_append]
        rw [happ, hp, List.nil_append]
        by_cases hd : ∃ d, p = .disconnect d
        · obtain ⟨d, rfl⟩ := hd
          rw [if_pos (Or.inl ⟨d, rfl⟩)]
          rfl
        · obtain ⟨k, hk, hs, e⟩ := step_recv (cfg := cfg) (p := p) ha (fun d he => hd ⟨d, he⟩)
          have hl : srv.recvLog pr cfg c s p = match (s.processIncoming srv.world cfg.manager c p).result with
              | .error e => willLog (s.processIncoming srv.world cfg.manager c p).session ++ [errorLine e]
              | .ok none => []
              | .ok (some res) => [⟨.debug, str "Sending response packet:" ++ pr.packet res ++ str " to client " ++
                  pr.text (s.processIncoming srv.world cfg.manager c p).session.clientId, none⟩] := by
            cases p with
            | disconnect d => exact absurd ⟨d, rfl⟩ hd
            | _ => rfl
          rw [hl, e]
          cases hr : (s.processIncoming srv.world cfg.manager c p).result with
          | error err =>
            simp only
            rw [if_neg]
            · rw [List.filter_append, (aside_filters (l := [errorLine err])
                (by intro x hx; rw [List.mem_singleton.mp hx]; exact errorLine_aside _)).2, List.append_nil]
              exact (toldOf_willCalls ha (processIncoming_keeps _ _ _ _ _).2.1 (processIncoming_keeps _ _ _ _ _).1).symm
            · rintro (h | h)
              · exact hd h
              · exact not_open_finish _ _ _ _ h
          | ok res =>
            rw [if_pos (Or.inr ⟨k, hk⟩)]
            cases res with
            | none => rfl
            | some res => exact hnil (aside_filters (by
                intro x hx; rw [List.mem_singleton.mp hx]; exact Or.inl (by simp))).2
    | deliver c f =>
      simp only [logged, logAt_at, eventCalls]
      refine hnil ?_
      split
      · rfl
      · exact (deliverLog_tells pr srv _ f).2
    | close c =>
      simp only [logged, logAt_at, eventCalls]
      cases ha : srv.at c with
      | none => rfl
      | some s =>
        dsimp only
        rw [(closeLog_tells s why).2, toldOf_willCalls ha rfl rfl]
    | abort c => rfl
    | restart => rfl

/-- What the log of `exLogged` tells of sessions and wills. -/
example : (∀ x ∈ exLogged (str "guess"), ∀ c p uuid w, x.1 = .first c p uuid w → w = true) ∧
    sessionsToTell exCfg Server.init ((exLogged (str "guess")).map Prod.fst) =
      [str "Client with id `y` started a session"] ∧
    willsToTell exCfg Server.init ((exLogged (str "guess")).map Prod.fst) =
      [str "Publishing will message for client `y` on topic `gone`"] := by
  refine ⟨?_, by decide +kernel, by decide +kernel⟩
  intro x hx c p uuid w he
  simp only [exLogged, List.mem_cons, List.not_mem_nil, or_false] at hx
  rcases hx with rfl | rfl | rfl | rfl | rfl <;> cases he <;> rfl

end Mercurio
