import Verif.Lemmas.Persist

/-!
# C39, C44, C48: over whole histories

What is stored of a session survives a restart, session present means "has been here before", and an
AUTH exchange of any number of rounds is led by the method that began it.
-/

namespace Mercurio

open Spec Server

/-! ## C39: restarts -/

/-- The event makes the server store subscriptions for client identifier `cid`: a CONNECT under this
identifier (or given it by the server), or a SUBSCRIBE or UNSUBSCRIBE on a connection of that client. -/
def Event.Stores (srv : Server) (cid : Str) : Event → Prop
  | .first _ (.connect p) uuid _ => p.payload.clientId = cid ∨ uuid = cid
  | .recv c (.subscribe _) => ∃ s, srv.at c = some s ∧ s.clientId = cid
  | .recv c (.unsubscribe _) => ∃ s, srv.at c = some s ∧ s.clientId = cid
  | _ => False

/-- None of the events does, each in the state it happens in. -/
def LeavesStored (cfg : AuthConfig) (cid : Str) : Server → List Event → Prop
  | _, [] => True
  | srv, e :: es => ¬ e.Stores srv cid ∧ LeavesStored cfg cid (srv.step cfg e).1 es

theorem leaves_step (cfg : AuthConfig) {cid : Str} {srv : Server} {e : Event} (h : ¬ e.Stores srv cid) :
    (srv.step cfg e).1.store.loadSession cid = srv.store.loadSession cid ∧
      (srv.sessions.get cid = none → (srv.step cfg e).1.sessions.get cid = none) := by
  by_cases h1 : ∃ c p u w, e = .first c p u w
  · obtain ⟨c, p, u, w, rfl⟩ := h1
    rcases step_first_cases cfg srv c p u w with ⟨h', _⟩ | ⟨q, rfl, hq, h'⟩
    · rw [h']; exact ⟨rfl, id⟩
    · have hn : q.payload.clientId ≠ cid ∧ u ≠ cid :=
        ⟨fun hc => h (Or.inl hc), fun hc => h (Or.inr hc)⟩
      rw [h']
      cases w with
      | true =>
        have hb := began srv c q u
        refine ⟨?_, fun hs => ?_⟩
        · have hi : identity q u ≠ cid := by unfold identity; split <;> simp [hn]
          rw [hb.stored, if_neg hi, if_neg (fun hc => hn.1 hc.2)]
        · cases hg : (srv.start c q u true).1.sessions.get cid with
          | none => rfl
          | some r =>
            have := hb.table cid (Ne.symm hn.1) (by rw [hg]; rfl)
            rw [hs] at this; cases this
      | false =>
        obtain ⟨_, e2, e3⟩ := enter_tables (srv.discard q.payload.clientId q.flags.cleanStart) q
        constructor
        · show ((srv.discard q.payload.clientId q.flags.cleanStart).enter q).1.store.loadSession cid = _
          rw [e2]
          unfold Server.discard; split
          · show (srv.store.sessions.erase _).get cid = _
            rw [Map.get_erase, if_neg hn.1]; rfl
          · rfl
        · intro hs
          show ((srv.discard q.payload.clientId q.flags.cleanStart).enter q).1.sessions.get cid = _
          rw [e3 cid (Ne.symm hn.1)]
          unfold Server.discard; split
          · show (srv.sessions.erase _).get cid = _
            rw [Map.get_erase, if_neg hn.1]; exact hs
          · exact hs
  · by_cases h2 : e = .restart
    · subst h2; exact ⟨rfl, fun _ => rfl⟩
    · have hc := calm cfg srv (e := e) (fun c p u w he => h1 ⟨c, p, u, w, he⟩) h2
      refine ⟨?_, fun hs => by rw [hc.table]; exact hs⟩
      rcases hc.stored with hs | ⟨c, p, s, rfl, hp, ha, st, hs⟩
      · unfold MemoryStore.loadSession; rw [hs]
      · have hn : s.clientId ≠ cid := by
          intro hcid
          apply h
          rcases hp with ⟨x, rfl⟩ | ⟨x, rfl⟩ <;> exact ⟨s, ha, hcid⟩
        unfold MemoryStore.loadSession
        rw [hs, Map.get_insert, if_neg hn]

theorem leaves_run (cfg : AuthConfig) {cid : Str} (es : List Event) : ∀ {srv : Server}, LeavesStored cfg cid srv es →
    (srv.run cfg es).store.loadSession cid = srv.store.loadSession cid ∧
      (srv.sessions.get cid = none → (srv.run cfg es).sessions.get cid = none) := by
  induction es with
  | nil => intro srv _; exact ⟨rfl, id⟩
  | cons e es ih =>
    intro srv h
    obtain ⟨a1, a2⟩ := leaves_step cfg h.1
    obtain ⟨b1, b2⟩ := ih h.2
    exact ⟨b1.trans a1, fun hs => b2 (a2 hs)⟩

/-- C39: the subscriptions of a client survive a restart of the server.  In every server state, a client
with identifier `s.clientId` (not empty) has its SUBSCRIBE or UNSUBSCRIBE `p` answered; then anything
happens but another change of what is stored for this client, the server is restarted, again anything
happens, and then the client connects again without clean start: it has exactly the subscriptions it had
after `p`, and they are what is stored. -/
theorem C39_restart (cfg : AuthConfig) (srv : Server) (c : Nat) (s : Session) (h : srv.at c = some s) (p : Packet)
    (hp : (∃ x, p = .subscribe x) ∨ (∃ x, p = .unsubscribe x)) (hne : s.clientId ≠ []) (before after : List Event)
    (hb : LeavesStored cfg s.clientId (srv.step cfg (.recv c p)).1 (before ++ .restart :: after))
    (c' : Nat) (q : ConnectPacket) (uuid : Str) (hq : q.payload.clientId = s.clientId) (hclean : q.flags.cleanStart = false) :
    let srv1 := (srv.step cfg (.recv c p)).1
    let srv2 := srv1.run cfg (before ++ .restart :: after)
    Admitted cfg srv2 c' q →
    let srv3 := (srv2.step cfg (.first c' (.connect q) uuid true)).1
    ∃ s1 s3, srv1.at c = some s1 ∧ srv3.at c' = some s3 ∧ (∀ f, f ∈ s3.filters ↔ f ∈ s1.filters) ∧
      srv3.store.loadSession s.clientId = some ⟨s.clientId, s1.filters, false⟩ := by
  intro srv1 srv2 ha srv3
  obtain ⟨s1, h1, hid, hload⟩ := C39_saved cfg srv c s h p hp
  rw [hid] at hload
  have hrun : ∀ (a b : List Event) (srv : Server), LeavesStored cfg s.clientId srv (a ++ b) →
      LeavesStored cfg s.clientId srv a ∧ LeavesStored cfg s.clientId (srv.run cfg a) b := by
    intro a
    induction a with
    | nil => intro b srv hl; exact ⟨trivial, hl⟩
    | cons e a ih => intro b srv hl; exact ⟨⟨hl.1, (ih b _ hl.2).1⟩, (ih b _ hl.2).2⟩
  obtain ⟨ha1, ha2⟩ := hrun before (.restart :: after) srv1 hb
  have hst : srv2.store.loadSession s.clientId = some ⟨s.clientId, s1.filters, false⟩ :=
    (leaves_run cfg _ hb).1.trans hload
  have hmem : srv2.sessions.get s.clientId = none := by
    have e : srv2 = (((srv1.run cfg before).step cfg .restart).1).run cfg after := by
      show srv1.run cfg (before ++ .restart :: after) = _
      unfold Server.run
      rw [List.foldl_append, List.foldl_cons]
    rw [e]
    exact (leaves_run cfg after ha2.2).2 rfl
  have hfind : srv2.find q.payload.clientId q.flags.cleanStart = ⟨true, s1.filters,
      srv2.store.getWill s.clientId, srv2.store.getAllInflight s.clientId⟩ := by
    unfold Server.find
    simp [hclean, hq, hmem, hst]
  have hd : srv2.discard q.payload.clientId q.flags.cleanStart = srv2 := by
    unfold Server.discard; rw [hclean]; rfl
  have he : (srv2.enter q).2.2 = Session.new q := by
    unfold Server.enter; rw [hq, hmem]
  have e3 : srv3 = (srv2.start c' q uuid true).1 := by
    show (srv2.step cfg (.first c' (.connect q) uuid true)).1 = _
    rw [step_first ha]
  refine ⟨s1, restoreWill ((((srv2.enter q).2.2.begin uuid true).1).restoreSubscriptions
      ((srv2.enter q).1.mapStore (saveStart ((srv2.enter q).2.2.begin uuid true).1 s1.filters)).world s1.filters).1
        (srv2.store.getWill s.clientId), h1, ?_, ?_, ?_⟩
  · rw [e3]
    simp only [Server.start, if_true, hfind, hd]
    exact at_eq_some.mpr ⟨_, (Map.get_insert _ _ _ _).trans (if_pos rfl), (Map.get_insert _ _ _ _).trans (if_pos rfl)⟩
  · intro f
    rw [restoreWill_filters, restoreSubscriptions_filters]
    have : (((srv2.enter q).2.2.begin uuid true).1).filters = [] := by
      rw [he]
      unfold Session.filters
      rw [begin_subscriptions]; rfl
    rw [this]; simp
  · rw [e3, (began srv2 c' q uuid).stored, hfind]
    have hi : identity q uuid = s.clientId := by unfold identity; rw [hq, if_neg hne]
    rw [if_pos hi]

/-- Client `x` unsubscribes from one of two filters, another client comes and goes, the server is
restarted, and `x` comes back. -/
def exTwo : Server := Server.init.run {} [.first 0 (.connect (exConnect (str "x") true)) (str "u1") true,
  .recv 0 (.subscribe ⟨1, none, [⟨str "a/+", {}⟩, ⟨str "b", {}⟩]⟩)]
def exTwoLater : List Event := [.first 1 (.connect (exConnect (str "y") true)) (str "u2") true,
  .recv 1 (.subscribe ⟨1, none, [⟨str "c", {}⟩]⟩), .close 1, .restart, .first 1 (.connect (exConnect (str "z") true)) (str "u3") true]
example : (∃ s, exTwo.at 0 = some s ∧ s.clientId = str "x" ∧ s.filters = [str "b", str "a/+"]) ∧
    LeavesStored {} (str "x") (exTwo.step {} (.recv 0 (.unsubscribe ⟨2, none, [str "b"]⟩))).1 exTwoLater ∧
    ((((exTwo.step {} (.recv 0 (.unsubscribe ⟨2, none, [str "b"]⟩))).1.run {} exTwoLater).step {}
      (.first 5 (.connect (exConnect (str "x") false)) (str "u4") true)).1.at 5).map (·.filters) = some [str "a/+"] := by
  refine ⟨?_, ⟨?_, ?_, ?_, ?_, ?_, trivial⟩, by decide +kernel⟩
  · have h : (exTwo.at 0).map (fun s => (s.clientId, s.filters)) = some (str "x", [str "b", str "a/+"]) := by decide +kernel
    obtain ⟨s, hs, h2⟩ := Option.map_eq_some_iff.mp h
    exact ⟨s, hs, congrArg Prod.fst h2, congrArg Prod.snd h2⟩
  · simp only [Event.Stores]; decide +kernel
  · rintro ⟨s, h1, h2⟩
    have h : (((((exTwo.step {} (.recv 0 (.unsubscribe ⟨2, none, [str "b"]⟩))).1.step {}
      (.first 1 (.connect (exConnect (str "y") true)) (str "u2") true)).1).at 1).map (·.clientId)) = some (str "y") := by decide +kernel
    rw [h1, Option.map_some, Option.some.injEq, h2] at h
    exact absurd h (by decide +kernel)
  · exact id
  · exact id
  · simp only [Event.Stores]; decide +kernel

/-! ## C44: session present -/

/-- The history contains an admitted CONNECT that named client identifier `cid`. -/
def CameBefore (cfg : AuthConfig) (cid : Str) (es : List Event) : Prop :=
  ∃ es1 c q u es2, es = es1 ++ .first c (.connect q) u true :: es2 ∧ Admitted cfg (Server.init.run cfg es1) c q ∧
    q.payload.clientId = cid

theorem CameBefore.snoc {cfg : AuthConfig} {cid : Str} {es : List Event} (h : CameBefore cfg cid es) (e : Event) :
    CameBefore cfg cid (es ++ [e]) := by
  obtain ⟨es1, c, q, u, es2, rfl, ha, hq⟩ := h
  exact ⟨es1, c, q, u, es2 ++ [e], by simp, ha, hq⟩

theorem cameBefore_snoc {cfg : AuthConfig} {cid : Str} {es : List Event} {e : Event} (h : CameBefore cfg cid (es ++ [e])) :
    CameBefore cfg cid es ∨ ∃ c q u, e = .first c (.connect q) u true ∧ Admitted cfg (Server.init.run cfg es) c q ∧
      q.payload.clientId = cid := by
  obtain ⟨es1, c, q, u, es2, he, ha, hq⟩ := h
  rcases List.eq_nil_or_concat es2 with rfl | ⟨es2, x, rfl⟩
  · right
    rw [List.append_eq_append_iff] at he
    have : es = es1 ∧ [e] = [Event.first c (.connect q) u true] := by
      rcases he with ⟨a, h1, h2⟩ | ⟨a, h1, h2⟩
      · cases a with
        | nil => simp at h1 h2; exact ⟨h1.symm, by simp [h2]⟩
        | cons x a => simp at h2
      · cases a with
        | nil => simp at h1 h2; exact ⟨h1, by simp [h2]⟩
        | cons x a => simp at h2
    obtain ⟨rfl, h2⟩ := this
    exact ⟨c, q, u, by simpa using h2, ha, hq⟩
  · left
    rw [List.concat_eq_append, ← List.cons_append, ← List.append_assoc] at he
    have := List.append_inj_left' he rfl
    exact ⟨es1, c, q, u, es2, this, ha, hq⟩

theorem remembered (cfg : AuthConfig) {cid : Str} (hne : cid ≠ []) (es : List Event)
    (hw : ∀ c p u w, Event.first c p u w ∈ es → w = true ∧ u ≠ cid) :
    (((Server.init.run cfg es).store.loadSession cid).isSome ↔ CameBefore cfg cid es) ∧
    (((Server.init.run cfg es).sessions.get cid).isSome → CameBefore cfg cid es) ∧
    (∀ r s, (Server.init.run cfg es).heap.get r = some s → s.clientId = cid → CameBefore cfg cid es) := by
  induction es using snoc_induction with
  | h0 =>
    have : ¬ CameBefore cfg cid [] := by
      rintro ⟨es1, c, q, u, es2, he, _⟩
      cases es1 <;> simp at he
    refine ⟨iff_of_false (by simp [Server.run, Server.init, Server.store, MemoryStore.loadSession, MemoryStore.new, Map.get]) this, ?_, ?_⟩
    · intro h; simp [Server.run, Server.init, Map.get] at h
    · intro r s h; simp [Server.run, Server.init, Map.get] at h
  | hs es e ih =>
    obtain ⟨i1, i2, i3⟩ := ih (fun c p u w h => hw c p u w (List.mem_append_left _ h))
    rw [run_snoc]
    generalize hsrv : Server.init.run cfg es = srv at i1 i2 i3
    by_cases h1 : ∃ c p u w, e = .first c p u w
    · obtain ⟨c, p, u, w, rfl⟩ := h1
      obtain ⟨rfl, hu⟩ := hw c p u w (by simp)
      rcases step_first_cases cfg srv c p u true with ⟨h', hno⟩ | ⟨q, rfl, hq, h'⟩
      · rw [h']
        have hsame : CameBefore cfg cid (es ++ [.first c p u true]) ↔ CameBefore cfg cid es := by
          refine ⟨fun h => ?_, fun h => h.snoc _⟩
          rcases cameBefore_snoc h with h | ⟨c', q, u', he, ha, _⟩
          · exact h
          · cases he
            rw [hsrv] at ha
            exact absurd ⟨q, rfl, ha⟩ hno
        rw [hsame]; exact ⟨i1, i2, i3⟩
      · rw [h']
        have hb := began srv c q u
        have hi : identity q u = cid ↔ q.payload.clientId = cid := by
          unfold identity
          split
          · rename_i h0
            rw [h0]
            exact ⟨fun h => absurd h hu, fun h => absurd h.symm hne⟩
          · rfl
        have hsame : CameBefore cfg cid (es ++ [.first c (.connect q) u true]) ↔
            CameBefore cfg cid es ∨ q.payload.clientId = cid := by
          refine ⟨fun h => ?_, fun h => ?_⟩
          · rcases cameBefore_snoc h with h | ⟨c', q', u', he, ha, hid⟩
            · exact Or.inl h
            · cases he; exact Or.inr hid
          · rcases h with h | h
            · exact h.snoc _
            · exact ⟨es, c, q, u, [], by simp, by rw [hsrv]; exact hq, h⟩
        rw [hsame]
        refine ⟨?_, ?_, ?_⟩
        · rw [hb.stored]
          by_cases hid : q.payload.clientId = cid
          · rw [if_pos (hi.mpr hid)]; simp [hid]
          · rw [if_neg (fun h => hid (hi.mp h)), if_neg (fun h => hid h.2), i1]; simp [hid]
        · intro h
          by_cases hid : q.payload.clientId = cid
          · exact Or.inr hid
          · exact Or.inl (i2 (hb.table cid (Ne.symm hid) h))
        · intro r s hs hid
          rcases hb.heap r s hs with h | h
          · exact Or.inr (hi.mp (h.symm.trans hid))
          · exact Or.inl (i3 r s h hid)
    · have hsame : CameBefore cfg cid (es ++ [e]) ↔ CameBefore cfg cid es := by
        refine ⟨fun h => ?_, fun h => h.snoc _⟩
        rcases cameBefore_snoc h with h | ⟨c', q, u', he, _⟩
        · exact h
        · exact absurd ⟨_, _, _, _, he⟩ h1
      rw [hsame]
      by_cases h2 : e = .restart
      · subst h2
        exact ⟨i1, fun h => by simp [Server.step, Map.get] at h, fun r s h => by simp [Server.step, Map.get] at h⟩
      · have hc := calm cfg srv (e := e) (fun c p u w he => h1 ⟨c, p, u, w, he⟩) h2
        refine ⟨?_, by rw [hc.table]; exact i2, fun r s hs hid => ?_⟩
        · rcases hc.stored with hs | ⟨c, p, s, rfl, hp, ha, st, hs⟩
          · unfold MemoryStore.loadSession at i1 ⊢; rw [hs]; exact i1
          · unfold MemoryStore.loadSession at i1 ⊢
            rw [hs, Map.get_insert]
            split
            · rename_i hid
              obtain ⟨k, _, hh⟩ := at_eq_some.mp ha
              exact iff_of_true rfl (i3 _ _ hh hid)
            · exact i1
        · obtain ⟨s0, h0, he⟩ := hc.heap r s hs
          exact i3 r s0 h0 (he ▸ hid)

/-- C44 over whole histories (restarts included): if the CONNACKs of the history could be written and the
server never generated this identifier, an admitted client with a non-empty identifier is told session
present iff it did not ask for a clean start and was connected under this identifier before. -/
theorem C44_came_before (cfg : AuthConfig) (es : List Event) (c : Nat) (p : ConnectPacket) (uuid : Str)
    (hne : p.payload.clientId ≠ [])
    (hw : ∀ c q u w, Event.first c q u w ∈ es → w = true ∧ u ≠ p.payload.clientId)
    (ha : Admitted cfg (Server.init.run cfg es) c p) :
    ∃ present rest, ((Server.init.run cfg es).step cfg (.first c (.connect p) uuid true)).2.sent =
        .connAck (connAckOf p uuid present) :: rest ∧
      (present = true ↔ p.flags.cleanStart = false ∧ CameBefore cfg p.payload.clientId es) := by
  obtain ⟨present, rest, h1, h2⟩ := C44_session_present cfg _ c p uuid ha
  obtain ⟨r1, r2, _⟩ := remembered cfg hne es hw
  refine ⟨present, rest, h1, h2.trans (and_congr_right fun _ => ?_)⟩
  rw [← r1]
  constructor
  · rintro (⟨r, hr⟩ | ⟨st, hst⟩)
    · exact r1.mpr (r2 (by rw [hr]; rfl))
    · rw [hst]; rfl
  · intro h
    exact Or.inr (Option.isSome_iff_exists.mp h)

/-- Client `x` was there before the restart, `y` was not. -/
example : CameBefore exCfg (str "x") exRestart ∧ ¬ CameBefore exCfg (str "y") exRestart ∧
    (∀ c q u w, Event.first c q u w ∈ exRestart → w = true ∧ u ≠ str "x") := by
  have hw : ∀ id, id ≠ str "uuid" → ∀ c q u w, Event.first c q u w ∈ exRestart → w = true ∧ u ≠ id := by
    intro id hid c q u w h
    simp only [exRestart, List.mem_cons, Event.first.injEq, reduceCtorEq, List.not_mem_nil, or_false] at h
    exact ⟨h.2.2.2, by rw [h.2.2.1]; exact hid.symm⟩
  refine ⟨?_, ?_, hw _ (by decide +kernel)⟩
  · exact (remembered exCfg (by decide +kernel) exRestart (hw _ (by decide +kernel))).1.mp (by decide +kernel)
  · exact fun h => absurd ((remembered exCfg (by decide +kernel) exRestart (hw _ (by decide +kernel))).1.mpr h) (by decide +kernel)

/-! ## C48: whole exchanges -/

/-- An AUTH packet of the server with a challenge. -/
def challenge (name : Str) (d : Buf) : Packet :=
  .auth { reason := .continueAuthentication, properties := { authMethod := some name, authData := some d } }

/-- C48: an exchange of any number of rounds is led by the method that was named at its start.  The
client starts with a method that is configured and asks for more, answers `rounds` challenges to which the
method asks for more again, and then sends `last`: each time it is sent the challenge the method gave, and
in the end what the method makes of `last`: success, another challenge, or the end of the connection. -/
theorem C48_exchange (cfg : AuthConfig) (srv : Server) (c : Nat) (s : Session) (h : srv.at c = some s)
    (mgr : AuthManager) (hm : cfg.manager = some mgr) (name : Str) (method : AuthMethod)
    (hg : mgr.methods.get name = some method) (data : Option Buf) (d : Buf) (hd : method.start data = .continue d)
    (rounds : List Buf) (hr : ∀ x ∈ rounds, ∃ y, method.cont x = .continue y) (last : Buf) :
    let start : Event := .recv c (.auth ⟨.reAuthenticate, { authMethod := some name, authData := data }⟩)
    let answer (x : Buf) : Event := .recv c (.auth ⟨.continueAuthentication, { authMethod := some name, authData := some x }⟩)
    let r := (srv.run cfg (start :: rounds.map answer)).step cfg (answer last)
    (srv.step cfg start).2.sent = [challenge name d] ∧
    match method.cont last with
    | .success => r.2.sent = [.auth { reason := .success }] ∧ r.1.isOpen c
    | .continue y => r.2.sent = [challenge name y] ∧ r.1.isOpen c
    | .failed _ => r.2.sent = [] ∧ ¬ r.1.isOpen c := by
  intro start answer r
  -- one round
  have round : ∀ {srv : Server} {s : Session}, srv.at c = some s → s.authMethod = some name → ∀ x y,
      method.cont x = .continue y → (srv.step cfg (answer x)).2.sent = [challenge name y] ∧
        ∃ s', (srv.step cfg (answer x)).1.at c = some s' ∧ s'.authMethod = some name := by
    intro srv s h ha x y hx
    have hh : s.processIncoming srv.world cfg.manager c (.auth ⟨.continueAuthentication,
        { authMethod := some name, authData := some x }⟩) = ⟨s, srv.world, .ok (some (challenge name y))⟩ := by
      simp only [Session.processIncoming, Session.handleAuth, hm, Session.authContinue, ha, AuthManager.continueAuth, hg, hx]
      rw [← ha]
      rfl
    obtain ⟨k, hk, hs, e⟩ := step_recv_ok (cfg := cfg) h (by simp) hh
    rw [e]
    exact ⟨rfl, s, at_put_same (srv := _) (by simpa using hk) _, ha⟩
  have hh : s.processIncoming srv.world cfg.manager c (.auth ⟨.reAuthenticate,
      { authMethod := some name, authData := data }⟩) =
        ⟨{ s with authMethod := some name }, srv.world, .ok (some (challenge name d))⟩ := by
    simp [Session.processIncoming, Session.handleAuth, hm, Session.authStart, AuthManager.supportsMethod, hg,
      AuthManager.startAuth, hd, Session.authChallenge, challenge]
  obtain ⟨k, hk, hs, e⟩ := step_recv_ok (cfg := cfg) h (by simp) hh
  have e' : srv.step cfg start = _ := e
  refine ⟨by rw [e']; rfl, ?_⟩
  have h1 : ∃ s', (srv.run cfg (start :: rounds.map answer)).at c = some s' ∧ s'.authMethod = some name := by
    have h0 : ∃ s', (srv.step cfg start).1.at c = some s' ∧ s'.authMethod = some name := by
      rw [e']
      exact ⟨_, at_put_same (srv := _) (by simpa using hk) _, rfl⟩
    show ∃ s', (Server.run cfg (srv.step cfg start).1 (rounds.map answer)).at c = some s' ∧ _
    clear r
    generalize (srv.step cfg start).1 = srv0 at h0
    induction rounds generalizing srv0 with
    | nil => exact h0
    | cons x rounds ih =>
      obtain ⟨s0, h0, ha0⟩ := h0
      obtain ⟨y, hy⟩ := hr x (by simp)
      exact ih (fun z hz => hr z (by simp [hz])) _ (round h0 ha0 x y hy).2
  obtain ⟨s1, h1, ha1⟩ := h1
  have open_of : ∀ {srv : Server} {s : Session}, srv.at c = some s → srv.isOpen c := by
    intro srv s h
    obtain ⟨k, hk, _⟩ := at_eq_some.mp h
    exact ⟨k, hk⟩
  cases hl : method.cont last with
  | success =>
    have hh : s1.processIncoming (srv.run cfg (start :: rounds.map answer)).world cfg.manager c
        (.auth ⟨.continueAuthentication, { authMethod := some name, authData := some last }⟩) =
          ⟨{ s1 with authMethod := none }, (srv.run cfg (start :: rounds.map answer)).world, .ok (some (.auth { reason := .success }))⟩ := by
      simp [Session.processIncoming, Session.handleAuth, hm, Session.authContinue, ha1, AuthManager.continueAuth, hg, hl,
        Session.authSuccess]
    obtain ⟨k, hk, hs, e⟩ := step_recv_ok (cfg := cfg) h1 (by simp) hh
    have er : r = _ := e
    rw [er]
    exact ⟨rfl, open_of (at_put_same (srv := _) (by simpa using hk) _)⟩
  | «continue» y =>
    obtain ⟨h2, s2, h3, _⟩ := round h1 ha1 last y hl
    exact ⟨h2, open_of h3⟩
  | failed code =>
    have hh : s1.processIncoming (srv.run cfg (start :: rounds.map answer)).world cfg.manager c
        (.auth ⟨.continueAuthentication, { authMethod := some name, authData := some last }⟩) =
          ⟨{ s1 with authMethod := none }, (srv.run cfg (start :: rounds.map answer)).world, .error (.mqtt code)⟩ := by
      simp [Session.processIncoming, Session.handleAuth, hm, Session.authContinue, ha1, AuthManager.continueAuth, hg, hl]
    obtain ⟨k, hk, hs, e⟩ := step_recv_error (cfg := cfg) h1 (by simp) hh
    have er : r = _ := e
    rw [er]
    exact ⟨rfl, not_open_finish _ _ _ _⟩

/-- A method that wants to be told `more` any number of times and then `ok`. -/
def stubbornMethod : AuthMethod :=
  ⟨fun _ => .continue (str "?"), fun d => if d = str "more" then .continue (str "??")
    else if d = str "ok" then .success else .failed .notAuthorized⟩
example : (∃ s, exServer.at 0 = some s) ∧ stubbornMethod.start none = .continue (str "?") ∧
    (∀ x ∈ [str "more", str "more"], ∃ y, stubbornMethod.cont x = .continue y) ∧
    stubbornMethod.cont (str "ok") = .success ∧
    (AuthManager.new.register (str "S") stubbornMethod).methods.get (str "S") = some stubbornMethod := by
  refine ⟨Option.isSome_iff_exists.mp (by decide +kernel), rfl, ?_, rfl, rfl⟩
  intro x hx
  simp only [List.mem_cons, List.not_mem_nil, or_false, or_self] at hx
  subst hx
  exact ⟨str "??", rfl⟩

end Mercurio
