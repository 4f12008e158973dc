import Verif.Props.Session
import Verif.Lemmas.Utf8

/-!
# PLAIN authentication and credential tables
-/

namespace Mercurio

open Spec Server

/-! ## C49: PLAIN -/

theorem cutNul_iff (d u p : Buf) : cutNul d = some (u, p) ↔ d = u ++ 0 :: p ∧ 0 ∉ u := by
  induction d generalizing u with
  | nil => simp [cutNul]
  | cons b bs ih =>
    by_cases hb : b = 0
    · subst hb
      simp only [cutNul, if_true, Option.some.injEq, Prod.mk.injEq]
      constructor
      · rintro ⟨rfl, rfl⟩
        simp
      · rintro ⟨e, h0⟩
        cases u with
        | nil => simpa using e
        | cons x u => simp at e; simp [← e.1] at h0
    · simp only [cutNul, if_neg hb, Option.map_eq_some_iff, Prod.mk.injEq]
      constructor
      · rintro ⟨⟨u', p'⟩, h, rfl, rfl⟩
        obtain ⟨rfl, h0⟩ := (ih u').1 h
        exact ⟨rfl, by simpa [Ne.symm hb] using h0⟩
      · rintro ⟨e, h0⟩
        cases u with
        | nil => simp at e; exact absurd e.1 hb
        | cons x u =>
          simp only [List.cons_append, List.cons.injEq] at e
          obtain ⟨rfl, rfl⟩ := e
          simp at h0
          exact ⟨(u, p), (ih u).2 ⟨rfl, h0.2⟩, rfl, rfl⟩

theorem parsePlain_iff (d u p : Buf) :
    parsePlain d = some (u, p) ↔ d = 0 :: u ++ 0 :: p ∧ 0 ∉ u ∧ IsUtf8 u ∧ IsUtf8 p := by
  cases d with
  | nil => simp [parsePlain]
  | cons b bs =>
    by_cases hb : b = 0
    · subst hb
      simp only [parsePlain, ne_eq, not_true_eq_false, if_false]
      cases hc : cutNul bs with
      | none =>
        simp only [reduceCtorEq, false_iff]
        rintro ⟨e, h0, -⟩
        simp only [List.cons_append, List.cons.injEq, true_and] at e
        rw [(cutNul_iff bs u p).2 ⟨e, h0⟩] at hc
        cases hc
      | some r =>
        obtain ⟨u', p'⟩ := r
        have h' := (cutNul_iff bs u' p').1 hc
        by_cases hv : (utf8Valid u' && utf8Valid p') = true
        · simp only [hv, if_true, Option.some.injEq, Prod.mk.injEq]
          rw [Bool.and_eq_true, utf8Valid_iff, utf8Valid_iff] at hv
          constructor
          · rintro ⟨rfl, rfl⟩
            exact ⟨by simp [h'.1], h'.2, hv⟩
          · rintro ⟨e, h0, -⟩
            simp only [List.cons_append, List.cons.injEq, true_and] at e
            rw [(cutNul_iff bs u p).2 ⟨e, h0⟩] at hc
            simp at hc
            exact ⟨hc.1.symm, hc.2.symm⟩
        · simp only [hv]
          simp only [Bool.false_eq_true, if_false, reduceCtorEq, false_iff]
          rintro ⟨e, h0, hu, hp⟩
          simp only [List.cons_append, List.cons.injEq, true_and] at e
          rw [(cutNul_iff bs u p).2 ⟨e, h0⟩] at hc
          simp at hc
          apply hv
          rw [Bool.and_eq_true, utf8Valid_iff, utf8Valid_iff, ← hc.1, ← hc.2]
          exact ⟨hu, hp⟩
    · simp only [parsePlain, ne_eq, hb, not_false_eq_true, if_true, reduceCtorEq, false_iff]
      rintro ⟨e, -⟩
      simp at e
      exact hb e.1

/-- C49: PLAIN accepts the data of an AUTH packet iff it is a NUL, a user name, a NUL and a
password, both valid UTF-8, and this password is the one configured for the user. (The user name
ends at the first NUL after the leading one.) -/
theorem C49_plain_accepts (creds : Map Str Str) (data : Option Buf) :
    (plainAuth creds).start data = .success ↔
      ∃ user password, data = some (0 :: user ++ 0 :: password) ∧ 0 ∉ user ∧
        IsUtf8 user ∧ IsUtf8 password ∧ creds.get user = some password := by
  cases data with
  | none => simp [plainAuth, plainStart]
  | some d =>
    show plainStart creds (some d) = .success ↔ _
    unfold plainStart
    simp only [Option.some.injEq]
    cases hp : parsePlain d with
    | none =>
      simp only [reduceCtorEq, false_iff]
      rintro ⟨u, p, e, h0, hu, hpw, -⟩
      rw [(parsePlain_iff d u p).2 ⟨e, h0, hu, hpw⟩] at hp
      cases hp
    | some r =>
      obtain ⟨u, p⟩ := r
      have h := (parsePlain_iff d u p).1 hp
      simp only [ite_eq_left_iff, reduceCtorEq, imp_false, Decidable.not_not]
      constructor
      · intro hc
        exact ⟨u, p, h.1, h.2.1, h.2.2.1, h.2.2.2, hc⟩
      · rintro ⟨u', p', e, h0, hu, hpw, hc⟩
        rw [(parsePlain_iff d u' p').2 ⟨e, h0, hu, hpw⟩] at hp
        simp at hp
        rw [← hp.1, ← hp.2]; exact hc

/-- C49: it never asks for another round, and refuses every continuation. -/
theorem C49_single_step (creds : Map Str Str) (data : Option Buf) (d challenge : Buf) :
    (plainAuth creds).start data ≠ .continue challenge ∧
      (plainAuth creds).cont d = .failed .protocolError := by
  refine ⟨?_, rfl⟩
  show plainStart creds data ≠ _
  unfold plainStart
  cases data with
  | none => simp
  | some d =>
    simp only
    cases parsePlain d with
    | none => simp
    | some r =>
      simp only
      split <;> simp

/-- C49: the reasons of refusal: no data; data of another shape; wrong credentials. -/
theorem C49_refusals (creds : Map Str Str) :
    (plainAuth creds).start none = .failed .badAuthenticationMethod ∧
    (∀ d, (¬ ∃ user password, d = 0 :: user ++ 0 :: password ∧ 0 ∉ user ∧ IsUtf8 user ∧
      IsUtf8 password) → (plainAuth creds).start (some d) = .failed .malformedPacket) ∧
    (∀ user password, 0 ∉ user → IsUtf8 user → IsUtf8 password → creds.get user ≠ some password →
      (plainAuth creds).start (some (0 :: user ++ 0 :: password)) =
        .failed .badUserNameOrPassword) := by
  refine ⟨rfl, ?_, ?_⟩
  · intro d h
    show plainStart creds (some d) = _
    unfold plainStart
    simp only
    cases hp : parsePlain d with
    | none => rfl
    | some r =>
      obtain ⟨u, p⟩ := r
      exact absurd ⟨u, p, (parsePlain_iff d u p).1 hp⟩ h
  · intro u p h0 hu hp hc
    show plainStart creds (some _) = _
    unfold plainStart
    simp only
    rw [(parsePlain_iff _ u p).2 ⟨rfl, h0, hu, hp⟩]
    simp [hc]

/-- C49 on the wire: on an open connection of a server whose authentication manager offers PLAIN
over a credential table, a re-authentication with method PLAIN is answered with success iff its
data carries a configured user name and password. -/
theorem C49_auth_packet (cfg : AuthConfig) (srv : Server) (c : Nat) (s : Session)
    (h : srv.at c = some s) (mgr : AuthManager) (hm : cfg.manager = some mgr) (creds : Map Str Str)
    (hg : mgr.methods.get (str "PLAIN") = some (plainAuth creds)) (p : AuthPacket)
    (hr : p.reason = .reAuthenticate) (hn : p.properties.authMethod = some (str "PLAIN")) :
    (∃ a, .auth a ∈ (srv.step cfg (.recv c (.auth p))).2.sent ∧ a.reason = .success) ↔
      ∃ user password, p.properties.authData = some (0 :: user ++ 0 :: password) ∧ 0 ∉ user ∧
        IsUtf8 user ∧ IsUtf8 password ∧ creds.get user = some password := by
  rw [← C49_plain_accepts]
  constructor
  · rintro ⟨a, ha, hs⟩
    obtain ⟨mgr', name, method, hm', hg', hcase⟩ := C48_success cfg srv c s h p a ha hs
    rw [hm] at hm'; cases hm'
    rcases hcase with ⟨-, hn', hst⟩ | ⟨hr', -⟩
    · rw [hn] at hn'; cases hn'
      rw [hg] at hg'; cases hg'
      exact hst
    · rw [hr] at hr'; cases hr'
  · intro hst
    obtain ⟨k, hk, hss, e⟩ := step_recv (cfg := cfg) (p := .auth p) h (by simp)
    refine ⟨{ reason := .success }, ?_, rfl⟩
    rw [e]
    simp [Session.processIncoming, Session.handleAuth, hm, hr, Session.authStart, hn,
      AuthManager.supportsMethod, hg, AuthManager.startAuth, hst, Session.authSuccess]

example : (plainAuth [(str "bob", str "secret")]).start (some (0 :: str "bob" ++ 0 :: str "secret")) =
    .success := by decide +kernel
/-- an authorization identity is not supported -/
example : (plainAuth [(str "bob", str "secret")]).start
    (some (str "eve" ++ 0 :: str "bob" ++ 0 :: str "secret")) = .failed .malformedPacket := by
  decide +kernel
example : ∃ mgr, exCfg.manager = some mgr ∧
    ∃ creds, mgr.methods.get (str "PLAIN") = some (plainAuth creds) ∧
      creds.get (str "u") = some (str "p") := ⟨_, rfl, _, rfl, by decide +kernel⟩

/-! ## C48: the table of methods -/

theorem register_get (regs : List (Str × AuthMethod)) (name : Str) : ∀ a : AuthManager,
    (regs.foldl (fun a r => a.register r.1 r.2) a).methods.get name =
      ((regs.filter (fun r => r.1 = name)).getLast?.map (·.2)).or (a.methods.get name) := by
  induction regs with
  | nil => intro a; rfl
  | cons r regs ih =>
    intro a
    rw [List.foldl_cons, ih, AuthManager.register, Map.get_insert]
    by_cases h : r.1 = name
    · rw [List.filter_cons_of_pos (by simpa using h), List.getLast?_cons]
      cases (regs.filter (fun r => r.1 = name)).getLast? <;> simp [h]
    · rw [List.filter_cons_of_neg (by simpa using h)]
      have : ¬ name = r.1 := fun e => h e.symm
      simp [h, this]

/-- C48: starting or continuing an exchange asks the method registered last under the name, with the
data of the client, and nobody else; a name never registered is refused; the list of supported methods names
every registered one, once. -/
theorem C48_manager (regs : List (Str × AuthMethod)) (name : Str) (data : Option Buf) (next : Buf) :
    let a := regs.foldl (fun a r => a.register r.1 r.2) AuthManager.new
    let found := (regs.filter (fun r => r.1 = name)).getLast?
    a.supportsMethod name = decide (name ∈ regs.map (·.1)) ∧
    (a.supportedMethods.Nodup ∧ (name ∈ a.supportedMethods ↔ name ∈ regs.map (·.1))) ∧
    a.startAuth name data = (match found with
      | some r => r.2.start data
      | none => .failed .badAuthenticationMethod) ∧
    a.continueAuth name next = (match found with
      | some r => r.2.cont next
      | none => .failed .badAuthenticationMethod) := by
  have h := register_get regs name AuthManager.new
  rw [show AuthManager.new.methods.get name = none from rfl, Option.or_none] at h
  have hs : (AuthManager.supportsMethod (regs.foldl (fun a r => a.register r.1 r.2) AuthManager.new) name =
      decide (name ∈ regs.map (·.1))) := by
    rw [AuthManager.supportsMethod, h, Bool.eq_iff_iff, decide_eq_true_iff]
    simp only [Option.isSome_map, List.getLast?_isSome, ne_eq, List.filter_eq_nil_iff, decide_eq_true_eq,
      List.mem_map]
    constructor
    · intro hn
      exact Classical.byContradiction fun e => hn fun r hr he => e ⟨r, hr, he⟩
    · rintro ⟨r, hr, he⟩ hn
      exact hn r hr he
  refine ⟨hs, ⟨?_, ?_⟩, ?_, ?_⟩
  · have : ∀ (l : List (Str × AuthMethod)) (a : AuthManager), a.methods.keys.Nodup →
        (l.foldl (fun a r => a.register r.1 r.2) a).methods.keys.Nodup := by
      intro l
      induction l with
      | nil => intro a ha; exact ha
      | cons r l ih => intro a ha; exact ih _ (Map.nodup_insert _ _ _ ha)
    exact this regs AuthManager.new (by simp [AuthManager.new, Map.keys])
  · rw [AuthManager.supportedMethods, ← Map.get_isSome]
    unfold AuthManager.supportsMethod at hs
    rw [hs, decide_eq_true_iff]
  · rw [AuthManager.startAuth, h]
    cases (regs.filter (fun r => r.1 = name)).getLast? <;> rfl
  · rw [AuthManager.continueAuth, h]
    cases (regs.filter (fun r => r.1 = name)).getLast? <;> rfl

example : (AuthManager.new.register (str "PLAIN") (plainAuth [(str "bob", str "secret")])).startAuth
    (str "SCRAM") (some (0 :: str "bob" ++ 0 :: str "secret")) = .failed .badAuthenticationMethod := by
  decide +kernel

/-! ## C53: credential tables -/

/-- C53: the simple validator accepts a user name and password iff this password is configured
for the user. (Configured passwords are strings, hence valid UTF-8.) -/
theorem C53_simple (creds : Map Str Str) (hc : ∀ u s, creds.get u = some s → IsUtf8 s)
    (user : Str) (password : Buf) :
    simpleValidate creds user password = true ↔ creds.get user = some password := by
  unfold simpleValidate
  cases hg : creds.get user with
  | none => simp
  | some s =>
    by_cases hv : utf8Valid password = true
    · simp [hv]
    · simp only [hv]
      simp only [Bool.false_eq_true, if_false, false_iff, Option.some.injEq]
      rintro rfl
      exact hv ((utf8Valid_iff _).2 (hc _ _ hg))

/-- C53: the validator of the daemon accepts a user name and password iff the user is in the table
and its entry, if it starts with a dollar sign, is a hash that verifies the password, and otherwise
is the password. -/
theorem C53_hashed (verify : Str → Buf → Bool) (creds : Map Str Str)
    (hc : ∀ u s, creds.get u = some s → IsUtf8 s) (user : Str) (password : Buf) :
    hashedValidate verify creds user password = true ↔
      ∃ entry, creds.get user = some entry ∧
        ((∃ rest, entry = str "$" ++ rest) → verify entry password = true) ∧
        ((¬ ∃ rest, entry = str "$" ++ rest) → entry = password) := by
  have hd : str "$" = [0x24] := by decide +kernel
  unfold hashedValidate
  cases hg : creds.get user with
  | none => simp
  | some s =>
    simp only [Option.some.injEq, exists_eq_left', hd]
    by_cases hs : s.head? = some 0x24
    · have : ∃ rest, s = [0x24] ++ rest := by
        cases s with
        | nil => simp at hs
        | cons x l => simp at hs; exact ⟨l, by simp [hs]⟩
      simp only [if_pos hs]
      constructor
      · intro h; exact ⟨fun _ => h, fun h' => absurd this h'⟩
      · intro h; exact h.1 this
    · have : ¬ ∃ rest, s = [0x24] ++ rest := by
        rintro ⟨r, rfl⟩; simp at hs
      simp only [if_neg hs]
      by_cases hv : utf8Valid password = true
      · simp only [hv, if_true, decide_eq_true_eq]
        constructor
        · intro h; exact ⟨fun h' => absurd h' this, fun _ => h⟩
        · intro h; exact h.2 this
      · simp only [hv]
        simp only [Bool.false_eq_true, if_false, false_iff]
        rintro ⟨-, h⟩
        have := h this
        rw [this] at hg
        exact hv ((utf8Valid_iff _).2 (hc _ _ hg))

example : ∀ u s, Map.get [(str "bob", str "secret")] u = some s → IsUtf8 s := by
  intro u s h
  simp only [Map.get] at h
  split at h
  · cases h; rw [← utf8Valid_iff]; decide +kernel
  · cases h

/-- C53 at the front door: a server that requires authentication against a table of passwords
opens a connection for a CONNECT iff it carries a user name and the password configured for it. -/
theorem C53_connect (cfg : AuthConfig) (srv : Server) (c : Nat) (p : ConnectPacket)
    (creds : Map Str Str) (hc : ∀ u s, creds.get u = some s → IsUtf8 s)
    (hr : cfg.requireAuth = true) (hv : cfg.validator = some (simpleValidate creds)) :
    Admitted cfg srv c p ↔ ¬ srv.isOpen c ∧ ∃ user password,
      p.payload.userName = some user ∧ p.payload.password = some password ∧
      creds.get user = some password := by
  unfold Admitted
  simp only [hr, hv, true_implies, Option.some.injEq, ← C53_simple creds hc]
  apply and_congr Iff.rfl
  constructor
  · rintro ⟨u, pw, v, h1, h2, rfl, h3⟩
    exact ⟨u, pw, h1, h2, h3⟩
  · rintro ⟨u, pw, h1, h2, h3⟩
    exact ⟨u, pw, _, h1, h2, rfl, h3⟩

example := C53_connect ⟨true, some (simpleValidate [(str "bob", str "secret")]), none⟩ Server.init 0 (exConnect (str "x") true)
  [(str "bob", str "secret")] (fun u s h => by
    simp only [Map.get, List.find?] at h
    split at h <;> cases h
    decide) rfl rfl

end Mercurio
