import Verif.Props.PasswordMeaning
import Verif.Props.Auth
import Verif.Props.Server

/-!
# The daemon and the TLS set-up: C68, C69, C70
-/

namespace Mercurio

open Spec Server

/-! ## PEM files -/

theorem collectCerts_iff (items : List PemItem) (certs : List Buf) : collectCerts items = some certs ↔
    .bad ∉ items ∧ certs = items.filterMap fun | .cert c => some c | _ => none := by
  induction items generalizing certs with
  | nil => simp [collectCerts, eq_comm]
  | cons i is ih =>
    cases i with
    | cert c =>
      simp only [collectCerts, Option.map_eq_some_iff, ih]
      constructor
      · rintro ⟨a, ⟨h1, rfl⟩, rfl⟩; simp [h1]
      · rintro ⟨h1, rfl⟩; exact ⟨_, ⟨by simpa using h1, rfl⟩, by simp⟩
    | key k => simp [collectCerts, ih]
    | other => simp [collectCerts, ih]
    | bad => simp [collectCerts]

theorem loadCerts_iff (files : PemFiles) (path : Str) (certs : List Buf) :
    loadCerts files path = some certs ↔ ∃ items, files path = some items ∧ CertsIn items certs := by
  unfold loadCerts CertsIn
  cases hf : files path with
  | none => simp
  | some items =>
    simp only [Option.some.injEq, exists_eq_left']
    cases hc : collectCerts items with
    | none =>
      constructor
      · rintro ⟨⟩
      · rintro ⟨h1, _, h3⟩
        rw [(collectCerts_iff items certs).mpr ⟨h1, h3⟩] at hc; cases hc
    | some cs =>
      obtain ⟨h1, h2⟩ := (collectCerts_iff items cs).mp hc
      cases cs with
      | nil =>
        constructor
        · rintro ⟨⟩
        · rintro ⟨_, h3, h4⟩; exact absurd (h4.trans h2.symm) h3
      | cons c cs =>
        simp only [Option.some.injEq]
        constructor
        · rintro rfl; exact ⟨h1, by simp, h2⟩
        · rintro ⟨_, _, h4⟩; exact h2.trans h4.symm

theorem firstKey_iff (items : List PemItem) (k : Buf) : firstKey items = some k ↔ FirstKeyIn items k := by
  induction items with
  | nil => simp [firstKey, FirstKeyIn]
  | cons i is ih =>
    have skip : (∀ k', i ≠ .key k') → i ≠ .bad → (FirstKeyIn (i :: is) k ↔ FirstKeyIn is k) := by
      intro hk hb
      constructor
      · rintro ⟨b, a, e, h1, h2⟩
        cases b with
        | nil => simp only [List.nil_append, List.cons.injEq] at e; exact absurd e.1 (hk k)
        | cons x b =>
          simp only [List.cons_append, List.cons.injEq] at e
          refine ⟨b, a, e.2, fun h => h1 (by simp [h]), fun k' h => h2 k' (by simp [h])⟩
      · rintro ⟨b, a, rfl, h1, h2⟩
        refine ⟨i :: b, a, rfl, ?_, ?_⟩
        · simp only [List.mem_cons, not_or]; exact ⟨fun e => hb e.symm, h1⟩
        · intro k'; simp only [List.mem_cons, not_or]; exact ⟨fun e => hk k' e.symm, h2 k'⟩
    cases i with
    | cert c => rw [skip (by simp) (by simp), ← ih]; rfl
    | other => rw [skip (by simp) (by simp), ← ih]; rfl
    | key k' =>
      simp only [firstKey, Option.some.injEq]
      constructor
      · rintro rfl; exact ⟨[], is, rfl, by simp, by simp⟩
      · rintro ⟨b, a, e, h1, h2⟩
        cases b with
        | nil => simp only [List.nil_append, List.cons.injEq, PemItem.key.injEq] at e; exact e.1
        | cons x b =>
          simp only [List.cons_append, List.cons.injEq] at e
          exact absurd (by rw [← e.1]; simp) (h2 k')
    | bad =>
      simp only [firstKey]
      constructor
      · rintro ⟨⟩
      · rintro ⟨b, a, e, h1, h2⟩
        cases b with
        | nil => simp at e
        | cons x b =>
          simp only [List.cons_append, List.cons.injEq] at e
          exact absurd (by rw [← e.1]; simp) h1

/-! ## C68: encryption -/

theorem inEffect_config {m : Machine} {a : DaemonArgs} {r : RawConfig} (h : InEffect m a r) :
    loadConfig m a = some r.config := by
  unfold loadConfig
  rcases h with h | ⟨h, h1, rfl⟩
  · rw [h]
  · rw [h]; simp [h1]

/-- What a serving daemon was given. -/
theorem serves_cases {m : Machine} {a : DaemonArgs} {addr : Str} {tls : Option Acceptor} {auth : AuthConfig}
    (hs : daemonStart m a = .serves addr tls auth) : ∃ c, loadConfig m a = some c ∧
      addr = a.listen.getD (hostPort c.host c.port) ∧ m.bind addr = true ∧
      daemonAuth m.verify c.authEnabled (c.passwordFile.map m.text) = some auth ∧
      ((tls = none ∧ daemonTls c = some none) ∨
        ∃ t acc, tls = some acc ∧ daemonTls c = some (some t) ∧ t.buildAcceptor m.lib m.pem = some acc) := by
  unfold daemonStart at hs
  cases hc : loadConfig m a with
  | none => rw [hc] at hs; cases hs
  | some c =>
    rw [hc] at hs
    refine ⟨c, rfl, ?_⟩
    simp only at hs
    split at hs
    · rename_i hb
      cases ht : daemonTls c with
      | none => rw [ht] at hs; cases hs
      | some t =>
        rw [ht] at hs
        simp only at hs
        cases ha : daemonAuth m.verify c.authEnabled (c.passwordFile.map m.text) with
        | none => rw [ha] at hs; cases hs
        | some au =>
          rw [ha] at hs
          simp only at hs
          cases t with
          | none => cases hs; exact ⟨rfl, hb, rfl, .inl ⟨rfl, rfl⟩⟩
          | some t =>
            simp only at hs
            cases hacc : t.buildAcceptor m.lib m.pem with
            | none => rw [hacc] at hs; cases hs
            | some acc =>
              rw [hacc] at hs
              cases hs
              exact ⟨rfl, hb, rfl, .inr ⟨t, acc, rfl, rfl, hacc⟩⟩
    · cases hs

theorem buildAcceptor_some {lib : Rustls} {files : PemFiles} {c : TlsConfig} {acc : Acceptor}
    (h : c.buildAcceptor lib files = some acc) :
    loadCerts files c.certPath = some acc.chain ∧ loadKey files c.keyPath = some acc.key ∧
      (match c.caPath with
        | some ca => ∃ roots, loadCerts files ca = some roots ∧ acc.clientRoots = some roots
        | none => acc.clientRoots = none) := by
  unfold TlsConfig.buildAcceptor at h
  cases h1 : loadCerts files c.certPath with
  | none => rw [h1] at h; cases h
  | some certs =>
    rw [h1] at h
    cases h2 : loadKey files c.keyPath with
    | none => rw [h2] at h; cases h
    | some key =>
      rw [h2] at h
      cases h3 : c.caPath with
      | none =>
        rw [h3] at h
        simp only at h
        split at h
        · cases h; exact ⟨rfl, rfl, rfl⟩
        · cases h
      | some ca =>
        rw [h3] at h
        simp only at h
        cases h4 : loadCerts files ca with
        | none => rw [h4] at h; cases h
        | some roots =>
          rw [h4] at h
          simp only at h
          split at h
          · cases h; exact ⟨rfl, rfl, roots, h4, rfl⟩
          · cases h

theorem loadKey_iff (files : PemFiles) (path : Str) (key : Buf) :
    loadKey files path = some key ↔ ∃ items, files path = some items ∧ FirstKeyIn items key := by
  unfold loadKey
  cases files path with
  | none => simp
  | some items => simp [firstKey_iff]

/-- C68: a daemon whose settings ask for TLS, if it serves at all, hands no connection to the broker
except over an encrypted stream after a handshake in which it shows the certificates of the configured
file with the first key of the configured key file, and, if a CA file is configured, demands a
certificate of the peer and checks it against the certificates in that file. -/
theorem C68_encrypts (m : Machine) (a : DaemonArgs) (addr : Str) (tls : Option Acceptor) (auth : AuthConfig)
    (hs : daemonStart m a = .serves addr tls auth) (r : RawConfig) (hr : InEffect m a r)
    (he : r.tlsEnabled = some true) :
    (∀ handshake, serverStream tls handshake ≠ some .plain) ∧
    ∃ acc certPath keyPath certFile keyFile, tls = some acc ∧
      (∀ handshake, serverStream tls handshake = some .encrypted → handshake acc = true) ∧
      r.certPath = some certPath ∧ m.pem certPath = some certFile ∧ CertsIn certFile acc.chain ∧
      r.keyPath = some keyPath ∧ m.pem keyPath = some keyFile ∧ FirstKeyIn keyFile acc.key ∧
      (∀ caPath, r.caPath = some caPath → ∃ caFile roots, m.pem caPath = some caFile ∧
        CertsIn caFile roots ∧ acc.clientRoots = some roots) ∧
      (r.caPath = none → acc.clientRoots = none) := by
  obtain ⟨c, hc, _, _, _, ht⟩ := serves_cases hs
  rw [inEffect_config hr] at hc; cases hc
  have hen : r.config.tlsEnabled = true := by simp [RawConfig.config, he]
  rcases ht with ⟨_, h⟩ | ⟨t, acc, rfl, h, hacc⟩
  · simp only [daemonTls, hen, if_true] at h
    split at h
    · split at h <;> cases h
    · cases h
  · refine ⟨?_, ?_⟩
    · intro hd; simp only [serverStream]; split <;> simp
    · obtain ⟨h1, h2, h3⟩ := buildAcceptor_some hacc
      obtain ⟨certFile, hcf, hci⟩ := (loadCerts_iff _ _ _).mp h1
      obtain ⟨keyFile, hkf, hki⟩ := (loadKey_iff _ _ _).mp h2
      have hst : ∀ handshake, serverStream (some acc) handshake = some .encrypted → handshake acc = true := by
        intro hd h; simp only [serverStream] at h; split at h
        · assumption
        · cases h
      simp only [daemonTls, hen, if_true] at h
      have e1 : r.config.certPath = r.certPath := rfl
      have e2 : r.config.keyPath = r.keyPath := rfl
      have e3 : r.config.caPath = r.caPath := rfl
      rw [e1, e2, e3] at h
      cases hcp : r.certPath with
      | none => rw [hcp] at h; cases h
      | some cp =>
        cases hkp : r.keyPath with
        | none => rw [hcp, hkp] at h; cases h
        | some kp =>
          rw [hcp, hkp] at h
          simp only at h
          cases hca : r.caPath with
          | none =>
            rw [hca] at h; cases h
            exact ⟨acc, cp, kp, certFile, keyFile, rfl, hst, rfl, hcf, hci, rfl, hkf, hki,
              fun _ h => (by cases h), fun _ => h3⟩
          | some ca =>
            rw [hca] at h; cases h
            obtain ⟨roots, hr1, hr2⟩ := h3
            obtain ⟨caFile, hr3, hr4⟩ := (loadCerts_iff _ _ _).mp hr1
            refine ⟨acc, cp, kp, certFile, keyFile, rfl, hst, rfl, hcf, hci, rfl, hkf, hki, ?_,
              fun h => (by cases h)⟩
            rintro _ ⟨⟩
            exact ⟨caFile, roots, hr3, hr4, hr2⟩

/-- C68: asked for TLS without a certificate or a key file, or with a file that has none, the daemon
does not serve. -/
theorem C68_no_files (m : Machine) (a : DaemonArgs) (r : RawConfig) (hr : InEffect m a r)
    (he : r.tlsEnabled = some true)
    (hf : (∀ p items certs, r.certPath = some p → m.pem p = some items → ¬ CertsIn items certs) ∨
      (∀ p items key, r.keyPath = some p → m.pem p = some items → ¬ FirstKeyIn items key)) :
    ∀ addr tls auth, daemonStart m a ≠ .serves addr tls auth := by
  intro addr tls auth hs
  obtain ⟨_, acc, cp, kp, cf, kf, _, _, h1, h2, h3, h4, h5, h6, _⟩ := C68_encrypts m a addr tls auth hs r hr he
  rcases hf with h | h
  · exact h cp cf acc.chain h1 h2 h3
  · exact h kp kf acc.key h4 h5 h6

/-- A machine with a configuration for TLS and authentication and the files it names. -/
def exMachine (r : RawConfig) : Machine where
  config := fun p => if p = str "/etc/mercurio/config.toml" then some (some r) else none
  text := fun p => if p = str "users" then some "bob:secret\n".toList else none
  pem := fun p => if p = str "cert" then some [.other, .cert [1], .cert [2]]
    else if p = str "key" then some [.cert [1], .key [3], .bad] else none
  bind := fun _ => true
  lib := ⟨fun _ => true, fun _ => true, fun _ _ => true, fun _ => true⟩
  verify := fun _ _ => false

/-- Settings with TLS and authentication. -/
def exSettings : RawConfig where
  tlsEnabled := some true
  certPath := some (str "cert")
  keyPath := some (str "key")
  authEnabled := some true
  passwordFile := some (str "users")

theorem exMachine_inEffect (r : RawConfig) : InEffect (exMachine r) {} r := .inl <| by
  show (if str "/etc/mercurio/config.toml" = str "/etc/mercurio/config.toml" then some (some r) else none) = _
  exact if_pos rfl

theorem serves_tls {m : Machine} {a : DaemonArgs} {c : Config} {t : TlsConfig} {acc : Acceptor}
    {auth : AuthConfig} (h1 : loadConfig m a = some c)
    (h2 : m.bind (a.listen.getD (hostPort c.host c.port)) = true) (h3 : daemonTls c = some (some t))
    (h4 : daemonAuth m.verify c.authEnabled (c.passwordFile.map m.text) = some auth)
    (h5 : t.buildAcceptor m.lib m.pem = some acc) :
    daemonStart m a = .serves (a.listen.getD (hostPort c.host c.port)) (some acc) auth := by
  unfold daemonStart
  rw [h1]
  simp only
  rw [if_pos h2, h3]
  simp only
  rw [h4]
  simp only
  rw [h5]

example : ∃ auth, daemonStart (exMachine exSettings) {} =
    .serves (str "127.0.0.1:1883") (some ⟨[[1], [2]], [3], none⟩) auth := by
  have hp : loadPasswords (some "bob:secret\n".toList) = some [("bob".toList, "secret".toList)] := by
    decide +kernel
  exact ⟨_, serves_tls (inEffect_config (exMachine_inEffect _)) rfl (t := ⟨str "cert", str "key", none⟩) rfl
    (daemonAuth_ok _ _ _ hp) (by decide +kernel)⟩

theorem buildAcceptor_isSome (lib : Rustls) (files : PemFiles) (c : TlsConfig) :
    (∃ acc, c.buildAcceptor lib files = some acc) ↔ ∃ certs key, loadCerts files c.certPath = some certs ∧
      loadKey files c.keyPath = some key ∧ lib.pair certs key = true ∧
      ∀ ca, c.caPath = some ca → ∃ roots, loadCerts files ca = some roots ∧ (∀ x ∈ roots, lib.root x = true) ∧
        lib.verifier roots = true := by
  unfold TlsConfig.buildAcceptor
  cases loadCerts files c.certPath with
  | none => simp
  | some certs =>
    cases loadKey files c.keyPath with
    | none => simp
    | some key =>
      cases c.caPath with
      | none => cases h : lib.pair certs key <;> simp [h]
      | some ca =>
        cases hr : loadCerts files ca with
        | none => simp [hr]
        | some roots =>
          simp only [Option.some.injEq, exists_and_left, exists_eq_left', forall_eq', hr]
          split
          · rename_i hx
            simp only [Bool.and_eq_true, List.all_eq_true] at hx
            simpa [hx.2, hx.1.2] using hx.1.1
          · rename_i hx
            simp only [Bool.and_eq_true, List.all_eq_true] at hx
            simp only [reduceCtorEq, exists_false, false_iff]
            rintro ⟨h1, h2, h3⟩
            exact hx ⟨⟨h2, h3⟩, h1⟩

/-! ## C69: authentication -/

theorem bytes_head_dollar (h : Text) : h.bytes.head? = some 0x24 ↔ h.head? = some '$' := by
  constructor
  · intro hh
    cases h with
    | nil => cases hh
    | cons c t =>
      have hu : utf8Valid (Text.bytes (c :: t)) = true := utf8Valid_of_isUtf8 ⟨c :: t, rfl⟩
      cases hb : Text.bytes (c :: t) with
      | nil => rw [hb] at hh; cases hh
      | cons b bs =>
        rw [hb] at hh hu
        cases hh
        have : utf8Valid bs = true := by rw [utf8Valid.eq_def] at hu; simpa using hu
        obtain ⟨cs, e⟩ := isUtf8_of_utf8Valid _ this
        have : Text.bytes (c :: t) = Text.bytes ('$' :: cs) := by
          rw [hb, e]
          have : String.utf8EncodeChar '$' = [0x24] := by decide +kernel
          simp only [Text.bytes, List.flatMap_cons, this]; rfl
        have := Text.bytes_injective this
        cases this; rfl
  · intro hh
    cases h with
    | nil => cases hh
    | cons c t => cases hh; exact bytes_head _ t rfl

theorem hashedValidate_iff (verify : Str → Buf → Bool) (m : Map Text Text) (user : Str) (pw : Buf) :
    hashedValidate verify (m.map fun e => (Text.bytes e.1, Text.bytes e.2)) user pw = true ↔
      ∃ u h, user = Text.bytes u ∧ m.get u = some h ∧ RightPassword verify h pw := by
  have right : ∀ h : Text, (if h.bytes.head? = some 0x24 then verify h.bytes pw
      else if utf8Valid pw then decide (h.bytes = pw) else false) = true ↔ RightPassword verify h pw := by
    intro h
    unfold RightPassword
    by_cases hd : h.head? = some '$'
    · simp [(bytes_head_dollar h).mpr hd, hd]
    · have : h.bytes.head? ≠ some 0x24 := fun e => hd ((bytes_head_dollar h).mp e)
      rw [if_neg this]
      simp only [hd, false_and, ne_eq, not_false_eq_true, true_and, false_or]
      by_cases hu : utf8Valid pw = true
      · simp [hu]
      · simp only [hu, Bool.false_eq_true, if_false, false_iff]
        rintro rfl
        exact hu (utf8Valid_of_isUtf8 ⟨h, rfl⟩)
  constructor
  · intro hv
    have : ∃ u, user = Text.bytes u := by
      unfold hashedValidate at hv
      cases hg : Map.get (m.map fun e => (Text.bytes e.1, Text.bytes e.2)) user with
      | none => rw [hg] at hv; cases hv
      | some s =>
        clear hv
        induction m with
        | nil => cases hg
        | cons e m ih =>
          simp only [List.map_cons, Map.get] at hg
          split at hg
          · exact ⟨e.1, by simp_all⟩
          · exact ih hg
    obtain ⟨u, rfl⟩ := this
    unfold hashedValidate at hv
    rw [get_map_bytes] at hv
    cases hg : m.get u with
    | none => rw [hg] at hv; cases hv
    | some h =>
      rw [hg] at hv
      exact ⟨u, h, rfl, hg, (right h).mp hv⟩
  · rintro ⟨u, h, rfl, hg, hr⟩
    unfold hashedValidate
    rw [get_map_bytes, hg]
    exact (right h).mpr hr

theorem auth_cases {m : Machine} {r : RawConfig} {auth : AuthConfig} (he : r.authEnabled = some true)
    (ha : daemonAuth m.verify r.config.authEnabled (r.config.passwordFile.map m.text) = some auth) :
    auth.requireAuth = true ∧ ((r.passwordFile = none ∧ auth.validator = none) ∨
      ∃ path t users, r.passwordFile = some path ∧ m.text path = some t ∧ loadPasswords (some t) = some users ∧
        auth.validator = some (hashedValidate m.verify (users.map fun e => (Text.bytes e.1, Text.bytes e.2)))) := by
  have e1 : r.config.authEnabled = true := by simp [RawConfig.config, he]
  have e2 : r.config.passwordFile = r.passwordFile := rfl
  rw [e1, e2] at ha
  cases hp : r.passwordFile with
  | none =>
    rw [hp] at ha
    simp only [daemonAuth, if_true, Option.map_none] at ha
    cases ha
    exact ⟨rfl, .inl ⟨rfl, rfl⟩⟩
  | some path =>
    rw [hp] at ha
    simp only [Option.map_some] at ha
    cases hl : loadPasswords (m.text path) with
    | none => simp [daemonAuth, hl] at ha
    | some users =>
      rw [daemonAuth_ok _ _ _ hl] at ha
      cases ha
      cases ht : m.text path with
      | none => rw [ht] at hl; cases hl
      | some t => exact ⟨rfl, .inr ⟨path, t, users, rfl, ht, by rw [← ht, hl], rfl⟩⟩

/-- C69: a daemon whose settings ask for authentication has, after any history, only connections whose
CONNECT gave a user that the password file lists, with the right password. -/
theorem C69_users_only (m : Machine) (a : DaemonArgs) (addr : Str) (tls : Option Acceptor) (auth : AuthConfig)
    (hs : daemonStart m a = .serves addr tls auth) (r : RawConfig) (hr : InEffect m a r)
    (he : r.authEnabled = some true) (es : List Event) (c : Nat) (ho : (Server.init.run auth es).isOpen c) :
    ∃ p uuid path t ls user hash password, .first c (.connect p) uuid true ∈ es ∧
      r.passwordFile = some path ∧ m.text path = some t ∧ LinesOf t ls ∧ Listed ls user hash ∧
      p.payload.userName = some (Text.bytes user) ∧ p.payload.password = some password ∧
      RightPassword m.verify hash password := by
  obtain ⟨cf, hc, _, _, ha, _⟩ := serves_cases hs
  rw [inEffect_config hr] at hc; cases hc
  obtain ⟨hq, hv⟩ := auth_cases he ha
  obtain ⟨p, uuid, u, pw, v, h1, h2, h3, h4, h5⟩ := C47_open_connections auth hq es c ho
  rcases hv with ⟨_, hv⟩ | ⟨path, t, users, hp, ht, hl, hv⟩
  · rw [hv] at h4; cases h4
  · rw [hv] at h4; cases h4
    obtain ⟨user, hash, rfl, hg, hright⟩ := (hashedValidate_iff _ _ _ _).mp h5
    obtain ⟨ls, hls⟩ := linesOf_exists t
    exact ⟨p, uuid, path, t, ls, user, hash, pw, h1, hp, ht, hls,
      (C54_meaning t ls hls users hl user hash).mp hg, h2, h3, hright⟩

/-- C69: and a CONNECT with a listed user and the right password is let in. -/
theorem C69_users_admitted (m : Machine) (a : DaemonArgs) (addr : Str) (tls : Option Acceptor)
    (auth : AuthConfig) (hs : daemonStart m a = .serves addr tls auth) (r : RawConfig) (hr : InEffect m a r)
    (he : r.authEnabled = some true) (path : Str) (t : Text) (ls : List Text)
    (hp : r.passwordFile = some path) (ht : m.text path = some t) (hls : LinesOf t ls) (user hash : Text)
    (hl : Listed ls user hash) (password : Buf) (hw : RightPassword m.verify hash password)
    (srv : Server) (c : Nat) (hn : ¬ srv.isOpen c) (p : ConnectPacket) (uuid : Str)
    (hu : p.payload.userName = some (Text.bytes user)) (hpw : p.payload.password = some password) :
    ((srv.step auth (.first c (.connect p) uuid true)).1).isOpen c := by
  obtain ⟨cf, hc, _, _, ha, _⟩ := serves_cases hs
  rw [inEffect_config hr] at hc; cases hc
  obtain ⟨_, hv⟩ := auth_cases he ha
  rcases hv with ⟨hv, _⟩ | ⟨path', t', users, hp', ht', hlo, hv⟩
  · rw [hp] at hv; cases hv
  · rw [hp] at hp'; cases hp'
    rw [ht] at ht'; cases ht'
    have hg := (C54_meaning t ls hls users hlo user hash).mpr hl
    have had : Admitted auth srv c p :=
      ⟨hn, fun _ => ⟨_, _, _, hu, hpw, hv, (hashedValidate_iff _ _ _ _).mpr ⟨user, hash, rfl, hg, hw⟩⟩⟩
    rw [step_first had]
    obtain ⟨rr, he⟩ := start_effect srv c p uuid true
    refine ⟨⟨rr, p.payload.clientId⟩, ?_⟩
    rw [he.conns, if_pos rfl, Map.get_insert, if_pos rfl]

/-- C69: asked for authentication with a password file that cannot be read or has a malformed line, the
daemon does not serve. -/
theorem C69_no_file (m : Machine) (a : DaemonArgs) (r : RawConfig) (hr : InEffect m a r)
    (he : r.authEnabled = some true) (path : Str) (hp : r.passwordFile = some path)
    (hf : m.text path = none ∨ ∃ t ls l, m.text path = some t ∧ LinesOf t ls ∧ l ∈ ls ∧ ¬ Ignored l ∧
      ∀ u k, ¬ Entry l u k) :
    ∀ addr tls auth, daemonStart m a ≠ .serves addr tls auth := by
  intro addr tls auth hs
  obtain ⟨cf, hc, _, _, ha, _⟩ := serves_cases hs
  rw [inEffect_config hr] at hc; cases hc
  obtain ⟨_, hv⟩ := auth_cases he ha
  rcases hv with ⟨hv, _⟩ | ⟨path', t', users, hp', ht', hlo, _⟩
  · rw [hp] at hv; cases hv
  · rw [hp] at hp'; cases hp'
    rcases hf with h | ⟨t, ls, l, h1, h2, h3, h4, h5⟩
    · rw [h] at ht'; cases ht'
    · rw [h1] at ht'; cases ht'
      rw [(C54_refused _ ls h2).mpr ⟨l, h3, h4, h5⟩] at hlo; cases hlo

/-- C69: without a password file nobody is let in. -/
theorem C69_no_users (m : Machine) (a : DaemonArgs) (addr : Str) (tls : Option Acceptor) (auth : AuthConfig)
    (hs : daemonStart m a = .serves addr tls auth) (r : RawConfig) (hr : InEffect m a r)
    (he : r.authEnabled = some true) (hp : r.passwordFile = none) (es : List Event) (c : Nat) :
    ¬ (Server.init.run auth es).isOpen c := by
  intro ho
  obtain ⟨_, _, path, _, _, _, _, _, _, h, _⟩ := C69_users_only m a addr tls auth hs r hr he es c ho
  rw [hp] at h; cases h

/-- The hypotheses of the theorems above are met by user "bob" of the machine above. -/
example : ∃ auth, daemonStart (exMachine { exSettings with allowAnonymous := some true }) {} =
      .serves (str "127.0.0.1:1883") (some ⟨[[1], [2]], [3], none⟩) auth ∧
    LinesOf "bob:secret\n".toList ["bob:secret".toList, []] ∧
    Listed ["bob:secret".toList, []] "bob".toList "secret".toList ∧
    RightPassword (exMachine exSettings).verify "secret".toList (str "secret") := by
  have hp : loadPasswords (some "bob:secret\n".toList) = some [("bob".toList, "secret".toList)] := by
    decide +kernel
  have hl : LinesOf "bob:secret\n".toList ["bob:secret".toList, []] :=
    ⟨by simp, by decide +kernel, by decide +kernel⟩
  refine ⟨_, serves_tls (inEffect_config (exMachine_inEffect _)) rfl (t := ⟨str "cert", str "key", none⟩) rfl
    (daemonAuth_ok _ _ _ hp) (by decide +kernel), hl, ?_, .inr ⟨by decide +kernel, by decide +kernel⟩⟩
  exact (C54_meaning _ _ hl _ hp _ _).mp (by decide +kernel)

/-! ## C70: the settings have their documented effects -/

/-- Part of C70: the daemon listens where the `--listen` argument says, otherwise at the configured host
and port, otherwise at 127.0.0.1:1883; without `tls.enabled = true` it speaks plain TCP, and without
`auth.enabled = true` it asks nobody for a password, whatever password file is configured.
Missing, and false (below): `allow_anonymous` and `max_connections`. -/
theorem C70_settings_partial (m : Machine) (a : DaemonArgs) (addr : Str) (tls : Option Acceptor)
    (auth : AuthConfig) (hs : daemonStart m a = .serves addr tls auth) (r : RawConfig) (hr : InEffect m a r) :
    (∀ l, a.listen = some l → addr = l) ∧
    (a.listen = none → addr = (match r.host with | some h => h | none => str "127.0.0.1") ++ str ":" ++
      (match r.port with | some p => str (toString p.toNat) | none => str "1883")) ∧
    (r.tlsEnabled ≠ some true → ∀ handshake, serverStream tls handshake = some .plain) ∧
    (r.authEnabled ≠ some true → auth.requireAuth = false) := by
  obtain ⟨c, hc, hadd, _, ha, ht⟩ := serves_cases hs
  rw [inEffect_config hr] at hc; cases hc
  refine ⟨?_, ?_, ?_, ?_⟩
  · intro l hl; rw [hadd, hl]; rfl
  · intro hl
    rw [hadd, hl]
    simp only [Option.getD_none, hostPort, RawConfig.config]
    cases r.host <;> cases r.port <;> rfl
  · intro hn hd
    have : r.config.tlsEnabled = false := by
      unfold RawConfig.config
      cases h : r.tlsEnabled with
      | none => rfl
      | some b => cases b with
        | false => rfl
        | true => exact absurd h hn
    rcases ht with ⟨rfl, _⟩ | ⟨t, acc, _, h, _⟩
    · rfl
    · simp [daemonTls, this] at h
  · intro hn
    have : r.config.authEnabled = false := by
      unfold RawConfig.config
      cases h : r.authEnabled with
      | none => rfl
      | some b => cases b with
        | false => rfl
        | true => exact absurd h hn
    rw [this] at ha
    simp only [daemonAuth, Bool.false_eq_true, if_false] at ha
    cases ha; rfl

/-- C70: the daemon never serves with settings it was not given: if it serves, there is a configuration
file that could be read and parsed, or no file at the default place and no other was asked for; and the
port could be bound. -/
theorem C70_only_given_settings (m : Machine) (a : DaemonArgs) (addr : Str) (tls : Option Acceptor)
    (auth : AuthConfig) (hs : daemonStart m a = .serves addr tls auth) :
    (∃ r, InEffect m a r) ∧ m.bind addr = true := by
  unfold daemonStart at hs
  cases hl : loadConfig m a with
  | none => rw [hl] at hs; cases hs
  | some c =>
    constructor
    · unfold loadConfig at hl
      cases hc : m.config a.config with
      | none =>
        rw [hc] at hl
        simp only at hl
        by_cases hd : a.config = str "/etc/mercurio/config.toml"
        · exact ⟨{}, .inr ⟨hc, hd, rfl⟩⟩
        · rw [if_pos hd] at hl; cases hl
      | some o =>
        cases o with
        | none => rw [hc] at hl; cases hl
        | some r => exact ⟨r, .inl hc⟩
    · rw [hl] at hs
      simp only at hs
      split at hs
      · rename_i hb
        split at hs
        · cases hs
        · split at hs
          · cases hs
          · split at hs
            · cases hs; exact hb
            · split at hs
              · cases hs
              · cases hs; exact hb
      · cases hs

/-- The case in question: no file where one was asked for, so the daemon does not serve. -/
example : daemonStart { exMachine exSettings with config := fun _ => none } { config := str "mine.toml" } =
    .error := rfl

/-- C70 is false for `allow_anonymous` ("Allow anonymous connections (when auth is enabled)"): with
authentication enabled, whatever `allow_anonymous` says, a CONNECT without user name is refused. -/
theorem C70_allow_anonymous_false (m : Machine) (a : DaemonArgs) (addr : Str) (tls : Option Acceptor)
    (auth : AuthConfig) (hs : daemonStart m a = .serves addr tls auth) (r : RawConfig) (hr : InEffect m a r)
    (he : r.authEnabled = some true) (_hallow : r.allowAnonymous = some true)
    (srv : Server) (c : Nat) (hn : ¬ srv.isOpen c) (p : ConnectPacket) (uuid : Str)
    (hu : p.payload.userName = none) :
    srv.step auth (.first c (.connect p) uuid true) =
      (srv, { sent := [.connAck ⟨p.protocolVersion, false, .badUserNameOrPassword, none⟩] }) := by
  obtain ⟨cf, hc, _, _, ha, _⟩ := serves_cases hs
  rw [inEffect_config hr] at hc; cases hc
  exact C47_refused auth srv c p uuid true hn (auth_cases he ha).1 (by simp [hu])

/-- `n` clients connect, one after the other. -/
def crowd (n : Nat) : List Event :=
  (List.range n).map fun c => .first c (.connect (exConnect (str "x") true)) (str "id") true

theorem crowd_open (cfg : AuthConfig) (hr : cfg.requireAuth = false) (n : Nat) :
    ∀ c, (Server.init.run cfg (crowd n)).isOpen c ↔ c < n := by
  induction n with
  | zero =>
    intro c
    constructor
    · rintro ⟨k, hk⟩; simp [crowd, Server.run, Server.init, Map.get] at hk
    · omega
  | succ n ih =>
    intro c
    have e : crowd (n + 1) = crowd n ++ [.first n (.connect (exConnect (str "x") true)) (str "id") true] := by
      simp [crowd, List.range_succ]
    rw [e, run_snoc]
    have had : Admitted cfg (Server.init.run cfg (crowd n)) n (exConnect (str "x") true) :=
      ⟨fun h => Nat.lt_irrefl n ((ih n).mp h), fun h => by rw [hr] at h; cases h⟩
    rw [step_first had]
    obtain ⟨rr, hef⟩ := start_effect (Server.init.run cfg (crowd n)) n (exConnect (str "x") true) (str "id") true
    have hcon := hef.conns
    simp only [if_true] at hcon
    unfold Server.isOpen at ih ⊢
    rw [hcon, Map.get_insert]
    by_cases hcn : n = c
    · subst hcn; simp
    · rw [if_neg hcn, ih c]; omega

/-- C70 is false for `max_connections` ("Maximum number of concurrent connections"): whatever number is
configured, a daemon without authentication has more connections open when that many clients come. -/
theorem C70_max_connections_false (m : Machine) (a : DaemonArgs) (addr : Str) (tls : Option Acceptor)
    (auth : AuthConfig) (hs : daemonStart m a = .serves addr tls auth) (r : RawConfig) (hr : InEffect m a r)
    (n : Nat) (_hmax : r.maxConnections = some n) (he : r.authEnabled ≠ some true) :
    ∃ es, ∀ c, c ≤ n → (Server.init.run auth es).isOpen c := by
  have := (C70_settings_partial m a addr tls auth hs r hr).2.2.2 he
  exact ⟨crowd (n + 1), fun c hc => (crowd_open auth this (n + 1) c).mpr (by omega)⟩

example : daemonStart (exMachine { maxConnections := some 3, port := some 99 }) {} =
    .serves (str "127.0.0.1:99") none {} := by
  unfold daemonStart
  rw [inEffect_config (exMachine_inEffect _)]
  rfl

/-! ## C68, C69, C70: exactly when the daemon serves -/

theorem tlsUsable_iff (m : Machine) (r : RawConfig) (he : r.tlsEnabled = some true) :
    TlsUsable m r ↔ ∃ t acc, daemonTls r.config = some (some t) ∧ t.buildAcceptor m.lib m.pem = some acc := by
  have hen : r.config.tlsEnabled = true := by simp [RawConfig.config, he]
  have e1 : r.config.certPath = r.certPath := rfl
  have e2 : r.config.keyPath = r.keyPath := rfl
  have e3 : r.config.caPath = r.caPath := rfl
  have ht : daemonTls r.config = match r.certPath, r.keyPath with
      | some cp, some kp => some (some ⟨cp, kp, r.caPath⟩)
      | _, _ => none := by
    simp only [daemonTls, hen, if_true, e1, e2, e3]
    cases r.certPath <;> cases r.keyPath <;> cases r.caPath <;> rfl
  constructor
  · rintro ⟨cp, kp, cf, kf, certs, ky, hc, h1, h2, hk, h3, h4, h5, h6⟩
    rw [hc, hk] at ht
    obtain ⟨acc, h⟩ := (buildAcceptor_isSome m.lib m.pem ⟨cp, kp, r.caPath⟩).mpr
      ⟨certs, ky, (loadCerts_iff _ _ _).mpr ⟨cf, h1, h2⟩, (loadKey_iff _ _ _).mpr ⟨kf, h3, h4⟩, h5, fun ca hca => by
        obtain ⟨f, roots, g1, g2, g3, g4⟩ := h6 ca hca
        exact ⟨roots, (loadCerts_iff _ _ _).mpr ⟨f, g1, g2⟩, g3, g4⟩⟩
    exact ⟨_, acc, ht, h⟩
  · rintro ⟨t, acc, h, hb⟩
    rw [ht] at h
    cases hc : r.certPath with
    | none => rw [hc] at h; cases h
    | some cp =>
      cases hk : r.keyPath with
      | none => rw [hc, hk] at h; cases h
      | some kp =>
        rw [hc, hk] at h
        cases h
        obtain ⟨certs, ky, h1, h2, h5, h6⟩ := (buildAcceptor_isSome m.lib m.pem ⟨cp, kp, r.caPath⟩).mp ⟨acc, hb⟩
        obtain ⟨cf, g1, g2⟩ := (loadCerts_iff _ _ _).mp h1
        obtain ⟨kf, g3, g4⟩ := (loadKey_iff _ _ _).mp h2
        refine ⟨cp, kp, cf, kf, certs, ky, hc, g1, g2, hk, g3, g4, h5, fun ca hca => ?_⟩
        obtain ⟨roots, g5, g6, g7⟩ := h6 ca hca
        obtain ⟨f, g8, g9⟩ := (loadCerts_iff _ _ _).mp g5
        exact ⟨f, roots, g8, g9, g6, g7⟩

theorem loadPasswords_isSome (t : Text) (ls : List Text) (h : LinesOf t ls) :
    (∃ x, loadPasswords (some t) = some x) ↔ ∀ l ∈ ls, Ignored l ∨ ∃ u k, Entry l u k := by
  have hn := C54_refused t ls h
  cases hl : loadPasswords (some t) with
  | none =>
    obtain ⟨l, h1, h2, h3⟩ := hn.mp hl
    simp only [reduceCtorEq, exists_false, false_iff]
    intro hf
    rcases hf l h1 with h' | ⟨u, k, h'⟩
    · exact h2 h'
    · exact h3 u k h'
  | some x =>
    simp only [Option.some.injEq, exists_eq', true_iff]
    intro l h1
    refine Classical.byContradiction fun hc => ?_
    have : loadPasswords (some t) = none := hn.mpr ⟨l, h1, fun h2 => hc (.inl h2), fun u k h3 => hc (.inr ⟨u, k, h3⟩)⟩
    rw [hl] at this
    cases this

theorem passwordsUsable_iff (m : Machine) (r : RawConfig) :
    (∃ x, daemonAuth m.verify r.config.authEnabled (r.config.passwordFile.map m.text) = some x) ↔
      (r.authEnabled = some true → PasswordsUsable m r) := by
  have e : r.config.passwordFile = r.passwordFile := rfl
  have ee : r.config.authEnabled = r.authEnabled.getD false := rfl
  rw [e, ee]
  by_cases he : r.authEnabled = some true
  · simp only [he, Option.getD_some, forall_const, PasswordsUsable, daemonAuth, if_true]
    cases hp : r.passwordFile with
    | none => simp
    | some path =>
      simp only [Option.map_some, Option.some.injEq, forall_eq']
      cases ht : m.text path with
      | none => simp [loadPasswords]
      | some t =>
        obtain ⟨ls, hls⟩ := linesOf_exists t
        have hi := loadPasswords_isSome t ls hls
        constructor
        · rintro ⟨x, hx⟩
          refine ⟨t, ls, rfl, hls, hi.mp ?_⟩
          cases hl : loadPasswords (some t) with
          | none => rw [hl] at hx; cases hx
          | some y => exact ⟨y, rfl⟩
        · rintro ⟨t', ls', ⟨⟩, h1, h2⟩
          obtain ⟨y, hy⟩ := (loadPasswords_isSome t ls' h1).mpr h2
          exact ⟨_, by rw [hy]⟩
  · have : r.authEnabled.getD false = false := by
      cases h : r.authEnabled with
      | none => rfl
      | some b =>
        cases b with
        | false => rfl
        | true => exact absurd h he
    simp [this, he, daemonAuth]

theorem listensAt_iff (a : DaemonArgs) (r : RawConfig) (addr : Str) :
    ListensAt a r addr ↔ addr = a.listen.getD (hostPort r.config.host r.config.port) := by
  unfold ListensAt
  cases a.listen with
  | some l => simp [eq_comm]
  | none =>
    simp only [reduceCtorEq, true_and, false_or, Option.getD_none, hostPort, RawConfig.config]
    cases r.host <;> cases r.port <;> rfl

/-- C70: with these settings in effect the daemon serves at `addr` exactly if that is where it is to listen and can, TLS is not asked for
or its files are usable, and authentication is not asked for or the password file is usable. -/
theorem C70_serves_iff (m : Machine) (a : DaemonArgs) (r : RawConfig) (hr : InEffect m a r) (addr : Str) :
    (∃ tls auth, daemonStart m a = .serves addr tls auth) ↔
      ListensAt a r addr ∧ m.bind addr = true ∧ (r.tlsEnabled = some true → TlsUsable m r) ∧
        (r.authEnabled = some true → PasswordsUsable m r) := by
  rw [listensAt_iff, ← passwordsUsable_iff]
  have hoff : r.tlsEnabled ≠ some true → daemonTls r.config = some none := by
    intro h
    have : r.config.tlsEnabled = false := by
      show r.tlsEnabled.getD false = false
      cases h' : r.tlsEnabled with
      | none => rfl
      | some b =>
        cases b with
        | false => rfl
        | true => exact absurd h' h
    simp [daemonTls, this]
  constructor
  · rintro ⟨tls, auth, hs⟩
    obtain ⟨c, hc, h1, h2, h3, h4⟩ := serves_cases hs
    rw [inEffect_config hr] at hc; cases hc
    refine ⟨h1, h2, fun he => (tlsUsable_iff m r he).mpr ?_, auth, h3⟩
    rcases h4 with ⟨_, h⟩ | ⟨t, acc, _, h, h'⟩
    · have hen : r.config.tlsEnabled = true := by simp [RawConfig.config, he]
      simp only [daemonTls, hen, if_true] at h
      split at h
      · split at h <;> cases h
      · cases h
    · exact ⟨t, acc, h, h'⟩
  · rintro ⟨rfl, h2, h3, auth, h4⟩
    by_cases he : r.tlsEnabled = some true
    · obtain ⟨t, acc, g1, g2⟩ := (tlsUsable_iff m r he).mp (h3 he)
      exact ⟨_, _, serves_tls (inEffect_config hr) h2 g1 h4 g2⟩
    · refine ⟨none, auth, ?_⟩
      unfold daemonStart
      rw [inEffect_config hr]
      simp only
      rw [if_pos h2, hoff he]
      simp only
      rw [h4]

/-- C68: asked for TLS, the daemon serves only if the files are usable; and then it does, if nothing else is in the way. -/
theorem C68_serves_iff (m : Machine) (a : DaemonArgs) (r : RawConfig) (hr : InEffect m a r) (he : r.tlsEnabled = some true)
    (ha : r.authEnabled ≠ some true) (hb : ∀ addr, m.bind addr = true) :
    (∃ addr tls auth, daemonStart m a = .serves addr tls auth) ↔ TlsUsable m r := by
  have := C70_serves_iff m a r hr
  constructor
  · rintro ⟨addr, h⟩
    exact ((this addr).mp h).2.2.1 he
  · intro h
    exact ⟨_, (this _).mpr ⟨(listensAt_iff a r _).mpr rfl, hb _, fun _ => h, fun h' => absurd h' ha⟩⟩

/-- C69: asked for authentication, the daemon serves only if the password file, if there is one, is usable; and then it does, if nothing
else is in the way. -/
theorem C69_serves_iff (m : Machine) (a : DaemonArgs) (r : RawConfig) (hr : InEffect m a r) (he : r.authEnabled = some true)
    (ht : r.tlsEnabled ≠ some true) (hb : ∀ addr, m.bind addr = true) :
    (∃ addr tls auth, daemonStart m a = .serves addr tls auth) ↔ PasswordsUsable m r := by
  have := C70_serves_iff m a r hr
  constructor
  · rintro ⟨addr, h⟩
    exact ((this addr).mp h).2.2.2 he
  · intro h
    exact ⟨_, (this _).mpr ⟨(listensAt_iff a r _).mpr rfl, hb _, fun h' => absurd h' ht, fun _ => h⟩⟩

/-- The hypotheses of `C68_serves_iff`, on a machine whose library finds that certificate and key do not fit. -/
example : let m : Machine := { exMachine { exSettings with authEnabled := none } with
      lib := ⟨fun _ => true, fun _ => true, fun _ _ => false, fun _ => true⟩ }
    InEffect m {} { exSettings with authEnabled := none } ∧ (∀ addr, m.bind addr = true) ∧
      ¬ ∃ addr tls auth, daemonStart m {} = .serves addr tls auth := by
  intro m
  have hi : InEffect m {} { exSettings with authEnabled := none } := exMachine_inEffect _
  refine ⟨hi, fun _ => rfl, ?_⟩
  rw [C68_serves_iff m {} _ hi rfl (by decide +kernel) fun _ => rfl]
  rintro ⟨_, _, _, _, _, _, _, _, _, _, _, _, h, _⟩
  cases h

/-- The hypotheses of `C69_serves_iff`, on a machine with a usable password file. -/
example : let r : RawConfig := { exSettings with tlsEnabled := none }
    InEffect (exMachine r) {} r ∧ PasswordsUsable (exMachine r) r ∧
      ∃ addr tls auth, daemonStart (exMachine r) {} = .serves addr tls auth := by
  intro r
  have hi : InEffect (exMachine r) {} r := exMachine_inEffect _
  have hu : PasswordsUsable (exMachine r) r := by
    rintro path ⟨⟩
    obtain ⟨ls, hls⟩ := linesOf_exists "bob:secret\n".toList
    refine ⟨_, ls, rfl, hls, (loadPasswords_isSome _ _ hls).mp ?_⟩
    exact ⟨[("bob".toList, "secret".toList)], by decide +kernel⟩
  exact ⟨hi, hu, (C69_serves_iff _ {} _ hi rfl (by decide +kernel) fun _ => rfl).mpr hu⟩

end Mercurio
