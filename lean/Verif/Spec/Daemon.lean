import Verif.Model.Daemon
import Verif.Spec.PasswordFile

/-! # Specification: what the operator has asked for -/

namespace Mercurio.Spec

/-- The settings in effect: those of the configuration file, or none (all defaults) if there is no
file at the default place and no other was asked for. -/
def InEffect (m : Machine) (a : DaemonArgs) (r : RawConfig) : Prop :=
  m.config a.config = some (some r) ∨
    (m.config a.config = none ∧ a.config = str "/etc/mercurio/config.toml" ∧ r = {})

/-- The certificates in a PEM file, in order; there are some, and nothing in it is malformed. -/
def CertsIn (items : List PemItem) (certs : List Buf) : Prop :=
  .bad ∉ items ∧ certs ≠ [] ∧ certs = items.filterMap fun | .cert c => some c | _ => none

/-- The first key in a PEM file. -/
def FirstKeyIn (items : List PemItem) (key : Buf) : Prop :=
  ∃ before after, items = before ++ .key key :: after ∧ .bad ∉ before ∧ ∀ k, .key k ∉ before

/-- The files of TLS are there and the library accepts them: a certificate file with certificates, a key file with a key that fits them,
and, if a CA file is configured, certificates in it that can be used as roots. -/
def TlsUsable (m : Machine) (r : RawConfig) : Prop :=
  ∃ certPath keyPath certFile keyFile certs key, r.certPath = some certPath ∧ m.pem certPath = some certFile ∧
    CertsIn certFile certs ∧ r.keyPath = some keyPath ∧ m.pem keyPath = some keyFile ∧ FirstKeyIn keyFile key ∧
    m.lib.pair certs key = true ∧
    ∀ caPath, r.caPath = some caPath → ∃ caFile roots, m.pem caPath = some caFile ∧ CertsIn caFile roots ∧
      (∀ x ∈ roots, m.lib.root x = true) ∧ m.lib.verifier roots = true

/-- The lines of a text. -/
def LinesOf (t : Text) (ls : List Text) : Prop :=
  ls ≠ [] ∧ (∀ l ∈ ls, '\n' ∉ l) ∧ t = (ls.intersperse ['\n']).flatten

/-- The line gives user `u` the password (or hash) `h`: it reads `u:h`, apart from white space at
both ends, and is no comment. -/
def Entry (line u h : Text) : Prop :=
  ∃ pre post, (∀ c ∈ pre, White c) ∧ (∀ c ∈ post, White c) ∧ line = pre ++ u ++ ':' :: h ++ post ∧
    ':' ∉ u ∧ (∀ c, (u ++ [':']).head? = some c → ¬ White c ∧ c ≠ '#') ∧
    (∀ c, (':' :: h).getLast? = some c → ¬ White c)

/-- The line is empty, apart from white space, or a comment. -/
def Ignored (line : Text) : Prop :=
  (∀ c ∈ line, White c) ∨ ∃ pre rest, (∀ c ∈ pre, White c) ∧ line = pre ++ '#' :: rest

/-- The password file, if one is configured, can be read, and every line in it is an entry or to be ignored. -/
def PasswordsUsable (m : Machine) (r : RawConfig) : Prop :=
  ∀ path, r.passwordFile = some path → ∃ t ls, m.text path = some t ∧ LinesOf t ls ∧ ∀ l ∈ ls, Ignored l ∨ ∃ u h, Entry l u h

/-- Where the operator wants the daemon to listen. -/
def ListensAt (a : DaemonArgs) (r : RawConfig) (addr : Str) : Prop :=
  a.listen = some addr ∨ (a.listen = none ∧
    addr = (match r.host with | some h => h | none => str "127.0.0.1") ++ str ":" ++
      (match r.port with | some p => str (toString p.toNat) | none => str "1883"))

/-- The file lists user `u` with password (or hash) `h`: the last line for `u` says so. -/
def Listed (ls : List Text) (u h : Text) : Prop :=
  ∃ before line after, ls = before ++ line :: after ∧ Entry line u h ∧
    ∀ l ∈ after, ∀ h', ¬ Entry l u h'

/-- The password is right: an entry with a dollar sign in front is a hash, which has to verify it,
any other entry is the password itself. -/
def RightPassword (verify : Str → Buf → Bool) (h : Text) (password : Buf) : Prop :=
  (h.head? = some '$' ∧ verify h.bytes password = true) ∨ (h.head? ≠ some '$' ∧ h.bytes = password)

end Mercurio.Spec
