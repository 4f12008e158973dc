import Verif.Model.PasswordFile
import Verif.Model.Tls

/-!
# The daemon: configuration and start

Models mercuriod/src/config.rs and the server part of `main`, mercuriod/src/main.rs:62-169, together with
the start of `run_with_tls`, mercurio-server/src/server.rs:72-119.
The TOML parser, the file system and the binding of the port are external.  Logging is not modelled.
-/

namespace Mercurio

/-- A configuration file as parsed by `toml` (external), mercuriod/src/config.rs:22-27: the settings
that are in it. -/
structure RawConfig where
  host : Option Str := none
  port : Option UInt16 := none
  maxConnections : Option Nat := none
  tlsEnabled : Option Bool := none
  certPath : Option Str := none
  keyPath : Option Str := none
  caPath : Option Str := none
  authEnabled : Option Bool := none
  allowAnonymous : Option Bool := none
  passwordFile : Option Str := none
  deriving DecidableEq, Repr

/-- `Config` with its parts, mercuriod/src/config.rs:10-19, 33-48, 64-77, 111-122 (the log level is left
out). -/
structure Config where
  host : Str
  port : UInt16
  maxConnections : Nat
  tlsEnabled : Bool
  certPath : Option Str
  keyPath : Option Str
  caPath : Option Str
  authEnabled : Bool
  allowAnonymous : Bool
  passwordFile : Option Str
  deriving DecidableEq, Repr

/-- The defaults, mercuriod/src/config.rs:50-59, 79-89, 124-136 and the `serde(default)` attributes. -/
def RawConfig.config (r : RawConfig) : Config :=
  { host := r.host.getD (str "127.0.0.1")
    port := r.port.getD 1883
    maxConnections := r.maxConnections.getD 10000
    tlsEnabled := r.tlsEnabled.getD false
    certPath := r.certPath
    keyPath := r.keyPath
    caPath := r.caPath
    authEnabled := r.authEnabled.getD false
    allowAnonymous := r.allowAnonymous.getD true
    passwordFile := r.passwordFile }

/-- The arguments, mercuriod/src/main.rs:28-42 (without `passwd` and `verbose`). -/
structure DaemonArgs where
  config : Str := str "/etc/mercurio/config.toml"
  listen : Option Str := none
  deriving DecidableEq, Repr

/-- What the daemon finds: the configuration file (`none`: it does not exist; `some none`: it cannot
be read or parsed), text files, PEM files, the ports it can bind, rustls and argon2 (all external). -/
structure Machine where
  config : Str → Option (Option RawConfig)
  text : Str → Option Text
  pem : PemFiles
  bind : Str → Bool
  lib : Rustls
  verify : Str → Buf → Bool

/-- `format!("{}:{}", host, port)`, mercuriod/src/main.rs:104. -/
def hostPort (host : Str) (port : UInt16) : Str := host ++ str ":" ++ str (toString port.toNat)

/-- How the daemon ends up: it stops with an error before it listens or while setting up; it stops
because the TLS files are of no use (`run_with_tls` returns, mercurio-server/src/server.rs:89-92); or it
serves. -/
inductive Start where
  | error
  | stopped
  | serves (addr : Str) (tls : Option Acceptor) (auth : AuthConfig)

/-- Loading the configuration, mercuriod/src/main.rs:81-90. -/
def loadConfig (m : Machine) (a : DaemonArgs) : Option Config :=
  match m.config a.config with
  | some (some r) => some r.config
  | some none => none
  | none => if a.config ≠ str "/etc/mercurio/config.toml" then none else some (RawConfig.config {})

/-- The TLS configuration, mercuriod/src/main.rs:113-136; `none`: the daemon stops with an error. -/
def daemonTls (c : Config) : Option (Option TlsConfig) :=
  if c.tlsEnabled then
    match c.certPath, c.keyPath with
    | some cert, some key =>
      let tls : TlsConfig := { certPath := cert, keyPath := key }
      match c.caPath with
      | some ca => some (some (tls.withClientAuth ca))
      | none => some (some tls)
    | _, _ => none
  else some none

/-- The server part of `main` and the start of `run_with_tls`, mercuriod/src/main.rs:80-164,
mercurio-server/src/server.rs:84-98. -/
def daemonStart (m : Machine) (a : DaemonArgs) : Start :=
  match loadConfig m a with
  | none => .error
  | some c =>
    let addr := a.listen.getD (hostPort c.host c.port)
    if m.bind addr then
      match daemonTls c with
      | none => .error
      | some tls =>
        match daemonAuth m.verify c.authEnabled (c.passwordFile.map m.text) with
        | none => .error
        | some auth =>
          match tls with
          | none => .serves addr none auth
          | some t =>
            match t.buildAcceptor m.lib m.pem with
            | none => .stopped
            | some acc => .serves addr (some acc) auth
    else .error

end Mercurio
