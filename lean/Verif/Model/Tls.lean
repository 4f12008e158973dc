import Verif.Model.Basic

/-!
# TLS set-up

Models mercurio-server/src/tls.rs, mercurio-client/src/tls.rs and the choice between plain and encrypted
streams in mercurio-server/src/server.rs:127-171 (the client's is in `Verif.Model.Dial`).
The TLS protocol itself (rustls) is external; a PEM file is the list of the items its parser yields.
-/

namespace Mercurio

/-- What `rustls_pemfile::read_one` (external) yields, mercurio-server/src/tls.rs:105-122; `bad` is a
parse error. -/
inductive PemItem where
  | cert (der : Buf)
  | key (der : Buf)
  | other
  | bad
  deriving DecidableEq, Repr

/-- The files of the machine: the PEM items of the file at a path, if it can be opened (external,
mercurio-server/src/tls.rs:79, 100 and mercurio-client/src/tls.rs:54). -/
abbrev PemFiles := Str → Option (List PemItem)

/-- `rustls_pemfile::certs(..).collect::<Result<Vec<_>, _>>()` (external), mercurio-server/src/tls.rs:82-84,
mercurio-client/src/tls.rs:57-59: the certificates in order, an error if there is any parse error. -/
def collectCerts : List PemItem → Option (List Buf)
  | [] => some []
  | .cert c :: is => (collectCerts is).map (c :: ·)
  | .bad :: _ => none
  | _ :: is => collectCerts is

/-- `load_certs`, mercurio-server/src/tls.rs:78-95 and mercurio-client/src/tls.rs:53-70. -/
def loadCerts (files : PemFiles) (path : Str) : Option (List Buf) :=
  match files path with
  | none => none
  | some items =>
    match collectCerts items with
    | none => none
    | some [] => none
    | some (c :: cs) => some (c :: cs)

/-- The loop of `load_private_key`, mercurio-server/src/tls.rs:104-129 (the three key formats are one
here). -/
def firstKey : List PemItem → Option Buf
  | [] => none
  | .key k :: _ => some k
  | .bad :: _ => none
  | _ :: is => firstKey is

/-- `load_private_key`, mercurio-server/src/tls.rs:98-130. -/
def loadKey (files : PemFiles) (path : Str) : Option Buf :=
  match files path with
  | none => none
  | some items => firstKey items

/-- `TlsConfig`, mercurio-server/src/tls.rs:15-22. -/
structure TlsConfig where
  certPath : Str
  keyPath : Str
  caPath : Option Str := none
  deriving DecidableEq, Repr

/-- `TlsConfig::with_client_auth`, mercurio-server/src/tls.rs:35-38. -/
def TlsConfig.withClientAuth (c : TlsConfig) (ca : Str) : TlsConfig := { c with caPath := some ca }

/-- What rustls accepts (external): a root certificate, a set of roots for a client verifier, a
certificate chain with its key, a server name (mercurio-server/src/tls.rs:52-68,
mercurio-client/src/tls.rs:20-21, 34-38). -/
structure Rustls where
  root : Buf → Bool
  verifier : List Buf → Bool
  pair : List Buf → Buf → Bool
  name : Str → Bool

/-- `TlsAcceptor` as configured by `build_acceptor`: the certificate chain and key it shows, and the
roots it checks client certificates against, if it demands them. -/
structure Acceptor where
  chain : List Buf
  key : Buf
  clientRoots : Option (List Buf)
  deriving DecidableEq, Repr

/-- `TlsConfig::build_acceptor`, mercurio-server/src/tls.rs:41-74. -/
def TlsConfig.buildAcceptor (lib : Rustls) (files : PemFiles) (c : TlsConfig) : Option Acceptor :=
  match loadCerts files c.certPath with
  | none => none
  | some certs =>
    match loadKey files c.keyPath with
    | none => none
    | some key =>
      match c.caPath with
      | some ca =>
        match loadCerts files ca with
        | none => none
        | some roots =>
          if roots.all lib.root && lib.verifier roots && lib.pair certs key then
            some ⟨certs, key, some roots⟩
          else none
      | none => if lib.pair certs key then some ⟨certs, key, none⟩ else none

/-- The stream the MQTT bytes are read from and written to. -/
inductive StreamKind where
  | plain
  | encrypted
  deriving DecidableEq, Repr

/-- The choice in `Listener::run`, mercurio-server/src/server.rs:127-171: the stream of the handler of a
new connection; `none`: no handler is started.  `handshake` is the outcome of `acceptor.accept`
(external). -/
def serverStream (tls : Option Acceptor) (handshake : Acceptor → Bool) : Option StreamKind :=
  match tls with
  | some a => if handshake a then some .encrypted else none
  | none => some .plain

/-- `TlsOptions`, mercurio-client/src/options.rs:36-44. -/
structure TlsOptions where
  enabled : Bool := false
  caPath : Option Str := none
  skipVerify : Bool := false
  deriving DecidableEq, Repr

/-- How the connector of a client checks the server's certificate. -/
inductive Connector where
  | unchecked
  | checked (roots : List Buf)
  | system
  deriving DecidableEq, Repr

/-- `build_tls_connector`, mercurio-client/src/tls.rs:16-50. -/
def buildConnector (lib : Rustls) (files : PemFiles) (o : TlsOptions) (host : Str) : Option Connector :=
  if lib.name host then
    if o.skipVerify then some .unchecked
    else match o.caPath with
      | some ca =>
        match loadCerts files ca with
        | none => none
        | some roots => if roots.all lib.root then some (.checked roots) else none
      | none => some .system
  else none

end Mercurio
