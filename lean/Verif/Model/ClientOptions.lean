import Verif.Model.Client
import Verif.Model.Tls

/-!
# The options of the client (mercurio-client/src/options.rs)

All fields of `ConnectOptions` and the functions an application sets them with.
-/

namespace Mercurio

/-- `Will::new`, mercurio-client/src/options.rs:14-21. -/
def ClientWill.new (topic : Str) (payload : Buf) : ClientWill :=
  { topic := topic, payload := payload, qos := .atMostOnce, retain := false }

/-- `Will::qos`, mercurio-client/src/options.rs:23-26. -/
def ClientWill.setQos (w : ClientWill) (q : QoS) : ClientWill := { w with qos := q }

/-- `Will::retain`, mercurio-client/src/options.rs:28-31. -/
def ClientWill.setRetain (w : ClientWill) (r : Bool) : ClientWill := { w with retain := r }

/-- `ConnectOptions`, mercurio-client/src/options.rs:48-60, with all its fields: those the CONNECT is
made of (`Mercurio.ConnectOptions`) and those that say how to reach the server. -/
structure ClientOptions extends ConnectOptions where
  host : Str
  port : UInt16
  connectTimeoutSecs : UInt64
  tls : TlsOptions
  deriving DecidableEq, Repr

namespace ClientOptions

/-- `ConnectOptions::new`, mercurio-client/src/options.rs:64-78. -/
def new (host : Str) (port : UInt16) : ClientOptions :=
  { host := host, port := port, clientId := none, username := none, password := none, keepAlive := 60
    cleanStart := true, will := none, protocolVersion := .v5, connectTimeoutSecs := 30, tls := {} }

/-- `tls`, mercurio-client/src/options.rs:81-84. -/
def setTls (o : ClientOptions) (b : Bool) : ClientOptions := { o with tls := { o.tls with enabled := b } }

/-- `ca_path`, mercurio-client/src/options.rs:87-90. -/
def setCaPath (o : ClientOptions) (p : Str) : ClientOptions :=
  { o with tls := { o.tls with caPath := some p } }

/-- `danger_skip_tls_verify`, mercurio-client/src/options.rs:93-96. -/
def setSkipVerify (o : ClientOptions) (b : Bool) : ClientOptions :=
  { o with tls := { o.tls with skipVerify := b } }

/-- `client_id`, mercurio-client/src/options.rs:99-102. -/
def setClientId (o : ClientOptions) (s : Str) : ClientOptions := { o with clientId := some s }

/-- `username`, mercurio-client/src/options.rs:105-108. -/
def setUsername (o : ClientOptions) (s : Str) : ClientOptions := { o with username := some s }

/-- `password`, mercurio-client/src/options.rs:111-114. -/
def setPassword (o : ClientOptions) (b : Buf) : ClientOptions := { o with password := some b }

/-- `keep_alive`, mercurio-client/src/options.rs:117-120. -/
def setKeepAlive (o : ClientOptions) (k : UInt16) : ClientOptions := { o with keepAlive := k }

/-- `clean_start`, mercurio-client/src/options.rs:123-126. -/
def setCleanStart (o : ClientOptions) (b : Bool) : ClientOptions := { o with cleanStart := b }

/-- `will`, mercurio-client/src/options.rs:129-132. -/
def setWill (o : ClientOptions) (w : ClientWill) : ClientOptions := { o with will := some w }

/-- `protocol_version`, mercurio-client/src/options.rs:135-138. -/
def setVersion (o : ClientOptions) (v : ProtocolVersion) : ClientOptions := { o with protocolVersion := v }

/-- `connect_timeout`, mercurio-client/src/options.rs:141-144. -/
def setConnectTimeout (o : ClientOptions) (s : UInt64) : ClientOptions := { o with connectTimeoutSecs := s }

end ClientOptions

/-- One call of an application on its options, mercurio-client/src/options.rs:81-144. -/
inductive Setting where
  | tls (b : Bool)
  | caPath (p : Str)
  | skipVerify (b : Bool)
  | clientId (s : Str)
  | username (s : Str)
  | password (b : Buf)
  | keepAlive (k : UInt16)
  | cleanStart (b : Bool)
  | will (w : ClientWill)
  | version (v : ProtocolVersion)
  | connectTimeout (s : UInt64)
  deriving DecidableEq, Repr

/-- The call made, mercurio-client/src/options.rs:81-144. -/
def Setting.apply (o : ClientOptions) : Setting → ClientOptions
  | .tls b => o.setTls b
  | .caPath p => o.setCaPath p
  | .skipVerify b => o.setSkipVerify b
  | .clientId s => o.setClientId s
  | .username s => o.setUsername s
  | .password b => o.setPassword b
  | .keepAlive k => o.setKeepAlive k
  | .cleanStart b => o.setCleanStart b
  | .will w => o.setWill w
  | .version v => o.setVersion v
  | .connectTimeout s => o.setConnectTimeout s

/-- The calls in the order they are chained, mercurio-client/src/options.rs:64-144. -/
def buildOptions (host : Str) (port : UInt16) (calls : List Setting) : ClientOptions :=
  calls.foldl Setting.apply (ClientOptions.new host port)

end Mercurio
