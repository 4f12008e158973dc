import Verif.Model.Dial

/-!
# The command line tool (mercurio/src/main.rs, common.rs)

`mercurio pub` and `mercurio sub` as programs that call the client (`Verif.Model.Client`).
Simplifications: the parsing of the command line (clap) is not modelled, an argument set is given as
values; logging is left out; writing to the terminal succeeds; `String::from_utf8_lossy` is a parameter.
-/

namespace Mercurio

/-- `parse_qos`, mercurio/src/main.rs:232-242 (`none`: the tool exits with status 1). -/
def cliQos (q : UInt8) : Option QoS :=
  if q = 0 then some .atMostOnce
  else if q = 1 then some .atLeastOnce
  else if q = 2 then some .exactlyOnce
  else none

/-- `parse_protocol_version`, mercurio/src/common.rs:89-96. -/
def cliVersion (s : Str) : ProtocolVersion :=
  if s = str "5" ∨ s = str "5.0" ∨ s = str "v5" then .v5
  else if s = str "311" ∨ s = str "3.1.1" ∨ s = str "v311" then .v3_1_1
  else if s = str "31" ∨ s = str "3.1" ∨ s = str "v31" then .v3_1
  else .v5

/-- `ConnectionArgs`, mercurio/src/common.rs:9-53, with its defaults and without verbosity. -/
structure CliConnection where
  host : Str := str "localhost"
  port : UInt16 := 1883
  clientId : Option Str := none
  username : Option Str := none
  password : Option Str := none
  keepAlive : UInt16 := 60
  protocolVersion : Str := str "5"
  tls : Bool := false
  cafile : Option Str := none
  insecure : Bool := false
  deriving DecidableEq, Repr

/-- `to_connect_options`, mercurio/src/common.rs:57-87. -/
def CliConnection.connectOptions (a : CliConnection) : ClientOptions :=
  let o := ((ClientOptions.new a.host a.port).setKeepAlive a.keepAlive).setVersion
    (cliVersion a.protocolVersion)
  let o := match a.clientId with
    | some id => o.setClientId id
    | none => o
  let o := match a.username with
    | some user => o.setUsername user
    | none => o
  let o := match a.password with
    | some pass => o.setPassword pass
    | none => o
  let o := if a.tls then o.setTls true else o
  let o := match a.cafile with
    | some ca => o.setCaPath ca
    | none => o
  if a.insecure then o.setSkipVerify true else o

/-- The part of the options the CONNECT is made of, mercurio/src/common.rs:57-87. -/
def CliConnection.options (a : CliConnection) : ConnectOptions := a.connectOptions.toConnectOptions

/-- The arguments of `pub`, mercurio/src/main.rs:25-46. -/
structure PubArgs where
  connection : CliConnection := {}
  topic : Str
  message : Option Str := none
  qos : UInt8 := 0
  retain : Bool := false
  deriving DecidableEq, Repr

/-- The payload, mercurio/src/main.rs:127-136; `stdin`: what reading it as text gives (`none`: an
error). -/
def PubArgs.payload (a : PubArgs) (stdin : Option Str) : Option Str :=
  match a.message with
  | some msg => some msg
  | none => stdin

/-- What a run of the tool did. -/
structure CliRun where
  /-- the options it called `MqttClient::connect` with, if it got that far -/
  options : Option ConnectOptions := none
  /-- what came of the turns of its client's loop -/
  outs : List ClientOut := []
  /-- it ended with exit status 0 -/
  success : Bool := false
  deriving DecidableEq

/-- `run_publish`, mercurio/src/main.rs:120-163.  `client`: the client if `connect` succeeds; `ok1`, `ok2`: the socket takes the PUBLISH, the
DISCONNECT; `between`: what else the client's loop does between the two calls. -/
def runPublish (a : PubArgs) (stdin : Option Str) (client : Option Client) (ok1 : Bool)
    (between : List ClientIn) (ok2 : Bool) : CliRun :=
  match a.payload stdin with
  | none => {}
  | some payload =>
    match cliQos a.qos with
    | none => {}
    | some qos =>
      match client with
      | none => { options := some a.connection.options }
      | some l =>
        let r1 := l.step (.publish a.topic payload qos (if a.retain then true else false) ok1)
        match r1.2.result with
        | some (.published _) =>
          let b := r1.1.run between
          let r2 := b.1.step (.disconnect ok2)
          { options := some a.connection.options
            outs := r1.2 :: b.2 ++ [r2.2]
            success := decide (r2.2.result = some .done) }
        | _ => { options := some a.connection.options, outs := [r1.2] }

/-- The arguments of `sub`, mercurio/src/main.rs:48-77. -/
structure SubArgs where
  connection : CliConnection := {}
  topics : List Str
  qos : UInt8 := 0
  printTopic : Bool := false
  willTopic : Option Str := none
  willMessage : Option Str := none
  willQos : UInt8 := 0
  willRetain : Bool := false
  deriving DecidableEq, Repr

/-- `run_subscribe` up to the connection, mercurio/src/main.rs:175-193: the options, or `none` if the
tool exits because of a bad QoS. -/
def SubArgs.connectOptions (a : SubArgs) : Option ClientOptions :=
  match cliQos a.qos with
  | none => none
  | some _ =>
    match a.willTopic with
    | none => some a.connection.connectOptions
    | some t => (cliQos a.willQos).map fun q =>
        a.connection.connectOptions.setWill
          { topic := t, payload := a.willMessage.getD [], qos := q, retain := a.willRetain }

/-- The part of these options the CONNECT is made of, mercurio/src/main.rs:175-193. -/
def SubArgs.options (a : SubArgs) : Option ConnectOptions :=
  a.connectOptions.map ClientOptions.toConnectOptions

/-- The `subscribe` call, mercurio/src/main.rs:197-199. -/
def SubArgs.call (a : SubArgs) (ok : Bool) : Option ClientIn :=
  (cliQos a.qos).map fun q => .subscribe (a.topics.map fun t => (t, q)) ok

/-- The line printed for a message, mercurio/src/main.rs:209-214. -/
def cliLine (lossy : Buf → Str) (printTopic : Bool) (topic : Str) (payload : Buf) : Str :=
  if printTopic then topic ++ str ": " ++ lossy payload ++ str "\n" else lossy payload ++ str "\n"

/-- The lines printed in the loop, mercurio/src/main.rs:206-223, when `recv` returns these events (and
`None` after them). -/
def cliPrint (lossy : Buf → Str) (printTopic : Bool) : List ClientEvent → List Str
  | [] => []
  | .message t pl _ _ :: es => cliLine lossy printTopic t pl :: cliPrint lossy printTopic es
  | .disconnected _ :: _ => []

end Mercurio
