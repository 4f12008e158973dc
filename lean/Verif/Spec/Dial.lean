import Verif.Spec.Client
import Verif.Spec.Daemon
import Verif.Model.Cli

/-!
# Specification: options and connecting (C71, C96, C97)
-/

namespace Mercurio

namespace Spec

/-- The last value among the calls, as picked out by `f`, or the default if there is none. -/
def lastSet {α : Type} (f : Setting → Option α) (calls : List Setting) (default : α) : α :=
  (calls.filterMap f).getLast?.getD default

/-- The operation, begun at `start`, ends at `fin` with this result, `limit` milliseconds later at most. -/
def EndsBy {α : Type} (op : NetOp α) (start limit fin : Nat) (r : α) : Prop :=
  op.result = r ∧ ∃ d, op.takes = some d ∧ d ≤ limit ∧ fin = start + d

/-- How the server's certificate is checked with these options: not at all if the application says so,
otherwise against the certificates of its file, or the built-in ones if it names none. -/
def ChecksAs (files : PemFiles) (o : TlsOptions) : Connector → Prop
  | .unchecked => o.skipVerify = true
  | .checked roots => o.skipVerify = false ∧
      ∃ ca items, o.caPath = some ca ∧ files ca = some items ∧ CertsIn items roots
  | .system => o.skipVerify = false ∧ o.caPath = none

/-- Everything went well: the server was reached, with TLS the handshake succeeded, the CONNECT was
written, and a CONNACK with success came; each of the three within the timeout. -/
def Connects (lib : Rustls) (files : PemFiles) (net : Network) (o : ClientOptions) (start : Nat) (id : Str)
    (k : UInt16) (fin : Nat) : Prop :=
  ∃ t1 t2 w bytes ack,
    EndsBy (net.tcp (o.host ++ str ":" ++ str (toString o.port.toNat))) start
      (1000 * o.connectTimeoutSecs.toNat) t1 true ∧
    (o.tls.enabled = true → lib.name o.host = true ∧ ∃ c, ChecksAs files o.tls c ∧
      (∀ roots, c = .checked roots → ∀ r ∈ roots, lib.root r = true) ∧
      EndsBy (net.handshake c) t1 (1000 * o.connectTimeoutSecs.toNat) t2 true) ∧
    (o.tls.enabled = false → t2 = t1) ∧
    (Packet.connect (buildConnect o.toConnectOptions)).encode = .ok bytes ∧
    net.write.takes = some w ∧ net.write.result = true ∧
    EndsBy net.read (t2 + w) (1000 * o.connectTimeoutSecs.toNat) fin (.packet (.connAck ack)) ∧
    ack.reasonCode = .success ∧
    id = ((ack.properties.bind ConnAckProperties.assignedClientId).getD (o.clientId.getD [])) ∧
    k = o.keepAlive

/-- The monotonic clock can express the times of this call of `connect`. -/
def InClock (net : Network) (o : ClientOptions) (start : Nat) : Prop :=
  (start + 3 * (1000 * o.connectTimeoutSecs.toNat) + net.write.takes.getD 0) / 1000 < 2 ^ 63

/-- The options `mercurio pub` or `mercurio sub` connects with, by its connection arguments. -/
inductive UsedBy : CliConnection → ClientOptions → Prop
  | pub (a : PubArgs) : UsedBy a.connection a.connection.connectOptions
  | sub (a : SubArgs) (o : ClientOptions) : a.connectOptions = some o → UsedBy a.connection o

end Spec

end Mercurio
