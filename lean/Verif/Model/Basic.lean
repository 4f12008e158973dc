/-!
# Basic vocabulary of the model

Bytes, buffers, outcomes of fallible code, the decoder monad, and the small enumerations of
`mercurio-core` (reason codes, QoS, protocol versions, messages).
-/

namespace Mercurio

/-- A byte buffer: the unread bytes of a `Bytes`/`BytesMut`/`&[u8]`/`Take<..>` value.
Models the `bytes::Buf` arguments of mercurio-core/src/codec.rs:12-24.
Simplification: only the unread bytes are kept, capacity and reference counts are not modelled. -/
abbrev Buf := List UInt8

/-- A Rust `String`/`&str`: its UTF-8 bytes.  Models `String` in mercurio-core/src/codec.rs:96-125.
Simplification: the type itself does not force UTF-8 validity; where Rust guarantees it the
well-formedness predicates of the specifications say so. -/
abbrev Str := List UInt8

/-- The bytes of a Lean string literal (used for constants such as "MQTT" and in examples;
models a Rust string literal, e.g. mercurio-core/src/protocol.rs:25-26). -/
def str (s : String) : Str := s.toByteArray.data.toList

/-- Cargo profile: `debug` has integer overflow checks (overflow panics), `release` wraps.
Models the absence of `overflow-checks` settings in /repo/Cargo.toml (dev profile panics, release
profile wraps). -/
inductive Mode where
  | debug
  | release
  deriving DecidableEq, Repr

/-- mercurio-core/src/reason.rs:10-57. -/
inductive ReasonCode where
  | success
  | normalDisconnection
  | grantedQoS0
  | grantedQoS1
  | grantedQoS2
  | disconnectWithWillMessage
  | noMatchingSubscribers
  | noSubscriptionExisted
  | continueAuthentication
  | reAuthenticate
  | unspecifiedError
  | malformedPacket
  | protocolError
  | implementationSpecificError
  | unsupportedProtocolVersion
  | clientIdentifierNotValid
  | badUserNameOrPassword
  | notAuthorized
  | serverUnavailable
  | serverBusy
  | banned
  | serverShuttingDown
  | badAuthenticationMethod
  | keepAliveTimeout
  | sessionTakenOver
  | topicFilterInvalid
  | topicNameInvalid
  | packetIdentifierInUse
  | packetIdentifierNotFound
  | receiveMaximumExceeded
  | topicAliasInvalid
  | packetTooLarge
  | messageRateTooHigh
  | quotaExceeded
  | administrativeAction
  | payloadFormatInvalid
  | retainNotSupported
  | qoSNotSupported
  | useAnotherServer
  | serverMoved
  | sharedSubscriptionsNotSupported
  | connectionRateExceeded
  | maximumConnectTime
  | subscriptionIdentifiersNotSupported
  | wildcardSubscriptionsNotSupported
  deriving DecidableEq, Repr

/-- `Error`, mercurio-core/src/error.rs:10-24.
Simplification: the payloads of `Io` and `Storage` are dropped. -/
inductive Err where
  | incomplete
  | io
  | mqtt (r : ReasonCode)
  | storage
  deriving DecidableEq, Repr

/-- Outcome of a fallible piece of code: a value, an `Err(..)`, or a panic.
Models `crate::Result` (mercurio-core/src/lib.rs) plus the possibility of a Rust panic. -/
inductive Res (α : Type) where
  | ok (a : α)
  | err (e : Err)
  | panic
  deriving DecidableEq, Repr

namespace Res

/-- The `?` operator / sequencing: an error or a panic ends the computation
(Rust semantics of `?`, used throughout mercurio-packets/src). -/
def bind {α β : Type} (x : Res α) (f : α → Res β) : Res β :=
  match x with
  | .ok a => f a
  | .err e => .err e
  | .panic => .panic

instance : Monad Res where
  pure := .ok
  bind := Res.bind

end Res

/-- A decoder: reads from the front of a buffer.  Models
`fn decode<T: Buf>(buffer: &mut T) -> Result<Self>` (mercurio-core/src/codec.rs:12-17).
The unread rest is returned only on success: after an error no caller looks at the buffer again
(server: the connection is dropped, mercurio-server/src/server.rs:216-442; client: the buffer is a
clone, mercurio-client/src/connection.rs:66-96). -/
def Dec (α : Type) := Buf → Res (α × Buf)

namespace Dec

/-- Sequencing of decoders with `?` (Rust semantics). -/
def bind {α β : Type} (x : Dec α) (f : α → Dec β) : Dec β := fun b =>
  match x b with
  | .ok (a, b') => f a b'
  | .err e => .err e
  | .panic => .panic

/-- `Ok(a)` without reading anything. -/
def pure {α : Type} (a : α) : Dec α := fun b => .ok (a, b)

instance : Monad Dec where
  pure := Dec.pure
  bind := Dec.bind

/-- A decoder given directly as a function of the unread bytes. -/
def of {α : Type} (f : Buf → Res (α × Buf)) : Dec α := f

/-- `return Err(e)`. -/
def fail {α : Type} (e : Err) : Dec α := fun _ => .err e

end Dec

/-- mercurio-core/src/qos.rs:3-9. -/
inductive QoS where
  | atMostOnce
  | atLeastOnce
  | exactlyOnce
  | invalid
  deriving DecidableEq, Repr, Inhabited

namespace QoS

/-- `qos as u8`, mercurio-core/src/qos.rs:3-9. -/
def toU8 : QoS → UInt8
  | .atMostOnce => 0
  | .atLeastOnce => 1
  | .exactlyOnce => 2
  | .invalid => 0xff

/-- `From<u8> for QoS`, mercurio-core/src/qos.rs:11-20. -/
def ofU8 (n : UInt8) : QoS :=
  if n = 0 then .atMostOnce
  else if n = 1 then .atLeastOnce
  else if n = 2 then .exactlyOnce
  else .invalid

end QoS

/-- mercurio-core/src/protocol.rs:11-19. -/
inductive ProtocolVersion where
  | v3_1
  | v3_1_1
  | v5
  deriving DecidableEq, Repr

namespace ProtocolVersion

/-- mercurio-core/src/protocol.rs:23-28. -/
def name : ProtocolVersion → Str
  | .v3_1 => str "MQIsdp"
  | .v3_1_1 => str "MQTT"
  | .v5 => str "MQTT"

/-- mercurio-core/src/protocol.rs:31-33. -/
def level : ProtocolVersion → UInt8
  | .v3_1 => 3
  | .v3_1_1 => 4
  | .v5 => 5

/-- mercurio-core/src/protocol.rs:36-38. -/
def supportsProperties : ProtocolVersion → Bool
  | .v5 => true
  | _ => false

/-- mercurio-core/src/protocol.rs:53-60. -/
def fromNameAndLevel (name : Str) (level : UInt8) : Option ProtocolVersion :=
  if name = str "MQIsdp" ∧ level = 3 then some .v3_1
  else if name = str "MQTT" ∧ level = 4 then some .v3_1_1
  else if name = str "MQTT" ∧ level = 5 then some .v5
  else none

end ProtocolVersion

/-- `Message`, mercurio-core/src/message.rs:18-27. -/
structure Message where
  packetId : Option UInt16
  topic : Str
  dup : Bool
  qos : QoS
  retain : Bool
  payload : Option Buf
  deriving DecidableEq, Repr

end Mercurio
