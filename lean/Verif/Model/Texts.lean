import Verif.Model.Topic
import Verif.Model.Client

/-!
# The texts of errors

What `Display` writes for errors and reason codes, and for a reason code also `Debug` (used by the client's
error).  The text of an I/O error is the operating system's and stands for the error itself here.
-/

namespace Mercurio

/-- `Display for ReasonCode`, mercurio-core/src/reason.rs:60-110. -/
def ReasonCode.text : ReasonCode → Str
  | .success => str "Success"
  | .normalDisconnection => str "Normal disconnection"
  | .grantedQoS0 => str "Granted QoS 0"
  | .grantedQoS1 => str "Granted QoS 1"
  | .grantedQoS2 => str "Granted QoS 2"
  | .disconnectWithWillMessage => str "Disconnect with will message"
  | .noMatchingSubscribers => str "No matching subscribers"
  | .noSubscriptionExisted => str "No subscription existed"
  | .continueAuthentication => str "Continue authentication"
  | .reAuthenticate => str "Re-authenticate"
  | .unspecifiedError => str "Unspecified error"
  | .malformedPacket => str "Malformed packet"
  | .protocolError => str "Protocol error"
  | .implementationSpecificError => str "Implementation specific error"
  | .unsupportedProtocolVersion => str "Unsupported protocol version"
  | .clientIdentifierNotValid => str "Client identifier not valid"
  | .badUserNameOrPassword => str "Bad user name or password"
  | .notAuthorized => str "Not authorized"
  | .serverUnavailable => str "Server unavailable"
  | .serverBusy => str "Server busy"
  | .banned => str "Banned"
  | .serverShuttingDown => str "Server shutting down"
  | .badAuthenticationMethod => str "Bad authentication method"
  | .keepAliveTimeout => str "Keep alive timeout"
  | .sessionTakenOver => str "Session taken over"
  | .topicFilterInvalid => str "Topic filter invalid"
  | .topicNameInvalid => str "Topic name invalid"
  | .packetIdentifierInUse => str "Packet identifier in use"
  | .packetIdentifierNotFound => str "Packet identifier not found"
  | .receiveMaximumExceeded => str "Receive maximum exceeded"
  | .topicAliasInvalid => str "Topic alias invalid"
  | .packetTooLarge => str "Packet too large"
  | .messageRateTooHigh => str "Message rate too high"
  | .quotaExceeded => str "Quota exceeded"
  | .administrativeAction => str "Administrative action"
  | .payloadFormatInvalid => str "Payload format invalid"
  | .retainNotSupported => str "Retain not supported"
  | .qoSNotSupported => str "QoS not supported"
  | .useAnotherServer => str "Use another server"
  | .serverMoved => str "Server moved"
  | .sharedSubscriptionsNotSupported => str "Shared subscriptions not supported"
  | .connectionRateExceeded => str "Connection rate exceeded"
  | .maximumConnectTime => str "Maximum connect time"
  | .subscriptionIdentifiersNotSupported => str "Subscription identifiers not supported"
  | .wildcardSubscriptionsNotSupported => str "Wildcard subscriptions not supported"

/-- The derived `Debug` of `ReasonCode`, mercurio-core/src/reason.rs:9-57: the name of the variant. -/
def ReasonCode.name : ReasonCode → Str
  | .success => str "Success"
  | .normalDisconnection => str "NormalDisconnection"
  | .grantedQoS0 => str "GrantedQoS0"
  | .grantedQoS1 => str "GrantedQoS1"
  | .grantedQoS2 => str "GrantedQoS2"
  | .disconnectWithWillMessage => str "DisconnectWithWillMessage"
  | .noMatchingSubscribers => str "NoMatchingSubscribers"
  | .noSubscriptionExisted => str "NoSubscriptionExisted"
  | .continueAuthentication => str "ContinueAuthentication"
  | .reAuthenticate => str "ReAuthenticate"
  | .unspecifiedError => str "UnspecifiedError"
  | .malformedPacket => str "MalformedPacket"
  | .protocolError => str "ProtocolError"
  | .implementationSpecificError => str "ImplementationSpecificError"
  | .unsupportedProtocolVersion => str "UnsupportedProtocolVersion"
  | .clientIdentifierNotValid => str "ClientIdentifierNotValid"
  | .badUserNameOrPassword => str "BadUserNameOrPassword"
  | .notAuthorized => str "NotAuthorized"
  | .serverUnavailable => str "ServerUnavailable"
  | .serverBusy => str "ServerBusy"
  | .banned => str "Banned"
  | .serverShuttingDown => str "ServerShuttingDown"
  | .badAuthenticationMethod => str "BadAuthenticationMethod"
  | .keepAliveTimeout => str "KeepAliveTimeout"
  | .sessionTakenOver => str "SessionTakenOver"
  | .topicFilterInvalid => str "TopicFilterInvalid"
  | .topicNameInvalid => str "TopicNameInvalid"
  | .packetIdentifierInUse => str "PacketIdentifierInUse"
  | .packetIdentifierNotFound => str "PacketIdentifierNotFound"
  | .receiveMaximumExceeded => str "ReceiveMaximumExceeded"
  | .topicAliasInvalid => str "TopicAliasInvalid"
  | .packetTooLarge => str "PacketTooLarge"
  | .messageRateTooHigh => str "MessageRateTooHigh"
  | .quotaExceeded => str "QuotaExceeded"
  | .administrativeAction => str "AdministrativeAction"
  | .payloadFormatInvalid => str "PayloadFormatInvalid"
  | .retainNotSupported => str "RetainNotSupported"
  | .qoSNotSupported => str "QoSNotSupported"
  | .useAnotherServer => str "UseAnotherServer"
  | .serverMoved => str "ServerMoved"
  | .sharedSubscriptionsNotSupported => str "SharedSubscriptionsNotSupported"
  | .connectionRateExceeded => str "ConnectionRateExceeded"
  | .maximumConnectTime => str "MaximumConnectTime"
  | .subscriptionIdentifiersNotSupported => str "SubscriptionIdentifiersNotSupported"
  | .wildcardSubscriptionsNotSupported => str "WildcardSubscriptionsNotSupported"

/-- `Display for TopicValidationError`, mercurio-core/src/topic.rs:32-64. -/
def TopicError.text : TopicError → Str
  | .empty => str "topic name cannot be empty"
  | .tooLong => str "topic name exceeds maximum length of " ++ str (toString maxTopicLength) ++ str " bytes"
  | .containsNullChar => str "topic name cannot contain null character"
  | .wildcardInPublishTopic => str "wildcard characters (+, #) not allowed in publish topics"
  | .invalidSingleLevelWildcard => str "single-level wildcard (+) must occupy entire topic level"
  | .invalidMultiLevelWildcard => str "multi-level wildcard (#) must be at end and occupy entire level"

/-- `Display for ProtocolVersion`, mercurio-core/src/protocol.rs:76-82. -/
def ProtocolVersion.text : ProtocolVersion → Str
  | .v3_1 => str "MQTT 3.1"
  | .v3_1_1 => str "MQTT 3.1.1"
  | .v5 => str "MQTT 5.0"

/-- `From<u8> for ProtocolVersion`, mercurio-core/src/protocol.rs:63-72. -/
def ProtocolVersion.ofByte (b : UInt8) : ProtocolVersion :=
  if b = 3 then .v3_1 else if b = 4 then .v3_1_1 else if b = 5 then .v5 else .v5

/-- `supports_reason_codes`, mercurio-core/src/protocol.rs:41-43. -/
def ProtocolVersion.supportsReasonCodes : ProtocolVersion → Bool
  | .v5 => true
  | _ => false

/-- `supports_auth_packet`, mercurio-core/src/protocol.rs:46-48. -/
def ProtocolVersion.supportsAuthPacket : ProtocolVersion → Bool
  | .v5 => true
  | _ => false

/-- `Error`, mercurio-core/src/error.rs:12-25, with its texts. -/
inductive CoreError where
  | packetIncomplete
  | io (text : Str)
  | mqtt (r : ReasonCode)
  | storage (text : Str)
  deriving DecidableEq, Repr

/-- `Display for Error`, mercurio-core/src/error.rs:28-36. -/
def CoreError.text : CoreError → Str
  | .packetIncomplete => str "Packet is not complete"
  | .io e => str "I/O Error: " ++ e
  | .mqtt r => str "MQTT Error: " ++ r.text
  | .storage s => str "Storage error: " ++ s

/-- `Error::source`, mercurio-core/src/error.rs:41-46: the error behind this one. -/
def CoreError.source : CoreError → Option Str
  | .io e => some e
  | _ => none

/-- `From<std::io::Error>` and `From<ReasonCode>`, mercurio-core/src/error.rs:50-60. -/
def CoreError.ofIo (e : Str) : CoreError := .io e

/-- `From<ReasonCode>`, mercurio-core/src/error.rs:56-60. -/
def CoreError.ofReason (r : ReasonCode) : CoreError := .mqtt r

/-- `ClientError`, mercurio-client/src/error.rs:6-42, with its texts. -/
inductive ApiError where
  | io (text : Str)
  | connectionFailed (text : Str)
  | connectionRefused (r : ReasonCode)
  | notConnected
  | alreadyConnected
  | protocol (text : Str)
  | packet (e : CoreError)
  | timeout
  | disconnected
  | invalidTopic (text : Str)
  | sendError
  | tls (text : Str)
  deriving DecidableEq, Repr

/-- The `#[error(..)]` texts (thiserror, external), mercurio-client/src/error.rs:6-42. -/
def ApiError.text : ApiError → Str
  | .io e => str "I/O error: " ++ e
  | .connectionFailed s => str "Connection failed: " ++ s
  | .connectionRefused r => str "Connection refused: " ++ r.name
  | .notConnected => str "Not connected"
  | .alreadyConnected => str "Already connected"
  | .protocol s => str "Protocol error: " ++ s
  | .packet e => str "Packet error: " ++ e.text
  | .timeout => str "Timeout"
  | .disconnected => str "Client disconnected"
  | .invalidTopic s => str "Invalid topic: " ++ s
  | .sendError => str "Send error"
  | .tls s => str "TLS error: " ++ s

end Mercurio
