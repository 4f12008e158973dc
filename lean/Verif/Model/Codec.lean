import Verif.Model.Basic

/-!
# Primitive encoders and decoders (mercurio-core/src/codec.rs, reason.rs)
-/

namespace Mercurio

/-! ## Variable byte integers -/

/-- The loop of `encode_var_byte_integer`, mercurio-core/src/codec.rs:26-43.
Simplification: the Rust loop runs until the value is exhausted; here `fuel` bounds the number of
rounds.  A `u32` has at most five base-128 digits, so fuel 5 is never exhausted. -/
def encodeVbiLoop : (fuel : Nat) → (x : Nat) → Buf
  | 0, _ => []
  | fuel + 1, x =>
    let byte : UInt8 := UInt8.ofNat (x % 128)
    let x' := x / 128
    if x' > 0 then (byte ||| 0x80) :: encodeVbiLoop fuel x' else [byte]

/-- `VariableByteInteger(x).encode(..)`, mercurio-core/src/codec.rs:26-43, 74-77, for `x : u32`. -/
def encodeVbi (x : Nat) : Buf := encodeVbiLoop 5 x

/-- `VariableByteInteger(x).encoded_size()`, mercurio-core/src/codec.rs:79-87; `unreachable!()` is a
panic. -/
def vbiSize (x : Nat) : Res Nat :=
  if x ≤ 127 then .ok 1
  else if x ≤ 16383 then .ok 2
  else if x ≤ 2097151 then .ok 3
  else if x ≤ 268435455 then .ok 4
  else .panic

/-- The loop of `decode_var_byte_integer`, mercurio-core/src/codec.rs:45-69.  `mult` and `value` are
the `u32` locals.  `value += (byte & 0x7f) as u32 * multiplier` panics on overflow in debug mode and
wraps in release mode. -/
def decodeVbiLoop (m : Mode) (mult value : Nat) : Buf → Res (Nat × Buf)
  | [] => .err .incomplete
  | b :: bs =>
    let sum := value + (b &&& 0x7f).toNat * mult
    if m = .debug ∧ 2 ^ 32 ≤ sum then .panic
    else
      let value' := sum % 2 ^ 32
      if mult > 128 * 128 * 128 then .err (.mqtt .malformedPacket)
      else if b &&& 0x80 = 0 then .ok (value', bs)
      else decodeVbiLoop m (mult * 128) value' bs

/-- `VariableByteInteger::decode`, mercurio-core/src/codec.rs:45-69, 90-94. -/
def decodeVbi (m : Mode) : Dec Nat := decodeVbiLoop m 1 0

/-! ## Fixed-width integers (big endian, `bytes::BufMut::put_u16/put_u32`) -/

/-- `u8::encode`, mercurio-core/src/codec.rs:138-142. -/
def encodeU8 (x : UInt8) : Buf := [x]

/-- `u8::decode`, mercurio-core/src/codec.rs:144-152. -/
def decodeU8 : Dec UInt8
  | [] => .err .incomplete
  | b :: bs => .ok (b, bs)

/-- `Buf::get_u8` without a length check: panics on an empty buffer.
Used at mercurio-core/src/reason.rs:184, mercurio-packets/src/connack.rs:34,282,
mercurio-packets/src/subscribe.rs:125. -/
def getU8 : Dec UInt8
  | [] => .panic
  | b :: bs => .ok (b, bs)

/-- `Buf::advance(1)`: panics on an empty buffer.
Used e.g. at mercurio-packets/src/connect.rs:426. -/
def advance1 : Dec Unit
  | [] => .panic
  | _ :: bs => .ok ((), bs)

/-- `u16::encode`, mercurio-core/src/codec.rs:154-158. -/
def encodeU16 (x : UInt16) : Buf := [UInt8.ofNat (x.toNat / 256), UInt8.ofNat (x.toNat % 256)]

/-- `u16::decode`, mercurio-core/src/codec.rs:160-168. -/
def decodeU16 : Dec UInt16
  | a :: b :: bs => .ok (UInt16.ofNat (a.toNat * 256 + b.toNat), bs)
  | _ => .err .incomplete

/-- `u32::encode`, mercurio-core/src/codec.rs:170-174. -/
def encodeU32 (x : UInt32) : Buf :=
  [UInt8.ofNat (x.toNat / 16777216), UInt8.ofNat (x.toNat / 65536 % 256),
   UInt8.ofNat (x.toNat / 256 % 256), UInt8.ofNat (x.toNat % 256)]

/-- `u32::decode`, mercurio-core/src/codec.rs:176-184. -/
def decodeU32 : Dec UInt32
  | a :: b :: c :: d :: bs =>
    .ok (UInt32.ofNat (((a.toNat * 256 + b.toNat) * 256 + c.toNat) * 256 + d.toNat), bs)
  | _ => .err .incomplete

/-- `bool::encode`, mercurio-core/src/codec.rs:186-190. -/
def encodeBool (x : Bool) : Buf := [if x then 1 else 0]

/-- `bool::decode`, mercurio-core/src/codec.rs:192-200. -/
def decodeBool : Dec Bool
  | [] => .err .incomplete
  | b :: bs => .ok (b != 0, bs)

/-! ## UTF-8 -/

/-- A UTF-8 continuation byte, `0x80..=0xbf`. -/
def isCont (b : UInt8) : Bool := 0x80 ≤ b && b ≤ 0xbf

/-- `String::from_utf8(bytes).is_ok()` (mercurio-core/src/codec.rs:120): Rust's standard validation
(core::str::validations::run_utf8_validation), written as a recursive function.
Replaces a standard-library call by its algorithm; `C05` proves it equivalent to "these bytes are
the UTF-8 encoding of some sequence of Unicode scalar values". -/
def utf8Valid : Buf → Bool
  | [] => true
  | a :: bs =>
    if a < 0x80 then utf8Valid bs
    else match bs with
      | [] => false
      | b :: cs =>
        if 0xc2 ≤ a && a ≤ 0xdf then isCont b && utf8Valid cs
        else match cs with
          | [] => false
          | c :: ds =>
            if 0xe0 ≤ a && a ≤ 0xef then
              ((a == 0xe0 && 0xa0 ≤ b && b ≤ 0xbf) || (0xe1 ≤ a && a ≤ 0xec && isCont b)
                || (a == 0xed && 0x80 ≤ b && b ≤ 0x9f) || (0xee ≤ a && a ≤ 0xef && isCont b))
              && isCont c && utf8Valid ds
            else match ds with
              | [] => false
              | d :: es =>
                ((a == 0xf0 && 0x90 ≤ b && b ≤ 0xbf) || (0xf1 ≤ a && a ≤ 0xf3 && isCont b)
                  || (a == 0xf4 && 0x80 ≤ b && b ≤ 0x8f))
                && isCont c && isCont d && utf8Valid es

/-! ## Length-prefixed text and binary data -/

/-- `Bytes::encode` and `String::encode`, mercurio-core/src/codec.rs:96-100, 202-206: the length is
cast with `as u16`, i.e. taken modulo 65536, and all bytes are written. -/
def encodeBin (x : Buf) : Buf := encodeU16 (UInt16.ofNat x.length) ++ x

/-- `Bytes::encoded_size`, `String::encoded_size`, mercurio-core/src/codec.rs:102-104, 208-210. -/
def binSize (x : Buf) : Nat := x.length + 2

/-- `Bytes::decode`, mercurio-core/src/codec.rs:213-226. -/
def decodeBin : Dec Buf := fun buf =>
  match buf with
  | a :: b :: bs =>
    let length := (a.toNat * 256 + b.toNat)
    if bs.length < length then .err (.mqtt .malformedPacket)
    else .ok (bs.take length, bs.drop length)
  | _ => .err .incomplete

/-- `String::encode`, mercurio-core/src/codec.rs:96-100 (also `&'static str`, 127-131). -/
def encodeStr (s : Str) : Buf := encodeBin s

/-- `String::decode`, mercurio-core/src/codec.rs:107-125. -/
def decodeStr : Dec Str := fun buf =>
  match buf with
  | a :: b :: bs =>
    let length := (a.toNat * 256 + b.toNat)
    if bs.length < length then .err (.mqtt .malformedPacket)
    else if utf8Valid (bs.take length) then .ok (bs.take length, bs.drop length)
    else .err (.mqtt .malformedPacket)
  | _ => .err .incomplete

/-! ## Reason codes -/

/-- `ReasonCode::get_code`, mercurio-core/src/reason.rs:117-167. -/
def ReasonCode.code : ReasonCode → UInt8
  | .success => 0x00
  | .normalDisconnection => 0x00
  | .grantedQoS0 => 0x00
  | .grantedQoS1 => 0x01
  | .grantedQoS2 => 0x02
  | .disconnectWithWillMessage => 0x04
  | .noMatchingSubscribers => 0x10
  | .noSubscriptionExisted => 0x11
  | .continueAuthentication => 0x18
  | .reAuthenticate => 0x19
  | .unspecifiedError => 0x80
  | .malformedPacket => 0x81
  | .protocolError => 0x82
  | .implementationSpecificError => 0x83
  | .unsupportedProtocolVersion => 0x84
  | .clientIdentifierNotValid => 0x85
  | .badUserNameOrPassword => 0x86
  | .notAuthorized => 0x87
  | .serverUnavailable => 0x88
  | .serverBusy => 0x89
  | .banned => 0x8a
  | .serverShuttingDown => 0x8b
  | .badAuthenticationMethod => 0x8c
  | .keepAliveTimeout => 0x8d
  | .sessionTakenOver => 0x8e
  | .topicFilterInvalid => 0x8f
  | .topicNameInvalid => 0x90
  | .packetIdentifierInUse => 0x91
  | .packetIdentifierNotFound => 0x92
  | .receiveMaximumExceeded => 0x93
  | .topicAliasInvalid => 0x94
  | .packetTooLarge => 0x95
  | .messageRateTooHigh => 0x96
  | .quotaExceeded => 0x97
  | .administrativeAction => 0x98
  | .payloadFormatInvalid => 0x99
  | .retainNotSupported => 0x9a
  | .qoSNotSupported => 0x9b
  | .useAnotherServer => 0x9c
  | .serverMoved => 0x9d
  | .sharedSubscriptionsNotSupported => 0x9e
  | .connectionRateExceeded => 0x9f
  | .maximumConnectTime => 0xa0
  | .subscriptionIdentifiersNotSupported => 0xa1
  | .wildcardSubscriptionsNotSupported => 0xa2

/-- The `match` of `ReasonCode::decode`, mercurio-core/src/reason.rs:184-229 (`none` is the
`MalformedPacket` arm). -/
def ReasonCode.ofCode (b : UInt8) : Option ReasonCode :=
  match b.toNat with
  | 0x00 => some .success
  | 0x01 => some .grantedQoS1
  | 0x02 => some .grantedQoS2
  | 0x04 => some .disconnectWithWillMessage
  | 0x10 => some .noMatchingSubscribers
  | 0x11 => some .noSubscriptionExisted
  | 0x18 => some .continueAuthentication
  | 0x19 => some .reAuthenticate
  | 0x80 => some .unspecifiedError
  | 0x81 => some .malformedPacket
  | 0x82 => some .protocolError
  | 0x83 => some .implementationSpecificError
  | 0x84 => some .unsupportedProtocolVersion
  | 0x85 => some .clientIdentifierNotValid
  | 0x86 => some .badUserNameOrPassword
  | 0x87 => some .notAuthorized
  | 0x88 => some .serverUnavailable
  | 0x89 => some .serverBusy
  | 0x8a => some .banned
  | 0x8b => some .serverShuttingDown
  | 0x8c => some .badAuthenticationMethod
  | 0x8d => some .keepAliveTimeout
  | 0x8e => some .sessionTakenOver
  | 0x8f => some .topicFilterInvalid
  | 0x90 => some .topicNameInvalid
  | 0x91 => some .packetIdentifierInUse
  | 0x92 => some .packetIdentifierNotFound
  | 0x93 => some .receiveMaximumExceeded
  | 0x94 => some .topicAliasInvalid
  | 0x95 => some .packetTooLarge
  | 0x96 => some .messageRateTooHigh
  | 0x97 => some .quotaExceeded
  | 0x98 => some .administrativeAction
  | 0x99 => some .payloadFormatInvalid
  | 0x9a => some .retainNotSupported
  | 0x9b => some .qoSNotSupported
  | 0x9c => some .useAnotherServer
  | 0x9d => some .serverMoved
  | 0x9e => some .sharedSubscriptionsNotSupported
  | 0x9f => some .connectionRateExceeded
  | 0xa0 => some .maximumConnectTime
  | 0xa1 => some .subscriptionIdentifiersNotSupported
  | 0xa2 => some .wildcardSubscriptionsNotSupported
  | _ => none

/-- `ReasonCode::encode`, mercurio-core/src/reason.rs:170-173. -/
def encodeReason (r : ReasonCode) : Buf := [r.code]

/-- `ReasonCode::decode`, mercurio-core/src/reason.rs:180-232: `get_u8` without a length check. -/
def decodeReason : Dec ReasonCode := do
  let b ← getU8
  match ReasonCode.ofCode b with
  | some r => return r
  | none => Dec.fail (.mqtt .malformedPacket)

end Mercurio
