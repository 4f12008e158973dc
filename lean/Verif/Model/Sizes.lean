import Verif.Model.Packets

/-!
# Sizes and payloads outside the packets

`Encoder::encoded_size` of whole packets, and the version independent encoder and decoder of a CONNECT
payload.  Nothing in the repository calls them; they are part of the public interface of the crate
`mercurio-packets`.
-/

namespace Mercurio

/-- How many bytes the compiler gives a value of each type in memory, `mem::size_of_val`: of a
`ControlPacket` and of each packet type.  Chosen by the compiler, so a parameter. -/
structure Layout where
  control : Nat
  connect : Nat
  connAck : Nat
  publish : Nat
  pubAck : Nat
  pubComp : Nat
  subscribe : Nat
  subAck : Nat
  unsubscribe : Nat
  unsubAck : Nat
  pingReq : Nat
  pingResp : Nat
  disconnect : Nat
  auth : Nat

/-- `ControlPacket::encoded_size`: the default of the trait, mercurio-core/src/codec.rs:21-23
(`impl Encoder for ControlPacket`, mercurio-packets/src/lib.rs:198-219, does not replace it). -/
def Packet.encodedSize (L : Layout) (_ : Packet) : Res Nat := .ok L.control

/-- `encoded_size` of the packet inside: the default of the trait (mercurio-core/src/codec.rs:21-23)
except for PUBREC and PUBREL, which abort with `unimplemented!` (mercurio-packets/src/pubrec.rs:105-107,
pubrel.rs:105-107). -/
def Packet.innerSize (L : Layout) : Packet → Res Nat
  | .connect _ => .ok L.connect
  | .connAck _ => .ok L.connAck
  | .publish _ => .ok L.publish
  | .pubAck _ => .ok L.pubAck
  | .pubRec _ => .panic
  | .pubRel _ => .panic
  | .pubComp _ => .ok L.pubComp
  | .subscribe _ => .ok L.subscribe
  | .subAck _ => .ok L.subAck
  | .unsubscribe _ => .ok L.unsubscribe
  | .unsubAck _ => .ok L.unsubAck
  | .pingReq => .ok L.pingReq
  | .pingResp => .ok L.pingResp
  | .disconnect _ => .ok L.disconnect
  | .auth _ => .ok L.auth

/-- `ConnectPayload::encode`, mercurio-packets/src/connect.rs:324-338: everything the payload holds, the
will properties only if they are not empty. -/
def ConnectPayload.encodeAll (p : ConnectPayload) : Buf :=
  let counted := optProps WillProperties.counted p.willProperties
  encodeStr p.clientId
  ++ (if propsSize counted > 0 then
        writeBlock counted (optProps WillProperties.toProps p.willProperties)
      else [])
  ++ encodeOpt encodeStr p.willTopic ++ encodeOpt encodeBin p.willPayload
  ++ encodeOpt encodeStr p.userName ++ encodeOpt encodeBin p.password

/-- `ConnectPayload::encoded_size`, mercurio-packets/src/connect.rs:340-355. -/
def ConnectPayload.sizeAll (p : ConnectPayload) : Res Nat := do
  let counted := optProps WillProperties.counted p.willProperties
  let n ← propsSizeRes counted
  let willBlock ← if n > 0 then blockSize counted else pure 0
  return binSize p.clientId + willBlock + optSize binSize p.willTopic + optSize binSize p.willPayload
    + optSize binSize p.userName + optSize binSize p.password

/-- `ConnectPayload::decode`, mercurio-packets/src/connect.rs:358-367: the client identifier, and the
defaults for everything else. -/
def decodeConnectPayload : Dec ConnectPayload := do
  let clientId ← decodeStr
  return { clientId }

end Mercurio
