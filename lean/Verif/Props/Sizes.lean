import Verif.Model.Sizes
import Verif.Props.Packets

/-!
# C94, C95: sizes of whole packets, and the payload of a CONNECT on its own
-/

namespace Mercurio

open Spec

/-! ## C94 -/

/-- C94 is false for control packets: whatever the memory layout, some control packet announces another
number than the number of bytes it is written as. -/
theorem C94_control_packet_false (L : Layout) :
    ∃ (p : Packet) (bytes : Buf) (n : Nat),
      p.encode = .ok bytes ∧ p.encodedSize L = .ok n ∧ n ≠ bytes.length := by
  by_cases h : L.control = 2
  · exact ⟨.disconnect { reason := .success }, [0xe0, 1, 0], L.control, by decide, rfl, by rw [h]; decide⟩
  · exact ⟨.pingReq, [0xc0, 0], L.control, by decide, rfl, h⟩

/-- Some packet of a kind announces a wrong size. -/
def Spec.AnnouncesWrong (L : Layout) {α : Type} (kind : α → Packet) : Prop :=
  ∃ (a : α) (bytes : Buf) (n : Nat),
    (kind a).encode = .ok bytes ∧ (kind a).innerSize L = .ok n ∧ n ≠ bytes.length

theorem announcesWrong {L : Layout} {α : Type} {kind : α → Packet} {n : Nat}
    (hn : ∀ a, (kind a).innerSize L = .ok n) (a b : α) (x y : Buf) (ha : (kind a).encode = .ok x)
    (hb : (kind b).encode = .ok y) (hxy : x.length ≠ y.length) : AnnouncesWrong L kind := by
  by_cases h : n = x.length
  · exact ⟨b, y, n, hb, hn b, by rw [h]; exact hxy⟩
  · exact ⟨a, x, n, ha, hn a, h⟩

/-- C94 is false for every kind of packet that has contents: whatever the memory layout, some packet of
that kind announces another number than the number of bytes it is written as. -/
theorem C94_each_kind_false (L : Layout) :
    AnnouncesWrong L Packet.connect ∧ AnnouncesWrong L Packet.connAck ∧ AnnouncesWrong L Packet.publish ∧
    AnnouncesWrong L Packet.pubAck ∧ AnnouncesWrong L Packet.pubComp ∧ AnnouncesWrong L Packet.subscribe ∧
    AnnouncesWrong L Packet.subAck ∧ AnnouncesWrong L Packet.unsubscribe ∧
    AnnouncesWrong L Packet.unsubAck ∧ AnnouncesWrong L Packet.disconnect ∧
    AnnouncesWrong L Packet.auth := by
  refine ⟨?_, ?_, ?_, ?_, ?_, ?_, ?_, ?_, ?_, ?_, ?_⟩
  · exact announcesWrong (n := L.connect) (fun _ => rfl)
      { protocolVersion := .v5, flags := {}, keepalive := 0, properties := none, payload := { clientId := [] } }
      { protocolVersion := .v5, flags := {}, keepalive := 0, properties := none, payload := { clientId := str "a" } }
      [0x10, 13, 0, 4, 77, 81, 84, 84, 5, 0, 0, 0, 0, 0, 0] [0x10, 14, 0, 4, 77, 81, 84, 84, 5, 0, 0, 0, 0, 0, 1, 97]
      (by decide) (by decide) (by decide)
  · exact announcesWrong (n := L.connAck) (fun _ => rfl) {} { protocolVersion := .v3_1_1 }
      [0x20, 3, 0, 0, 0] [0x20, 2, 0, 0] (by decide) (by decide) (by decide)
  · exact announcesWrong (n := L.publish) (fun _ => rfl) { topicName := [] } { topicName := str "a" }
      [0x30, 3, 0, 0, 0] [0x30, 4, 0, 1, 97, 0] (by decide) (by decide) (by decide)
  · exact announcesWrong (n := L.pubAck) (fun _ => rfl) { packetId := 1 }
      { packetId := 1, reason := .noMatchingSubscribers }
      [0x40, 2, 0, 1] [0x40, 4, 0, 1, 16, 0] (by decide) (by decide) (by decide)
  · exact announcesWrong (n := L.pubComp) (fun _ => rfl) { packetId := 1 }
      { packetId := 1, reason := .noMatchingSubscribers }
      [0x70, 2, 0, 1] [0x70, 4, 0, 1, 16, 0] (by decide) (by decide) (by decide)
  · exact announcesWrong (n := L.subscribe) (fun _ => rfl) { packetId := 1, payload := [] }
      { packetId := 1, payload := [{ topicFilter := str "a" }] }
      [0x82, 3, 0, 1, 0] [0x82, 7, 0, 1, 0, 0, 1, 97, 0] (by decide) (by decide) (by decide)
  · exact announcesWrong (n := L.subAck) (fun _ => rfl) { packetId := 1, payload := [] }
      { packetId := 1, payload := [.success] }
      [0x90, 3, 0, 1, 0] [0x90, 4, 0, 1, 0, 0] (by decide) (by decide) (by decide)
  · exact announcesWrong (n := L.unsubscribe) (fun _ => rfl) { packetId := 1, payload := [] }
      { packetId := 1, payload := [str "a"] }
      [0xa2, 3, 0, 1, 0] [0xa2, 6, 0, 1, 0, 0, 1, 97] (by decide) (by decide) (by decide)
  · exact announcesWrong (n := L.unsubAck) (fun _ => rfl) { packetId := 1, payload := [] }
      { packetId := 1, payload := [.success] }
      [0xb0, 3, 0, 1, 0] [0xb0, 4, 0, 1, 0, 0] (by decide) (by decide) (by decide)
  · exact announcesWrong (n := L.disconnect) (fun _ => rfl) { reason := .success }
      { reason := .success, properties := some { reasonString := some [] } }
      [0xe0, 1, 0] [0xe0, 4, 0, 0x1f, 0, 0] (by decide) (by decide) (by decide)
  · exact announcesWrong (n := L.auth) (fun _ => rfl) { reason := .success }
      { reason := .success, properties := { reasonString := some [] } }
      [0xf0, 1, 0] [0xf0, 4, 0, 0x1f, 0, 0] (by decide) (by decide) (by decide)

/-- C94 is false for PUBREC and PUBREL: asking any of them for its size aborts. -/
theorem C94_pubrec_pubrel_false (L : Layout) (p : AckPacket) :
    (Packet.pubRec p).innerSize L = .panic ∧ (Packet.pubRel p).innerSize L = .panic :=
  ⟨rfl, rfl⟩

theorem ConnectPayload.encodeAll_def (p : ConnectPayload) : p.encodeAll = encodeStr p.clientId
    ++ (if propsSize (optProps WillProperties.toProps p.willProperties) > 0 then
          encodeBlock (optProps WillProperties.toProps p.willProperties)
        else [])
    ++ encodeOpt encodeStr p.willTopic ++ encodeOpt encodeBin p.willPayload
    ++ encodeOpt encodeStr p.userName ++ encodeOpt encodeBin p.password := rfl

theorem ConnectPayload.sizeAll_def (p : ConnectPayload) : p.sizeAll = (do
    let n ← propsSizeRes (optProps WillProperties.toProps p.willProperties)
    let willBlock ← if n > 0 then blockSize (optProps WillProperties.toProps p.willProperties) else pure 0
    return binSize p.clientId + willBlock + optSize binSize p.willTopic + optSize binSize p.willPayload
      + optSize binSize p.userName + optSize binSize p.password : Res Nat) := rfl

/-- C94: the payload of a CONNECT announces the number of bytes it is written as. Missing (and false, see
above): packets. -/
theorem C94_connect_payload_partial (p : ConnectPayload) (n : Nat) (h : p.sizeAll = .ok n) :
    p.encodeAll.length = n := by
  have e1 : (encodeOpt encodeStr p.willTopic).length = optSize binSize p.willTopic := by
    cases p.willTopic <;> simp [encodeOpt, optSize, encodeStr_length]
  have e2 : (encodeOpt encodeBin p.willPayload).length = optSize binSize p.willPayload := by
    cases p.willPayload <;> simp [encodeOpt, optSize, encodeBin_length]
  have e3 : (encodeOpt encodeStr p.userName).length = optSize binSize p.userName := by
    cases p.userName <;> simp [encodeOpt, optSize, encodeStr_length]
  have e4 : (encodeOpt encodeBin p.password).length = optSize binSize p.password := by
    cases p.password <;> simp [encodeOpt, optSize, encodeBin_length]
  rw [ConnectPayload.sizeAll_def] at h
  rw [ConnectPayload.encodeAll_def]
  simp only [List.length_append, encodeStr_length, e1, e2, e3, e4]
  cases hn : propsSizeRes (optProps WillProperties.toProps p.willProperties) with
  | err e => rw [hn] at h; cases h
  | panic => rw [hn] at h; cases h
  | ok k =>
    rw [hn] at h
    simp only [Res.bind_ok] at h
    have hk : k = propsSize (optProps WillProperties.toProps p.willProperties) := by
      rw [propsSizeRes] at hn
      split at hn
      · cases hn
      · cases hn; rfl
    rw [← hk]
    by_cases h0 : k > 0
    · rw [if_pos h0] at h ⊢
      cases hb : blockSize (optProps WillProperties.toProps p.willProperties) with
      | err e => rw [hb] at h; cases h
      | panic => rw [hb] at h; cases h
      | ok l =>
        rw [hb] at h
        injection h with h
        rw [← (blockSize_inv hb).2, ← h]
    · rw [if_neg h0] at h ⊢
      injection h with h

example : ConnectPayload.sizeAll
    { clientId := str "ab", willProperties := some { willDelayInterval := some 1 }, userName := some (str "u") } =
    .ok 13 := by decide

/-! ## C95 -/

/-- C95: what the decoder of a CONNECT payload reads back from an encoded payload is the client identifier
alone; all other bytes stay unread. Missing (and false, see below): the other fields. -/
theorem C95_client_id_partial (p : ConnectPayload) (rest : Buf) (hid : TextField p.clientId) :
    ∃ unread, p.encodeAll = field p.clientId ++ unread ∧
      decodeConnectPayload (p.encodeAll ++ rest) = .ok ({ clientId := p.clientId }, unread ++ rest) := by
  have hs : encodeStr p.clientId = field p.clientId := encodeStr_field hid
  refine ⟨(if propsSize (optProps WillProperties.toProps p.willProperties) > 0 then
      encodeBlock (optProps WillProperties.toProps p.willProperties) else [])
    ++ (encodeOpt encodeStr p.willTopic ++ (encodeOpt encodeBin p.willPayload
    ++ (encodeOpt encodeStr p.userName ++ encodeOpt encodeBin p.password))), ?_, ?_⟩
  · rw [ConnectPayload.encodeAll_def, hs]
    simp only [List.append_assoc]
  · rw [ConnectPayload.encodeAll_def]
    simp only [List.append_assoc]
    exact Dec.bind_ok (decodeStr_text hid _)

/-- C95 is false for every payload with anything but a client identifier: it does not come back. -/
theorem C95_rest_lost_false (p : ConnectPayload) (rest : Buf) (hid : TextField p.clientId)
    (hp : p ≠ { clientId := p.clientId }) :
    ∀ unread, decodeConnectPayload (p.encodeAll ++ rest) ≠ .ok (p, unread) := by
  intro unread h
  obtain ⟨u, _, h2⟩ := C95_client_id_partial p rest hid
  rw [h2] at h
  injection h with h
  exact hp (Prod.mk.inj h).1.symm

example : TextField (str "ab") ∧
    (ConnectPayload.mk (str "ab") none none none (some (str "u")) none) ≠ { clientId := str "ab" } := by
  decide

end Mercurio
