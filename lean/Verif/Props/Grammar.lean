import Verif.Lemmas.ExactPackets
import Verif.Props.Accepted

/-!
# Packets are read as they are written

C72: what the parser hands on is what the bytes say.  C73: what the grammar allows is handed on.
-/

namespace Mercurio

open Spec

/-! ## C72 -/

/-- C72 (partial): if the parser hands on a packet, then the buffer begins with bytes that say exactly
this packet, according to the grammar in Spec/Grammar.lean, and these bytes and no others are taken.
Missing, because it is false: the length in the packet is not always that of its bytes (see
`C72_length_false` and `C72_swallowed_false`), and of a ping only the first byte is taken. -/
theorem C72_read_as_written_partial (m : Mode) (v : ProtocolVersion) (b rest : Buf) (p : Packet)
    (h : parseWithVersion m v b = .ok (p, rest)) :
    ∃ c t, b = c :: t ∧ p.FirstByte c ∧
      (((p = .pingReq ∨ p = .pingResp) ∧ t = rest) ∨
       ∃ n l body, t = l ++ body ++ rest ∧ VbiOf n l ∧ p.BodyOf v n body) := by
  cases b with
  | nil => cases h
  | cons c t =>
  have hfirst := (C67_accepted_legal_partial m v c t rest p h).2
  refine ⟨c, t, rfl, hfirst, ?_⟩
  have go : ∀ {α : Type} {d : Dec α} {C : α → Packet}, (d >>= fun a => pure (C a)) (c :: t) = .ok (p, rest) →
      ∃ a, d (c :: t) = .ok (a, rest) ∧ p = C a := by
    intro α d C h
    obtain ⟨a, r, h1, h2⟩ := Dec.bind_inv h
    cases h2
    exact ⟨a, h1, rfl⟩
  have framed : ∀ {α : Type} {d : Dec α} {H : UInt8 → Prop} {W : Nat → α → Buf → Prop} (_ : d.Exact (Framed H W))
      {a : α}, d (c :: t) = .ok (a, rest) → ∃ n l body, t = l ++ body ++ rest ∧ VbiOf n l ∧ W n a body := by
    intro α d H W hd a h
    obtain ⟨w, e, c', n, l, body, rfl, _, hv, hw⟩ := hd.sound _ _ _ h
    rw [List.cons_append] at e
    exact ⟨n, l, body, (List.cons.inj e).2, hv, hw⟩
  simp only [parseWithVersion] at h
  generalize hc : (c >>> 4).toNat = n at h
  match n, hc, h with
  | 0, _, h => cases h
  | 1, hc, h =>
    obtain ⟨a, h1, rfl⟩ := go h
    exact .inr (framed (decodeConnect_exact m) h1)
  | 2, hc, h =>
    cases v
    · obtain ⟨a, h1, rfl⟩ := go h
      exact .inr (framed (decodeConnAckV3_exact m (v := .v3_1) (by decide)) h1)
    · obtain ⟨a, h1, rfl⟩ := go h
      exact .inr (framed (decodeConnAckV3_exact m (v := .v3_1_1) (by decide)) h1)
    · obtain ⟨a, h1, rfl⟩ := go h
      exact .inr (framed (decodeConnAck_exact m) h1)
  | 3, hc, h =>
    obtain ⟨a, h1, rfl⟩ := go h
    obtain ⟨c', n, l, body, e, h2, _, h3⟩ := decodePublish_sound v h1
    exact .inr ⟨n, l, body, (List.cons.inj e).2, h2, h3⟩
  | 4, hc, h =>
    obtain ⟨a, h1, rfl⟩ := go h
    exact .inr (framed (decodeAck_exact m) h1)
  | 5, hc, h =>
    obtain ⟨a, h1, rfl⟩ := go h
    exact .inr (framed (decodeAck_exact m) h1)
  | 6, hc, h =>
    obtain ⟨a, h1, rfl⟩ := go h
    exact .inr (framed (decodeAck_exact m) h1)
  | 7, hc, h =>
    obtain ⟨a, h1, rfl⟩ := go h
    exact .inr (framed (decodeAck_exact m) h1)
  | 8, hc, h =>
    obtain ⟨a, h1, rfl⟩ := go h
    obtain ⟨c', n, l, id, q, es, x, e, hb, h2, h3, h4, rfl⟩ := decodeListed_sound (m := m)
      (f := fun id q es => ({ packetId := id, properties := some q, payload := es } : SubscribePacket))
      (decodeSubscribeProperties_exact m) decodeSubscribePayload_exact h1
    exact .inr ⟨n, l, _, (List.cons.inj hb).2, h2, x, q, e, rfl, rfl, h3, h4⟩
  | 9, hc, h =>
    cases v
    · obtain ⟨a, h1, rfl⟩ := go h
      obtain ⟨c', n, l, id, es, e, hb, h2, h3, rfl⟩ := decodeSubAckV3_sound h1
      exact .inr ⟨n, l, _, (List.cons.inj hb).2, h2, rfl, e, rfl, rfl, h3⟩
    · obtain ⟨a, h1, rfl⟩ := go h
      obtain ⟨c', n, l, id, es, e, hb, h2, h3, rfl⟩ := decodeSubAckV3_sound h1
      exact .inr ⟨n, l, _, (List.cons.inj hb).2, h2, rfl, e, rfl, rfl, h3⟩
    · obtain ⟨a, h1, rfl⟩ := go h
      obtain ⟨c', n, l, id, q, es, x, e, hb, h2, h3, h4, rfl⟩ := decodeListed_sound (m := m)
        (f := fun id q es => ({ protocolVersion := .v5, packetId := id, properties := some q, payload := es } :
          SubAckPacket)) (decodeAckProperties_exact m) decodeReason_exact h1
      exact .inr ⟨n, l, _, (List.cons.inj hb).2, h2, rfl, x, q, e, rfl, rfl, h3, h4⟩
  | 10, hc, h =>
    obtain ⟨a, h1, rfl⟩ := go h
    obtain ⟨c', n, l, id, q, es, x, e, hb, h2, h3, h4, rfl⟩ := decodeListed_sound (m := m)
      (f := fun id q es => ({ packetId := id, properties := some q, payload := es } : UnsubscribePacket))
      (decodeUnsubscribeProperties_exact m) decodeStr_exact h1
    exact .inr ⟨n, l, _, (List.cons.inj hb).2, h2, x, q, e, rfl, rfl, h3, h4⟩
  | 11, hc, h =>
    cases v
    · obtain ⟨a, h1, rfl⟩ := go h
      exact .inr (framed (decodeUnsubAckV3_exact m (v := .v3_1) (by decide)) h1)
    · obtain ⟨a, h1, rfl⟩ := go h
      exact .inr (framed (decodeUnsubAckV3_exact m (v := .v3_1_1) (by decide)) h1)
    · obtain ⟨a, h1, rfl⟩ := go h
      obtain ⟨c', n, l, id, q, es, x, e, hb, h2, h3, h4, rfl⟩ := decodeListed_sound (m := m)
        (f := fun id q es => ({ protocolVersion := .v5, packetId := id, properties := some q, payload := es } :
          UnsubAckPacket)) (decodeAckProperties_exact m) decodeReason_exact h1
      exact .inr ⟨n, l, _, (List.cons.inj hb).2, h2, rfl, x, q, e, rfl, rfl, h3, h4⟩
  | 12, hc, h =>
    obtain ⟨a, h1, rfl⟩ := go h
    exact .inl ⟨.inl rfl, by cases h1; rfl⟩
  | 13, hc, h =>
    obtain ⟨a, h1, rfl⟩ := go h
    exact .inl ⟨.inr rfl, by cases h1; rfl⟩
  | 14, hc, h =>
    obtain ⟨a, h1, rfl⟩ := go h
    exact .inr (framed (decodeDisconnect_exact m) h1)
  | 15, hc, h =>
    obtain ⟨a, h1, rfl⟩ := go h
    exact .inr (framed (decodeAuth_exact m) h1)
  | _ + 16, _, h => cases h

example : ∃ p, parseWithVersion .debug .v5 [0x40, 2, 0, 7, 99] = .ok (p, [99]) := ⟨_, rfl⟩

/-! ## C73 -/

/-- The type in the first byte. -/
theorem Packet.FirstByte.kind {p : Packet} {c : UInt8} (h : p.FirstByte c) :
    (c >>> 4).toNat = p.fixedHeader / 16 := by
  rw [h.1, shr4]

/-- C73 (partial): a packet that the grammar allows is accepted and understood, whatever follows it, and
exactly its bytes are taken: properties in any order, for the packets other than PUBLISH also numbers not in
their shortest form.  Missing, because it is false: pings, and what the grammar itself leaves out (see
`C73_legal_refused_false`).  (The length limit is that of `u32`, to which the server cuts buffer lengths.) -/
theorem C73_accepted_partial (m : Mode) (v : ProtocolVersion) (c : UInt8) (l w rest : Buf) (p : Packet)
    (hc : p.FirstByte c) (hl : VbiOf w.length l) (hw : p.WellFormed v w)
    (hlen : (c :: (l ++ w ++ rest)).length < 2 ^ 32) :
    parseWithVersion m v (c :: (l ++ w ++ rest)) = .ok (p, rest) := by
  have hk := hc.kind
  have hlen' : (l ++ w ++ rest).length < 2 ^ 32 := by rw [List.length_cons] at hlen; omega
  have framed : ∀ {α : Type} {d : Dec α} {H : UInt8 → Prop} {W : Nat → α → Buf → Prop} (_ : d.Exact (Framed H W))
      (a : α) (C : α → Packet), H c → W w.length a w →
      (d >>= fun a => pure (C a)) (c :: (l ++ w ++ rest)) = .ok (C a, rest) := by
    intro α d H W hd a C hH hW
    have := hd.complete a (c :: (l ++ w)) rest ⟨c, w.length, l, w, rfl, hH, hl, hW⟩ (by simpa using hlen)
    rw [List.cons_append] at this
    rw [Dec.bind_ok this]
    rfl
  have done : ∀ {α : Type} {d : Dec α} (a : α) (C : α → Packet),
      d (c :: (l ++ w ++ rest)) = .ok (a, rest) →
      (d >>= fun a => pure (C a)) (c :: (l ++ w ++ rest)) = .ok (C a, rest) := by
    intro α d a C h
    rw [Dec.bind_ok h]; rfl
  have low : p.fixedHeader / 16 ∈ [3, 14, 15] → c.toNat % 16 = p.fixedHeader % 16 := by
    intro h; rw [hc.2 h]
  simp only [parseWithVersion]
  cases p with
  | connect p =>
    rw [show (c >>> 4).toNat = 1 from hk.trans (by simp [Packet.fixedHeader])]
    exact framed (decodeConnect_exact m) p .connect trivial hw
  | connAck p =>
    rw [show (c >>> 4).toNat = 2 from hk.trans (by simp [Packet.fixedHeader])]
    by_cases hv : v = .v5
    · subst hv
      exact framed (decodeConnAck_exact m) p .connAck trivial hw
    · have : v.supportsProperties = false := by cases v <;> first | rfl | exact absurd rfl hv
      simp only [this]
      exact framed (decodeConnAckV3_exact m hv) p .connAck trivial hw
  | publish p =>
    have hq : p.qos ≠ .invalid := by
      obtain ⟨_, _, _, _, _, _, _, hq, _⟩ := hw
      exact hq
    have hlv : p.qos.level ≤ 2 := by cases h : p.qos <;> simp_all [QoS.level]
    have h3 : (Packet.publish p).fixedHeader / 16 = 3 := by
      simp only [Packet.fixedHeader]; split <;> split <;> omega
    have hm := low (by rw [h3]; decide)
    rw [h3] at hk
    rw [hk]
    refine done p .publish (decodePublish_complete m rest hl ?_ hw hlen')
    rw [hm]
    simp only [Packet.fixedHeader, bit]
    split <;> split <;> omega
  | pubAck p =>
    rw [show (c >>> 4).toNat = 4 from hk.trans (by simp [Packet.fixedHeader])]
    exact framed (decodeAck_exact m) p .pubAck trivial hw
  | pubRec p =>
    rw [show (c >>> 4).toNat = 5 from hk.trans (by simp [Packet.fixedHeader])]
    exact framed (decodeAck_exact m) p .pubRec trivial hw
  | pubRel p =>
    rw [show (c >>> 4).toNat = 6 from hk.trans (by simp [Packet.fixedHeader])]
    exact framed (decodeAck_exact m) p .pubRel trivial hw
  | pubComp p =>
    rw [show (c >>> 4).toNat = 7 from hk.trans (by simp [Packet.fixedHeader])]
    exact framed (decodeAck_exact m) p .pubComp trivial hw
  | subscribe p =>
    rw [show (c >>> 4).toNat = 8 from hk.trans (by simp [Packet.fixedHeader])]
    obtain ⟨⟨x, q, e, rfl, h1, h2, h3⟩, hne⟩ := hw
    refine done p .subscribe ?_
    have := decodeListed_complete m
      (fun id q es => ({ packetId := id, properties := some q, payload := es } : SubscribePacket))
      (decodeSubscribeProperties_exact m) decodeSubscribePayload_exact
      (by rintro a u ⟨b, _, rfl, _⟩; simp) c p.packetId rest hl h2 h3 hne hlen'
    refine Eq.trans this ?_
    cases p; simp only at h1; subst h1; rfl
  | subAck p =>
    rw [show (c >>> 4).toNat = 9 from hk.trans (by simp [Packet.fixedHeader])]
    obtain ⟨hb, hne⟩ := hw
    by_cases hv : v = .v5
    · subst hv
      rw [Packet.BodyOf, if_pos rfl] at hb
      obtain ⟨h0, x, q, e, rfl, h1, h2, h3⟩ := hb
      refine done p .subAck ?_
      have := decodeListed_complete m (fun id q es =>
        ({ protocolVersion := .v5, packetId := id, properties := some q, payload := es } : SubAckPacket))
        (decodeAckProperties_exact m) decodeReason_exact
        (by rintro a u ⟨rfl, _⟩; simp) c p.packetId rest hl h2 h3 hne hlen'
      refine Eq.trans this ?_
      cases p; simp only at h0 h1; subst h0 h1; rfl
    · have : v.supportsProperties = false := by cases v <;> first | rfl | exact absurd rfl hv
      simp only [this]
      rw [Packet.BodyOf, if_neg hv] at hb
      obtain ⟨h0, e, rfl, h1, h2⟩ := hb
      refine done p .subAck ?_
      refine Eq.trans (decodeSubAckV3_complete m c p.packetId rest hl h2 hlen') ?_
      cases p; simp only at h0 h1; subst h0 h1; rfl
  | unsubscribe p =>
    rw [show (c >>> 4).toNat = 10 from hk.trans (by simp [Packet.fixedHeader])]
    obtain ⟨⟨x, q, e, rfl, h1, h2, h3⟩, hne⟩ := hw
    refine done p .unsubscribe ?_
    have := decodeListed_complete m
      (fun id q es => ({ packetId := id, properties := some q, payload := es } : UnsubscribePacket))
      (decodeUnsubscribeProperties_exact m) decodeStr_exact
      (by rintro a u ⟨_, rfl⟩; simp [field]) c p.packetId rest hl h2 h3 hne hlen'
    refine Eq.trans this ?_
    cases p; simp only at h1; subst h1; rfl
  | unsubAck p =>
    rw [show (c >>> 4).toNat = 11 from hk.trans (by simp [Packet.fixedHeader])]
    obtain ⟨hb, hne⟩ := hw
    by_cases hv : v = .v5
    · subst hv
      rw [Packet.BodyOf, if_pos rfl] at hb
      obtain ⟨h0, x, q, e, rfl, h1, h2, h3⟩ := hb
      refine done p .unsubAck ?_
      have := decodeListed_complete m (fun id q es =>
        ({ protocolVersion := .v5, packetId := id, properties := some q, payload := es } : UnsubAckPacket))
        (decodeAckProperties_exact m) decodeReason_exact
        (by rintro a u ⟨rfl, _⟩; simp) c p.packetId rest hl h2 h3 (hne rfl) hlen'
      refine Eq.trans this ?_
      cases p; simp only at h0 h1; subst h0 h1; rfl
    · have : v.supportsProperties = false := by cases v <;> first | rfl | exact absurd rfl hv
      simp only [this]
      exact framed (decodeUnsubAckV3_exact m hv) p .unsubAck trivial hb
  | pingReq => exact absurd hw id
  | pingResp => exact absurd hw id
  | disconnect p =>
    rw [show (c >>> 4).toNat = 14 from hk.trans (by simp [Packet.fixedHeader])]
    exact framed (decodeDisconnect_exact m) p .disconnect (by have := low (by simp [Packet.fixedHeader]); simpa [Packet.fixedHeader] using this) hw
  | auth p =>
    rw [show (c >>> 4).toNat = 15 from hk.trans (by simp [Packet.fixedHeader])]
    exact framed (decodeAuth_exact m) p .auth (by have := low (by simp [Packet.fixedHeader]); simpa [Packet.fixedHeader] using this) hw

/-- A PUBLISH with its properties in another order than the server writes them: content type `t`, then
payload format 1. -/
example : (Packet.publish (PublishPacket.mk true .atLeastOnce false (str "a") (some 7)
      (some { payloadFormatIndicator := some 1, contentType := some (str "t") }) (some [104]))).WellFormed .v5
    ([0, 1, 97] ++ [0, 7] ++ [6, 0x03, 0, 1, 116, 0x01, 1] ++ [104]) := by
  refine ⟨[0, 1, 97], [0, 7], { payloadFormatIndicator := some 1, contentType := some (str "t") },
    [.contentType (str "t"), .payloadFormatIndicator 1], [104], by decide +kernel,
    ⟨⟨⟨"a".toList, by decide⟩, by decide⟩, by decide⟩, by decide, by decide, by simp only [OptOf]; decide, rfl, by decide, ?_, ?_, rfl⟩
  · intro r hr
    simp only [List.mem_cons, List.not_mem_nil, or_false] at hr
    rcases hr with rfl | rfl
    · exact ⟨⟨"t".toList, by decide⟩, by decide⟩
    · trivial
  · intro k
    show pick k _ = pick k _
    by_cases h1 : 1 = k
    · subst h1; rfl
    · by_cases h3 : 3 = k <;> kind [PublishProperties.held, h1, h3, users]

/-- The same bytes as they come in, with the next packet behind them, and a length in two bytes instead of
one. -/
example : parse .debug ([0x3a, 0x8d, 0, 0, 1, 97, 0, 7, 6, 0x03, 0, 1, 116, 0x01, 1, 104] ++ [0xe0, 0]) =
    .ok (.publish (PublishPacket.mk true .atLeastOnce false (str "a") (some 7)
      (some { payloadFormatIndicator := some 1, contentType := some (str "t") }) (some [104])), [0xe0, 0]) := by
  decide +kernel

/-- A SUBSCRIBE for `a` with QoS 1 and `b` with QoS 2, retain as published. -/
example : (Packet.subscribe (SubscribePacket.mk 3 (some {}) [⟨str "a", { qos := .atLeastOnce }⟩,
      ⟨str "b", { qos := .exactlyOnce, retainAsPub := true }⟩])).WellFormed .v3_1_1
    [0, 3, 0, 0, 1, 97, 1, 0, 1, 98, 10] := by
  refine ⟨⟨[0], {}, [0, 1, 97, 1, 0, 1, 98, 10], by decide, rfl, ⟨by decide, [], [0], [], rfl, ?_, .nil, ?_⟩, ?_⟩,
    by decide⟩
  · exact ⟨[], 0, rfl, by decide, by simp, by decide, by decide⟩
  · intro i; simp [SubscribeProperties.held, one, users]
  · exact .cons (u := [0, 1, 97, 1]) ⟨1, ⟨⟨"a".toList, by decide⟩, by decide⟩, by decide, ⟨by decide, by decide⟩, by decide⟩
      (.cons (u := [0, 1, 98, 10]) ⟨10, ⟨⟨"b".toList, by decide⟩, by decide⟩, by decide, ⟨by decide, by decide⟩, by decide⟩ .nil)

/-- C72 is false in full: the length announced in a CONNECT is not looked at.  Whatever length is given, a
CONNECT is read to its end. -/
theorem C72_length_false (m : Mode) (v : ProtocolVersion) (n : Nat) (l w rest : Buf) (p : ConnectPacket)
    (hl : VbiOf n l) (hw : p.BodyOf w) (hlen : (0x10 :: (l ++ w ++ rest)).length < 2 ^ 32) :
    parseWithVersion m v (0x10 :: (l ++ w ++ rest)) = .ok (.connect p, rest) := by
  have := (decodeConnect_exact m).complete p (0x10 :: (l ++ w)) rest ⟨0x10, n, l, w, rfl, trivial, hl, hw⟩
    (by simpa using hlen)
  rw [List.cons_append] at this
  show (decodeConnect m >>= fun p => pure (Packet.connect p)) _ = _
  rw [Dec.bind_ok this]
  rfl

/-- the announced length is 0, the CONNECT has 13 bytes -/
example : ∃ p : ConnectPacket, parseWithVersion .debug .v5
    (0x10 :: ([0] ++ (field (str "MQTT") ++ [4, 2, 0, 60] ++ field (str "x")) ++ [9])) = .ok (.connect p, [9]) := ⟨_, rfl⟩

/-- C72 is false in full: a PUBLISH (of length 9, to topic `a`, payload `h`) with two subscription
identifiers, followed by a PINGREQ.  The PINGREQ becomes part of the payload. -/
theorem C72_swallowed_false :
    parse .release ([0x30, 9, 0, 1, 97, 4, 0x0b, 1, 0x0b, 2, 104] ++ [0xc0, 0]) =
      .ok (.publish (PublishPacket.mk false .atMostOnce false (str "a") none
        (some { subscriptionIdentifier := some 2 }) (some [104, 0xc0, 0])), []) := by decide +kernel

/-- C73 is false in full.  These legal packets are refused: a PUBACK with a reason and without property
length, an AUTH of length 0.  Of a PINGREQ a byte is left over.  The Request Response Information of a
CONNECT is taken for Request Problem Information. -/
theorem C73_legal_refused_false :
    parse .release [0x40, 3, 0, 1, 0x10] = .err .incomplete ∧
    parse .release [0xf0, 0] = .panic ∧
    parse .release [0xc0, 0] = .ok (.pingReq, [0]) ∧
    parse .release ([0x10, 15, 0, 4, 77, 81, 84, 84, 5, 2, 0, 0, 2, 0x19, 1, 0, 0]) =
      .ok (.connect { protocolVersion := .v5, flags := { cleanStart := true }, keepalive := 0,
                      properties := some { requestProblemInformation := some 1 },
                      payload := { clientId := [] } }, []) := by decide +kernel

end Mercurio
