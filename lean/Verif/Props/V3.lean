import Verif.Spec.V3
import Verif.Lemmas.ExactPackets
import Verif.Lemmas.NoPanic
import Verif.Props.Grammar
import Verif.Props.Session

/-!
# C76: clients of MQTT 3.1 and 3.1.1
-/

namespace Mercurio

open Spec Server

theorem frame_eq {h : UInt8} {n : Nat} {body : Buf} (hn : n = body.length) (hl : body.length < 2 ^ 28) :
    frame h n body = h :: (vbi body.length ++ body) := by
  unfold frame
  rw [hn, Nat.mod_eq_of_lt (by omega), encodeVbi_eq_vbi (by omega)]

theorem short_vbi {n : Nat} (h : n < 128) : vbi n = [UInt8.ofNat n] := by
  rw [vbi, if_pos h]

/-! ## From the client -/

/-- C76 (partial): a CONNECT of version 3.1 or 3.1.1 is understood, and so are acknowledgements and
DISCONNECT, whatever follows them.  Missing, because it is false: everything else. -/
theorem C76_read_partial (m : Mode) (rest : Buf) :
    (∀ p : ConnectPacket, ∀ w, p.protocolVersion ≠ .v5 → p.BodyOf w → w.length < 2 ^ 28 → (w ++ rest).length < 2 ^ 31 →
      parse m (0x10 :: (vbi w.length ++ w) ++ rest) = .ok (.connect p, rest)) ∧
    (∀ x : Packet3, (∃ id, x = .pubAck id ∨ x = .pubRec id ∨ x = .pubRel id ∨ x = .pubComp id) ∨ x = .disconnect →
      ∃ p, x.Means p ∧ parse m (x.bytes ++ rest) = .ok (p, rest)) := by
  constructor
  · intro p w _ hw hl hr
    have hv := vbi_of hl
    have := C73_accepted_partial m .v5 0x10 (vbi w.length) w rest (.connect p) ⟨rfl, fun _ => rfl⟩ hv hw (by
      obtain ⟨pre, last, h1, h2, _⟩ := hv
      rw [h1]
      simp only [List.length_cons, List.length_append, List.length_nil] at hr ⊢
      omega)
    simpa [parse] using this
  · have ack : ∀ id : UInt16, ∀ c : UInt8, ∀ rest, decodeAck m (c :: (vbi (be16 id.toNat).length ++ be16 id.toNat) ++ rest) =
        .ok (({ packetId := id } : AckPacket), rest) := by
      intro id c rest
      have h := decodeU16_encode id rest
      rw [encodeU16_be] at h
      rw [show (be16 id.toNat).length = 2 from rfl, short_vbi (by decide)]
      show decodeAck m (c :: UInt8.ofNat 2 :: (be16 id.toNat ++ rest)) = _
      have hv : decodeVbi m (UInt8.ofNat 2 :: (be16 id.toNat ++ rest)) = .ok (2, be16 id.toNat ++ rest) := by
        have := decodeVbi_encode m 2 (by decide) (be16 id.toNat ++ rest)
        simpa [encodeVbi_eq_vbi, short_vbi] using this
      rw [decodeAck, Dec.bind_ok (show advance1 (c :: _) = .ok ((), _) from rfl), Dec.bind_ok hv, Dec.bind_ok h]
      rfl
    rintro x (⟨id, rfl | rfl | rfl | rfl⟩ | rfl)
    · exact ⟨.pubAck { packetId := id }, rfl, (parse_pubAck m .v5 _).trans (Dec.bind_ok (ack id _ rest))⟩
    · exact ⟨.pubRec { packetId := id }, rfl, (parse_pubRec m .v5 _).trans (Dec.bind_ok (ack id _ rest))⟩
    · exact ⟨.pubRel { packetId := id }, rfl, (parse_pubRel m .v5 _).trans (Dec.bind_ok (ack id _ rest))⟩
    · exact ⟨.pubComp { packetId := id }, rfl, (parse_pubComp m .v5 _).trans (Dec.bind_ok (ack id _ rest))⟩
    · refine ⟨.disconnect { reason := .normalDisconnection }, rfl, ?_⟩
      have : Packet3.disconnect.bytes = [0xe0, 0] := by
        show UInt8.ofNat 0xe0 :: (vbi 0 ++ []) = _
        rw [short_vbi (by decide)]; rfl
      rw [this]
      exact (parse_disconnect m .v5 _).trans (Dec.bind_ok (by cases m <;> rfl))

/-- The size of the properties that were read. -/
theorem publishProps_bounds {m : Mode} {b r : Buf} {p : PublishProperties} (h : decodePublishProperties m b = .ok (p, r)) :
    ∃ k, blockSize p.toProps = .ok k ∧ 1 ≤ k ∧ k < 2 ^ 32 := by
  obtain ⟨len, c, hv, hle, -, hp⟩ := decodeBlock_inv h
  have hlt := decodeVbi_lt hv
  obtain ⟨h1, h2⟩ := propLoop_ok (fun p => propsSize (PublishProperties.toProps p))
    (fun p => (PublishProperties.toProps p).any Property.sizePanics = false)
    (fun p q p' => PublishProperties.set_size p q p') len {} (c.take len) p hp rfl
  have h0 : propsSize (PublishProperties.toProps {}) = 0 := rfl
  simp only [h0, Nat.zero_add, List.length_take] at h1
  have hs : propsSize p.toProps < 2 ^ 28 := by omega
  rw [blockSize, propsSizeRes, h2]
  simp only [Bool.false_eq_true, if_false, Res.bind_ok]
  rw [Nat.mod_eq_of_lt (by omega)]
  unfold vbiSize
  split
  · exact ⟨_, rfl, by omega, by omega⟩
  · split
    · exact ⟨_, rfl, by omega, by omega⟩
    · split
      · exact ⟨_, rfl, by omega, by omega⟩
      · split
        · exact ⟨_, rfl, by omega, by omega⟩
        · omega

/-- C76 is false for PUBLISH: no publication of a 3.1.1 client is ever understood, whatever its topic, payload
and QoS, and whatever follows (the beginning of the payload is taken for MQTT 5 properties). -/
theorem C76_publish_false (m : Mode) (dup : Bool) (qos : QoS) (retain : Bool) (topic : Str) (id : Option UInt16)
    (payload : Buf) (hx : (Packet3.publish dup qos retain topic id payload).Legal) (rest : Buf) :
    ¬ ∃ p r, parse m ((Packet3.publish dup qos retain topic id payload).bytes ++ rest) = .ok (p, r) ∧
      (Packet3.publish dup qos retain topic id payload).Means p := by
  rintro ⟨p, r, hp, hm⟩
  obtain ⟨hl, ht, hq, hi⟩ := hx
  cases p with
  | publish p =>
    obtain ⟨_, _, _, m4, m5, _, m7⟩ := hm
    generalize hX : Packet3.publish dup qos retain topic id payload = x at hp hl
    have hk : UInt8.ofNat x.first >>> 4 = 3 := by
      subst hX
      show UInt8.ofNat (0x30 + (if dup then 8 else 0) + 2 * qos.level + (if retain then 1 else 0)) >>> 4 = 3
      cases qos with
      | invalid => exact absurd rfl hq
      | _ => cases dup <;> cases retain <;> decide
    have hp' := (parse_publish m .v5 (UInt8.ofNat x.first) hk _).symm.trans hp
    obtain ⟨p', r', hd, hd'⟩ := Dec.bind_inv hp'
    cases hd'
    rw [decodePublish_def] at hd
    obtain ⟨c, b1, h1, g1⟩ := Dec.bind_inv hd
    cases h1
    obtain ⟨n, b2, h2, g2⟩ := Dec.bind_inv g1
    have hv := decodeVbi_encode m x.body.length hl (x.body ++ rest)
    rw [encodeVbi_eq_vbi (by omega), ← List.append_assoc] at hv
    cases hv.symm.trans h2
    obtain ⟨t, b3, h3, g3⟩ := Dec.bind_inv g2
    obtain ⟨id', b4, h4, g4⟩ := Dec.bind_inv g3
    obtain ⟨q, b5, h5, g5⟩ := Dec.bind_inv g4
    obtain ⟨bs, b6, h6, g6⟩ := Dec.bind_inv g5
    obtain ⟨hbs, rfl⟩ := liftRes_inv h6
    obtain ⟨k, b7, h7, g7⟩ := Dec.bind_inv g6
    obtain ⟨hk7, rfl⟩ := liftRes_inv h7
    obtain ⟨bs', hbs', hb1, hb2⟩ := publishProps_bounds h5
    rw [hbs'] at hbs
    cases hbs
    simp only [Dec.of_apply] at g7
    split at g7
    · cases g7
    · rename_i hlen
      cases g7
      simp only at m4 m5 m7
      subst m4 m5
      have hpl : payload.length = k := by
        rw [← m7, Option.getD_some, List.length_take]; omega
      have hL : x.body.length = binSize t + optSize (fun _ => 2) id' + payload.length := by
        subst hX
        cases id' <;> simp [Packet3.body, field, binSize, optSize, be16] <;> omega
      unfold usizeSub at hk7
      split at hk7
      · cases hk7; omega
      · cases m with
        | debug => cases hk7
        | release => cases hk7; omega
  | _ => exact hm

/-- What is read instead: if the payload begins with a zero byte, the rest of it; an empty payload is refused. -/
theorem C76_publish_zero_false (m : Mode) (topic : Str) (payload rest : Buf)
    (hx : (Packet3.publish false .atMostOnce false topic none (0 :: payload)).Legal) :
    parse m ((Packet3.publish false .atMostOnce false topic none (0 :: payload)).bytes ++ rest) =
      .ok (.publish { topicName := topic, properties := some {}, payload := some payload }, rest) ∧
    parse m (Packet3.publish false .atMostOnce false topic none []).bytes = .err .incomplete := by
  obtain ⟨hl, ht, _⟩ := hx
  have hf := encodeStr_field ht
  constructor
  · refine (parse_publish m .v5 _ (show UInt8.ofNat 0x30 >>> 4 = 3 by decide) _).trans (Dec.bind_ok ?_)
    rw [decodePublish_def]
    refine (Dec.bind_ok (show getU8 _ = .ok (_, _) from rfl)).trans ?_
    have hv := decodeVbi_encode m _ hl ((Packet3.publish false .atMostOnce false topic none (0 :: payload)).body ++ rest)
    rw [encodeVbi_eq_vbi (by omega), ← List.append_assoc] at hv
    refine (Dec.bind_ok hv).trans ?_
    have hb : (Packet3.publish false .atMostOnce false topic none (0 :: payload)).body ++ rest =
        encodeStr topic ++ (0 :: (payload ++ rest)) := by
      rw [hf]; simp [Packet3.body]
    have hn : (Packet3.publish false .atMostOnce false topic none (0 :: payload)).body.length = binSize topic + 1 + payload.length := by
      simp [Packet3.body, field, binSize]; omega
    rw [hb, Dec.bind_ok (decodeStr_text ht _), hn]
    refine (Dec.bind_ok (show decodePublishId .atMostOnce _ = .ok (none, _) from rfl)).trans ?_
    have hz : decodePublishProperties m (0 :: (payload ++ rest)) = .ok ({}, payload ++ rest) := by cases m <;> rfl
    rw [Dec.bind_ok hz]
    refine (Dec.bind_ok (show liftRes (blockSize (PublishProperties.toProps {})) _ = .ok (1, _) from rfl)).trans ?_
    have hu : usizeSub m (binSize topic + 1 + payload.length) (binSize topic + optSize (fun _ => 2) (none : Option UInt16) + 1) =
        .ok payload.length := by
      unfold usizeSub
      rw [if_pos (by simp [optSize])]
      simp only [optSize, Res.ok.injEq]
      omega
    rw [hu]
    refine (Dec.bind_ok (show liftRes (Res.ok payload.length) _ = .ok (_, _) from rfl)).trans ?_
    rw [Dec.of_apply, if_neg (by simp)]
    simp
    decide
  · refine (parse_publish m .v5 _ (show UInt8.ofNat 0x30 >>> 4 = 3 by decide) _).trans (Dec.bind_err ?_)
    have hl' : (Packet3.publish false .atMostOnce false topic none []).body.length < 2 ^ 28 := by
      simp [Packet3.body] at hl ⊢; omega
    have hv := decodeVbi_encode m _ hl' (Packet3.publish false .atMostOnce false topic none []).body
    rw [encodeVbi_eq_vbi (by omega)] at hv
    have hb : (Packet3.publish false .atMostOnce false topic none []).body = encodeStr topic ++ [] := by
      rw [hf]; simp [Packet3.body]
    rw [decodePublish_def]
    refine (Dec.bind_ok (show getU8 _ = .ok (_, _) from rfl)).trans ?_
    refine (Dec.bind_ok hv).trans ?_
    rw [hb, Dec.bind_ok (decodeStr_text ht _)]
    have hq0 : QoS.ofU8 ((UInt8.ofNat 0x30 &&& 6) >>> 1) = .atMostOnce := by decide
    rw [hq0]
    refine (Dec.bind_ok (show decodePublishId .atMostOnce [] = .ok (none, []) from rfl)).trans (Dec.bind_err ?_)
    cases m <;> rfl

theorem entries_refused {α : Type} {m : Mode} {d : Dec α} {b : Buf} (hb : b ≠ []) (n : Nat)
    (hd : d b = .err (.mqtt .malformedPacket)) :
    decodeEntries m n n d b = .err (.mqtt .malformedPacket) := by
  have hl : b.length ≠ 0 := by simpa using hb
  obtain ⟨k, hk⟩ := Nat.exists_eq_succ_of_ne_zero hl
  rw [decodeEntries]
  refine (Dec.bind_ok (show remaining b = .ok (b.length, b) from rfl)).trans ?_
  rw [if_neg hl]
  have hu : usizeSub m n n = .ok 0 := by
    unfold usizeSub
    rw [if_pos (Nat.le_refl n), Nat.sub_self]
  rw [hu, Dec.bind_ok (show liftRes (Res.ok 0) b = .ok (0, b) from rfl)]
  rw [payloadList, hk, payloadLoop, if_pos (by omega), hd]

theorem decodeStr_short {a b : UInt8} {bs : Buf} (h : bs.length < a.toNat * 256) :
    decodeStr (a :: b :: bs) = .err (.mqtt .malformedPacket) := by
  have h' : bs.length < a.toNat * 256 + b.toNat := Nat.lt_of_lt_of_le h (Nat.le_add_right _ _)
  unfold decodeStr
  exact if_pos h'

/-- The length of a filter is taken for the length of the properties, and what follows for a filter that
does not fit. -/
theorem subscribing_refused {m : Mode} {c : UInt8} {id : UInt16} {f : Str} (hf : f ≠ []) (rest : Buf)
    (hl : (be16 id.toNat ++ (field f ++ rest)).length ≤ 256) {P α β : Type} (dp : Dec P) (de : Dec α) (g : UInt16 → P → List α → β)
    (q : P) (hp : ∀ b, dp (0 :: b) = .ok (q, b)) (hd : ∀ b, decodeStr b = .err (.mqtt .malformedPacket) →
      de b = .err (.mqtt .malformedPacket)) :
    (do
      advance1
      let remainingLen ← decodeVbi m
      let bufferLen ← remaining
      let packetId ← decodeU16
      let properties ← dp
      let payload ← decodeEntries m bufferLen remainingLen de
      return g packetId properties payload : Dec β)
      (c :: (vbi (be16 id.toNat ++ (field f ++ rest)).length ++ (be16 id.toNat ++ (field f ++ rest)))) =
      .err (.mqtt .malformedPacket) := by
  obtain ⟨a, f', rfl⟩ := List.exists_cons_of_ne_nil hf
  have hl' : (a :: f').length + rest.length ≤ 252 := by
    simp only [be16, field, List.length_append, List.length_cons, List.length_nil] at hl ⊢; omega
  have hv := decodeVbi_encode m _ (Nat.lt_of_le_of_lt hl (by decide)) (be16 id.toNat ++ (field (a :: f') ++ rest))
  rw [encodeVbi_eq_vbi (by omega)] at hv
  refine (Dec.bind_ok (show advance1 (c :: _) = .ok ((), _) from rfl)).trans ?_
  rw [Dec.bind_ok hv]
  refine (Dec.bind_ok (show remaining _ = .ok (_, _) from rfl)).trans ?_
  have h16 := decodeU16_encode id (field (a :: f') ++ rest)
  rw [encodeU16_be] at h16
  rw [Dec.bind_ok h16]
  have hfield : field (a :: f') ++ rest = 0 :: (UInt8.ofNat (a :: f').length :: a :: (f' ++ rest)) := by
    unfold field
    rw [Nat.div_eq_of_lt (by omega), Nat.mod_eq_of_lt (by omega)]
    rfl
  rw [hfield, Dec.bind_ok (hp _)]
  have hs : decodeStr (UInt8.ofNat (a :: f').length :: a :: (f' ++ rest)) = .err (.mqtt .malformedPacket) := by
    apply decodeStr_short
    rw [UInt8.toNat_ofNat', Nat.mod_eq_of_lt (by omega)]
    simp only [List.length_append, List.length_cons] at hl' ⊢
    omega
  have he := entries_refused (m := m) (by simp) (be16 id.toNat ++ 0 :: UInt8.ofNat (a :: f').length :: a :: (f' ++ rest)).length
    (hd _ hs)
  exact Dec.bind_err he

/-- C76 is false for SUBSCRIBE and UNSUBSCRIBE: those of up to 256 bytes are refused as malformed, whatever
the filters, so that the connection is closed. -/
theorem C76_subscribe_false (m : Mode) (id : UInt16) :
    (∀ fs, (Packet3.subscribe id fs).Legal → (Packet3.subscribe id fs).body.length ≤ 256 →
      parse m (Packet3.subscribe id fs).bytes = .err (.mqtt .malformedPacket)) ∧
    (∀ fs, (Packet3.unsubscribe id fs).Legal → (Packet3.unsubscribe id fs).body.length ≤ 256 →
      parse m (Packet3.unsubscribe id fs).bytes = .err (.mqtt .malformedPacket)) := by
  constructor
  · rintro fs ⟨_, hne, hfs⟩ hl
    obtain ⟨f, fs, rfl⟩ := List.exists_cons_of_ne_nil hne
    have hb : (Packet3.subscribe id (f :: fs)).body = be16 id.toNat ++ (field f.1 ++
        ([UInt8.ofNat f.2.level] ++ fs.flatMap fun f => field f.1 ++ [UInt8.ofNat f.2.level])) := by
      simp [Packet3.body]
    rw [hb] at hl
    refine (parse_subscribe m .v5 _).trans ?_
    have := subscribing_refused (m := m) (c := UInt8.ofNat 0x82) (hfs f (by simp)).1 _ hl (decodeSubscribeProperties m) decodeSubscribePayload
      (fun i q es => ({ packetId := i, properties := some q, payload := es } : SubscribePacket)) {}
      (by intro b; cases m <;> rfl) (by
        intro b h
        rw [decodeSubscribePayload]
        exact Dec.bind_err h)
    rw [hb]
    exact Dec.bind_err this
  · rintro fs ⟨_, hne, hfs⟩ hl
    obtain ⟨f, fs, rfl⟩ := List.exists_cons_of_ne_nil hne
    have hb : (Packet3.unsubscribe id (f :: fs)).body = be16 id.toNat ++ (field f ++ fs.flatMap field) := by
      simp [Packet3.body]
    rw [hb] at hl
    refine (parse_unsubscribe m .v5 _).trans ?_
    have := subscribing_refused (m := m) (c := UInt8.ofNat 0xa2) (hfs f (by simp)).1 _ hl (decodeUnsubscribeProperties m) decodeStr
      (fun i q es => ({ packetId := i, properties := some q, payload := es } : UnsubscribePacket)) {}
      (by intro b; cases m <;> rfl) (fun b h => h)
    rw [hb]
    exact Dec.bind_err this

/-! ## To the client -/

/-- C76 (partial): a client of version 3.1 or 3.1.1 is answered in its own version: the CONNACK (of an admitted
or a refused client) and the answers to packets after it are legal 3.1.1 packets that say what the server
means.  Missing, because it is false: messages, and SUBACKs for filters that are refused. -/
theorem C76_answers_partial :
    (∀ p : ConnectPacket, p.protocolVersion ≠ .v5 → ∀ uuid present, ∃ x : Packet3, x.Legal ∧
      x.Means (.connAck (connAckOf p uuid present)) ∧ (Packet.connAck (connAckOf p uuid present)).encode = .ok x.bytes) ∧
    (∀ p : ConnectPacket, p.protocolVersion ≠ .v5 → ∃ x : Packet3, x.Legal ∧ x.Means (refusal p) ∧ (refusal p).encode = .ok x.bytes) ∧
    (∀ (s : Session) (w : World) (mgr : Option AuthManager) (c : Nat) (p : Packet) (r : Packet),
      s.connect.protocolVersion ≠ .v5 → (s.processIncoming w mgr c p).result = .ok (some r) →
      (∀ a, p ≠ .auth a) → (∀ d, p ≠ .disconnect d) →
      (∀ q, p = .subscribe q → q.payload ≠ [] ∧ q.payload.length < 2 ^ 27 ∧ ∀ e ∈ q.payload, ValidFilter e.topicFilter) →
      ∃ x : Packet3, x.Legal ∧ x.Means r ∧ r.encode = .ok x.bytes) := by
  have ack : ∀ (id : UInt16) (h : UInt8), AckPacket.encode h { packetId := id } = .ok (h :: (vbi (be16 id.toNat).length ++ be16 id.toNat)) := by
    intro id h
    exact congrArg Res.ok (frame_eq (h := h) (n := 2) (body := be16 id.toNat) rfl (by show 2 < 2 ^ 28; decide))
  have sp : ∀ {v : ProtocolVersion}, v ≠ .v5 → v.supportsProperties = false := by
    intro v hv; cases v <;> first | rfl | exact absurd rfl hv
  have connack : ∀ (v : ProtocolVersion) (present : Bool) (r : ReasonCode) (props : Option ConnAckProperties) (code : UInt8), v ≠ .v5 →
      connAckReturnCode r = code → (Packet.connAck ⟨v, present, r, props⟩).encode = .ok (Packet3.connAck present code).bytes := by
    intro v present r props code hv hc
    show ConnAckPacket.encode _ = _
    simp only [ConnAckPacket.encode_def, sp hv, Bool.false_eq_true, if_false, hc]
    refine congrArg Res.ok ((frame_eq (h := 0x20) (n := 2) (body := [0x01 &&& (if present then 1 else 0), code]) rfl
      (by show 2 < 2 ^ 28; decide)).trans ?_)
    cases present <;> rfl
  refine ⟨?_, ?_, ?_⟩
  · intro p hv uuid present
    exact ⟨.connAck present 0, ⟨by show 2 < 2 ^ 28; decide, by decide, fun _ => rfl⟩, ⟨rfl, rfl⟩, connack _ _ _ _ _ hv rfl⟩
  · intro p hv
    exact ⟨.connAck false 4, ⟨by show 2 < 2 ^ 28; decide, by decide, by simp⟩, ⟨rfl, rfl⟩, connack _ _ _ _ _ hv rfl⟩
  · intro s w mgr c p r hv hr hna hnd hsub
    have hsv := sp hv
    cases p with
    | publish p =>
      simp only [Session.processIncoming, Session.handlePublish] at hr
      split at hr
      · cases hr
      · simp only [Session.publishResponse] at hr
        split at hr <;> cases hr
        · exact ⟨.pubAck _, ⟨by show 2 < 2 ^ 28; decide, trivial⟩, rfl, ack _ _⟩
        · exact ⟨.pubRec _, ⟨by show 2 < 2 ^ 28; decide, trivial⟩, rfl, ack _ _⟩
    | pubAck p => simp [Session.processIncoming, Session.handlePubAck] at hr
    | pubComp p => simp [Session.processIncoming, Session.handlePubComp] at hr
    | pubRec p =>
      simp only [Session.processIncoming, Session.handlePubRec] at hr; cases hr
      exact ⟨.pubRel _, ⟨by show 2 < 2 ^ 28; decide, trivial⟩, rfl, ack _ _⟩
    | pubRel p =>
      simp only [Session.processIncoming, Session.handlePubRel] at hr; cases hr
      exact ⟨.pubComp _, ⟨by show 2 < 2 ^ 28; decide, trivial⟩, rfl, ack _ _⟩
    | subscribe p =>
      obtain ⟨hne, hlen, hval⟩ := hsub p rfl
      simp only [Session.processIncoming, Session.handleSubscribe] at hr
      cases hr
      have hcodes : ∀ (fs : List Str) (s : Session) (w : World), (∀ f ∈ fs, ValidFilter f) →
          (s.subscribeLoop w fs).2.2 = List.replicate fs.length .grantedQoS0 := by
        intro fs
        induction fs with
        | nil => intro s w _; rfl
        | cons f fs ih =>
          intro s w h
          have hf : validateSubscribeFilter f = .ok () := (C23_filter_iff f).mpr (h f (by simp))
          simp only [Session.subscribeLoop, hf]
          rw [ih _ _ (fun g hg => h g (by simp [hg]))]
          rfl
      rw [hcodes _ _ _ (by simpa using hval), List.length_map]
      refine ⟨.subAck p.packetId (List.replicate p.payload.length 0), ⟨?_, ?_, ?_⟩, ⟨rfl, by simp [Packet3.subscribeCode]⟩, ?_⟩
      · simp [Packet3.body, be16]; omega
      · simpa using hne
      · intro c hc; rw [List.mem_replicate] at hc; simp [hc.2]
      · show SubAckPacket.encode _ = _
        simp only [SubAckPacket.encode_def, hsv, Bool.false_eq_true, if_false]
        have e : encodeU16 p.packetId ++ [] ++ List.flatMap encodeReason (List.replicate p.payload.length ReasonCode.grantedQoS0) =
            be16 p.packetId.toNat ++ List.replicate p.payload.length 0 := by
          rw [List.append_nil, encodeU16_be]
          congr 1
          generalize p.payload.length = n
          induction n with
          | zero => rfl
          | succ n ih => rw [List.replicate_succ, List.flatMap_cons, ih]; rfl
        refine congrArg Res.ok ?_
        rw [e, frame_eq]
        · rfl
        · simp [be16]; omega
        · simp [be16]; omega
    | unsubscribe p =>
      simp only [Session.processIncoming, Session.handleUnsubscribe] at hr
      cases hr
      refine ⟨.unsubAck p.packetId, ⟨by show 2 < 2 ^ 28; decide, trivial⟩, rfl, ?_⟩
      show UnsubAckPacket.encode _ = _
      simp only [UnsubAckPacket.encode_def, hsv, Bool.false_eq_true, if_false]
      exact congrArg Res.ok (frame_eq (h := 0xb0) (n := 2) (body := be16 p.packetId.toNat) rfl (by show 2 < 2 ^ 28; decide))
    | pingReq =>
      simp only [Session.processIncoming] at hr; cases hr
      refine ⟨.pingResp, ⟨by show 0 < 2 ^ 28; decide, trivial⟩, trivial, ?_⟩
      show Res.ok (0xd0 :: encodeVbi 0) = Res.ok (UInt8.ofNat 0xd0 :: (vbi 0 ++ []))
      rw [encodeVbi_eq_vbi (by decide), List.append_nil]; rfl
    | auth a => exact absurd rfl (hna a)
    | disconnect d => exact absurd rfl (hnd d)
    | connect _ => simp [Session.processIncoming] at hr
    | connAck _ => simp [Session.processIncoming] at hr
    | subAck _ => simp [Session.processIncoming] at hr
    | unsubAck _ => simp [Session.processIncoming] at hr
    | pingResp => simp [Session.processIncoming] at hr

/-- C76 is false for the messages sent to a client: the packet it is sent says, in its version, a payload
with one more byte in front of the one published. -/
theorem C76_message_false (p : PublishPacket) (hp : p.properties = none) (ht : TextField p.topicName) (hq : p.qos ≠ .invalid)
    (hi : p.packetId.isSome ↔ p.qos ≠ .atMostOnce) (hl : p.topicName.length + (p.payload.getD []).length < 2 ^ 28 - 5) :
    let x := Packet3.publish p.dup p.qos p.retain p.topicName p.packetId (0 :: p.payload.getD [])
    x.Legal ∧ ¬ x.Means (.publish p) ∧ (Packet.publish p).encode = .ok x.bytes := by
  intro x
  have hbody : x.body = encodeStr p.topicName ++ encodeOpt encodeU16 p.packetId ++ encodeBlock [] ++ encodeOpt (fun b => b) p.payload := by
    rw [encodeStr_field ht]
    have h2 : (p.payload.getD [] : Buf) = encodeOpt (fun b => b) p.payload := by cases p.payload <;> rfl
    have h3 : encodeBlock [] = [0] := rfl
    rw [← h2, h3]
    show field p.topicName ++ _ ++ _ = _
    cases p.packetId with
    | none => simp [encodeOpt]
    | some i => simp [encodeOpt, encodeU16_be]
  have hlen : x.body.length = binSize p.topicName + optSize (fun _ => 2) p.packetId + 1 + optSize List.length p.payload := by
    show (field p.topicName ++ _ ++ _).length = _
    cases p.packetId <;> cases p.payload <;> simp [field, binSize, optSize, be16] <;> omega
  have hlt : x.body.length < 2 ^ 28 := by
    rw [hlen]
    cases hid : p.packetId <;> cases hpl : p.payload <;> rw [hpl] at hl <;> simp [binSize, optSize] at hl ⊢ <;> omega
  refine ⟨⟨hlt, ht, hq, hi⟩, ?_, ?_⟩
  · rintro ⟨_, _, _, _, _, _, h⟩
    exact absurd (congrArg List.length h) (by simp)
  · show PublishPacket.encode p = _
    simp only [PublishPacket.encode_def, hp, optProps]
    refine congrArg Res.ok ?_
    rw [← hbody, frame_eq (by rw [hlen]; rfl) hlt]
    have : p.header = UInt8.ofNat x.first := by
      show p.header = UInt8.ofNat (0x30 + (if p.dup then 8 else 0) + 2 * p.qos.level + (if p.retain then 1 else 0))
      unfold PublishPacket.header
      cases p.dup <;> cases p.retain <;> cases h : p.qos <;> first | rfl | exact absurd h hq
    rw [this]; rfl

/-- C76 is false for filters that are refused: the SUBACK says a code that 3.1.1 does not have. -/
theorem C76_refused_filter_false (s : Session) (w : World) (mgr : Option AuthManager) (c : Nat) (id : UInt16) (f : Str) (o : SubscriptionOptions)
    (hv : s.connect.protocolVersion ≠ .v5) (hf : ¬ ValidFilter f) :
    ∃ r, (s.processIncoming w mgr c (.subscribe ⟨id, none, [⟨f, o⟩]⟩)).result = .ok (some r) ∧
      ∀ x : Packet3, x.Legal → r.encode ≠ .ok x.bytes := by
  have hbad : ∃ e, validateSubscribeFilter f = .error e := by
    cases h : validateSubscribeFilter f with
    | error e => exact ⟨e, rfl⟩
    | ok u => exact absurd ((C23_filter_iff f).mp h) hf
  obtain ⟨e, he⟩ := hbad
  refine ⟨.subAck { protocolVersion := s.connect.protocolVersion, packetId := id, payload := [.topicFilterInvalid] }, ?_, ?_⟩
  · simp only [Session.processIncoming, Session.handleSubscribe, List.map, Session.subscribeLoop, he]
  · intro x hx h
    have hsv : s.connect.protocolVersion.supportsProperties = false := by
      cases hh : s.connect.protocolVersion <;> first | rfl | exact absurd hh hv
    have h1 : (Packet.subAck { protocolVersion := s.connect.protocolVersion, packetId := id, payload := [.topicFilterInvalid] }).encode =
        .ok (0x90 :: 3 :: (be16 id.toNat ++ [0x8f])) := by
      show SubAckPacket.encode _ = _
      simp only [SubAckPacket.encode_def, hsv, Bool.false_eq_true, if_false]
      rfl
    rw [h1] at h
    have h2 := Res.ok.inj h
    cases x with
    | subAck id' codes =>
      obtain ⟨hl, hne, hc⟩ := hx
      have h3 : 3 :: (be16 id.toNat ++ [0x8f]) = vbi (be16 id'.toNat ++ codes).length ++ (be16 id'.toNat ++ codes) := (List.cons.inj h2).2
      have hdec := decodeVbi_encode .release _ hl (be16 id'.toNat ++ codes)
      rw [encodeVbi_eq_vbi (by omega)] at hdec
      have hdec' : decodeVbi .release (vbi (be16 id'.toNat ++ codes).length ++ (be16 id'.toNat ++ codes)) = .ok (3, be16 id.toNat ++ [0x8f]) := by
        rw [← h3]; rfl
      have h4 := Res.ok.inj (hdec'.symm.trans hdec)
      have h5 := (Prod.mk.inj h4).2
      have h6 : codes = [0x8f] := by
        have := congrArg (List.drop 2) h5
        simpa [be16] using this.symm
      have := hc 0x8f (by rw [h6]; simp)
      exact absurd this (by decide)
    | publish dup qos retain t i pl =>
      have h3 : (0x90 : UInt8) = UInt8.ofNat (0x30 + (if dup then 8 else 0) + 2 * qos.level + (if retain then 1 else 0)) := (List.cons.inj h2).1
      revert h3
      cases dup <;> cases qos <;> cases retain <;> decide
    | _ =>
      have h3 := congrArg UInt8.toNat (List.cons.inj h2).1
      simp [Packet3.first] at h3

/-- A 3.1.1 client with identifier `d`, and its packets. -/
example : let p : ConnectPacket := ⟨.v3_1_1, { cleanStart := true }, 60, none, { clientId := str "d" }⟩
    p.protocolVersion ≠ .v5 ∧ parse .release (0x10 :: 13 :: (field (str "MQTT") ++ [4, 2, 0, 60] ++ field (str "d"))) = .ok (.connect p, []) := by
  decide +kernel
example : (Packet3.publish false .atLeastOnce true (str "a/b") (some 7) (str "hello")).Legal ∧
    (Packet3.subscribe 1 [(str "a/+", .exactlyOnce), (str "#", .atMostOnce)]).Legal ∧
    (Packet3.publish false .atMostOnce false (str "a") none (0 :: str "hello")).Legal ∧ ¬ ValidFilter (str "a#") := by
  have t : ∀ s : Str, utf8Valid s = true → s.length < 65536 → TextField s := fun s h1 h2 => ⟨(utf8Valid_iff _).mp h1, Nat.le_of_lt_succ h2⟩
  refine ⟨⟨by decide +kernel, t _ (by decide +kernel) (by decide +kernel), by decide, by decide⟩, ⟨by decide +kernel, by simp, ?_⟩,
    ⟨by decide +kernel, t _ (by decide +kernel) (by decide +kernel), by decide, by decide⟩, ?_⟩
  · intro f hf
    simp only [List.mem_cons, List.not_mem_nil, or_false] at hf
    rcases hf with rfl | rfl
    · exact ⟨by decide +kernel, t _ (by decide +kernel) (by decide +kernel), by decide⟩
    · exact ⟨by decide +kernel, t _ (by decide +kernel) (by decide +kernel), by decide⟩
  · intro h
    exact absurd ((C23_filter_iff _).mpr h) (by decide +kernel)

end Mercurio
