import Verif.Spec.Client5
import Verif.Props.V5
import Verif.Props.V3
import Verif.Lemmas.SysClient
import Verif.Model.System

/-! # C131: what the client sends is legal -/

namespace Mercurio

open Spec

/-! ## Bytes -/

theorem request_of {x : Request5} {p : Packet} {b : Buf} {h : UInt8} {body : Buf} (he : p.encode = .ok b)
    (hf : b = frame h body.length body) (hh : h = UInt8.ofNat x.first) (hb : body = x.body) (hl : x.body.length < 2 ^ 28) :
    p.encode = .ok x.bytes := by
  rw [he, hf, hb, frame_eq rfl hl, hh]; rfl

theorem request_inj {x : Request5} {h : UInt8} {body : Buf} (hx : x.body.length < 2 ^ 28) (hb : body.length < 2 ^ 28)
    (e : x.bytes = h :: (vbi body.length ++ body)) : UInt8.ofNat x.first = h ∧ x.body = body := by
  unfold Request5.bytes at e
  rw [List.cons.injEq] at e
  exact ⟨e.1, (vbi_append_inj hx hb e.2).2⟩

theorem subscribe_request (id : UInt16) (ts : List (Str × QoS)) (ht : ∀ t ∈ ts, TextField t.1 ∧ t.2 ≠ .invalid)
    (hl : (ts.map fun t => t.1.length + 3).sum + 3 < 2 ^ 28) :
    let x := Request5.subscribe id [] (ts.map fun t => (t.1, UInt8.ofNat t.2.level))
    let p : SubscribePacket := ⟨id, none, ts.map fun t => ⟨t.1, { qos := t.2 }⟩⟩
    x.body.length < 2 ^ 28 ∧ (Packet.subscribe p).encode = .ok x.bytes := by
  intro x p
  have hlt : x.body.length < 2 ^ 28 := by
    show (be16 _ ++ Packet5.propertyBlock [] ++ _).length < _
    rw [propertyBlock_nil]
    have : ((ts.map fun t => (t.1, UInt8.ofNat t.2.level)).flatMap fun f : Str × UInt8 => field f.1 ++ [f.2]).length =
        (ts.map fun t => t.1.length + 3).sum := by
      rw [List.flatMap_map, List.length_flatMap]
      exact congrArg List.sum (List.map_congr_left fun t _ => by simp [field])
    simp only [List.length_append, this, be16, List.length_cons, List.length_nil]
    omega
  refine ⟨hlt, ?_⟩
  obtain ⟨b, hb, _⟩ := fits_subscribe p rfl (by
    show ((ts.map _).map _).sum + 3 < _
    rw [List.map_map]
    exact hl)
  refine request_of hb (SubscribePacket.encode_inv hb) rfl ?_ hlt
  show encodeU16 id ++ encodeBlock [] ++ (ts.map _).flatMap _ = be16 id.toNat ++ Packet5.propertyBlock [] ++ (ts.map _).flatMap _
  rw [propertyBlock_nil, List.flatMap_map, List.flatMap_map]
  congr 1
  apply List.flatMap_congr
  rintro ⟨f, q⟩ h
  obtain ⟨h1, h2⟩ := ht _ h
  show encodeStr f ++ _ = _
  rw [encodeStr_field h1]
  have hb : ({ qos := q } : SubscriptionOptions).toByte = UInt8.ofNat q.level := by
    cases q <;> first | decide | exact absurd rfl h2
  exact congrArg (fun b => field f ++ [b]) hb

theorem unsubscribe_request (id : UInt16) (ts : List Str) (ht : ∀ t ∈ ts, TextField t)
    (hl : (ts.map fun t => t.length + 2).sum + 3 < 2 ^ 28) :
    let x := Request5.unsubscribe id [] ts
    x.body.length < 2 ^ 28 ∧ (Packet.unsubscribe ⟨id, none, ts⟩).encode = .ok x.bytes := by
  intro x
  have hlt : x.body.length < 2 ^ 28 := by
    show (be16 _ ++ Packet5.propertyBlock [] ++ _).length < _
    rw [propertyBlock_nil]
    have : (ts.flatMap field).length = (ts.map fun t => t.length + 2).sum := by
      rw [List.length_flatMap]
      exact congrArg List.sum (List.map_congr_left fun t _ => by simp [field])
    simp only [List.length_append, this, be16, List.length_cons, List.length_nil]
    omega
  refine ⟨hlt, ?_⟩
  obtain ⟨b, hb, _⟩ := fits_unsubscribe ⟨id, none, ts⟩ rfl hl
  refine request_of hb (UnsubscribePacket.encode_inv hb) rfl ?_ hlt
  show encodeU16 id ++ encodeBlock [] ++ ts.flatMap _ = be16 id.toNat ++ Packet5.propertyBlock [] ++ ts.flatMap _
  rw [propertyBlock_nil]
  congr 1
  apply List.flatMap_congr
  intro t h
  exact encodeStr_field (ht t h)

theorem publish_request (p : PublishPacket) (hp : p.properties = none) (ht : TextField p.topicName) (hq : p.qos ≠ .invalid)
    (hl : (p.payload.getD []).length + 65545 ≤ 2 ^ 28) :
    let x := Request5.publish p.dup p.qos p.retain p.topicName p.packetId [] (p.payload.getD [])
    x.body.length < 2 ^ 28 ∧ (Packet.publish p).encode = .ok x.bytes := by
  obtain ⟨a, _, c⟩ := publish5 p hp ht hq hl
  exact ⟨a, c⟩

/-! ## CONNECT -/

theorem flags_byte (u p r c : Bool) (q : QoS) (hq : q ≠ .invalid) :
    ({ userName := u, password := p, willRetain := r, willQos := q, willFlag := true, cleanStart := c } : ConnectFlags).toByte =
      UInt8.ofNat (128 * bit u + 64 * bit p + (32 * bit r + 8 * q.level + 4) + 2 * bit c) ∧
    ({ userName := u, password := p, willRetain := false, willQos := .atMostOnce, willFlag := false, cleanStart := c } : ConnectFlags).toByte =
      UInt8.ofNat (128 * bit u + 64 * bit p + 0 + 2 * bit c) := by
  constructor
  · cases q <;> cases u <;> cases p <;> cases r <;> cases c <;> first | decide | exact absurd rfl hq
  · cases u <;> cases p <;> cases c <;> decide

/-- C131: the CONNECT a client sends, in any of the three versions, is the legal packet which says what the
options say. -/
theorem C131_connect (o : ConnectOptions) (ho : LegalOptions o) :
    (connectFor o).Legal ∧ (Packet.connect (buildConnect o)).encode = .ok (connectFor o).bytes := by
  have ha : o.Admissible :=
    ⟨fun s h => by have := ho.id.1; rwa [h] at this, fun s h => (ho.user s h).1, ho.password,
      fun w h => ⟨(ho.will w h).1, (ho.will w h).2.2⟩⟩
  obtain ⟨b, hb, hf⟩ := buildConnect_encode_ok o ha
  have hbody : (buildConnect o).body = (connectFor o).body := by
    rw [ConnectPacket.body_eq]
    have e1 : encodeStr (buildConnect o).payload.clientId = field (o.clientId.getD []) := encodeStr_field ho.id.1
    have e2 : (if (buildConnect o).flags.userName then encodeOpt encodeStr (buildConnect o).payload.userName else []) =
        Request5.optField o.username := by
      cases h : o.username with
      | none => simp [buildConnect, h, Request5.optField]
      | some u => simpa [buildConnect, h, encodeOpt, Request5.optField] using encodeStr_field (ho.user u h).1
    have e3 : (if (buildConnect o).flags.password then encodeOpt encodeBin (buildConnect o).payload.password else []) =
        Request5.optField o.password := by
      cases h : o.password with
      | none => simp [buildConnect, h, Request5.optField]
      | some u => simpa [buildConnect, h, encodeOpt, Request5.optField] using encodeBin_field (ho.password u h)
    have e4 : encodeStr (buildConnect o).protocolVersion.name ++ encodeU8 (buildConnect o).protocolVersion.level =
        protocolOf o.protocolVersion := by
      show encodeStr o.protocolVersion.name ++ encodeU8 o.protocolVersion.level = _
      cases o.protocolVersion <;> decide
    have e5 : encodeU16 (buildConnect o).keepalive = be16 o.keepAlive.toNat := rfl
    have e6 : (if (buildConnect o).protocolVersion.supportsProperties then
          encodeBlock (optProps ConnectProperties.toProps (buildConnect o).properties) else []) =
        Request5.blockIn o.protocolVersion [] := by
      show (if o.protocolVersion.supportsProperties then encodeBlock [] else []) = _
      unfold Request5.blockIn
      rw [propertyBlock_nil]
      cases o.protocolVersion <;> decide
    have e7 : (if (buildConnect o).flags.willFlag && (buildConnect o).protocolVersion.supportsProperties then
          encodeBlock (optProps WillProperties.toProps (buildConnect o).payload.willProperties) else []) ++
        ((if (buildConnect o).flags.willFlag then encodeOpt encodeStr (buildConnect o).payload.willTopic else []) ++
          (if (buildConnect o).flags.willFlag then encodeOpt encodeBin (buildConnect o).payload.willPayload else [])) =
        Request5.willBytes o.protocolVersion (o.will.map fun w => ⟨[], w.topic, w.payload, w.qos, w.retain⟩) := by
      cases h : o.will with
      | none => simp [buildConnect, h, Request5.willBytes]
      | some w =>
        obtain ⟨h1, _, h2, _⟩ := ho.will w h
        have : (if o.protocolVersion.supportsProperties then encodeBlock [] else []) = Request5.blockIn o.protocolVersion [] := by
          unfold Request5.blockIn
          rw [propertyBlock_nil]
          cases o.protocolVersion <;> decide
        simp only [buildConnect, h, Option.map_some, Option.isSome_some, Bool.true_and, if_true, encodeOpt,
          encodeStr_field h1, encodeBin_field h2]
        rw [← List.append_assoc, Request5.willBytes, ← this]
        rfl
    have e8 : (buildConnect o).flags.toByte =
        UInt8.ofNat (Request5.flags o.cleanStart (o.will.map fun w => (⟨[], w.topic, w.payload, w.qos, w.retain⟩ : Testament))
          o.username o.password) := by
      cases h : o.will with
      | none => simpa [buildConnect, h, Request5.flags] using (flags_byte o.username.isSome o.password.isSome false o.cleanStart .atMostOnce (by decide)).2
      | some w =>
        simpa [buildConnect, h, Request5.flags] using
          (flags_byte o.username.isSome o.password.isSome w.retain o.cleanStart w.qos (ho.will w h).2.2.2).1
    rw [e1, e2, e3, e5, e6, e8]
    show _ = protocolOf o.protocolVersion ++ _ ++ _ ++ _ ++ _ ++ _ ++ _ ++ _
    rw [← e4, ← e7]
    simp only [List.append_assoc]
  have hinv := (ConnectPacket.encode_inv hb).1
  have hlt : (connectFor o).body.length < 2 ^ 28 := by
    have hfl : ∀ s : Buf, s.length ≤ 65535 → (field s).length ≤ 65537 := by
      intro s hs; simp only [field, List.length_cons]; omega
    have hbl : (Request5.blockIn o.protocolVersion []).length ≤ 1 := by
      unfold Request5.blockIn; rw [propertyBlock_nil]; split <;> simp
    have hpr : (protocolOf o.protocolVersion).length ≤ 10 := by cases o.protocolVersion <;> decide
    have hid := hfl _ ho.id.1.2
    have hus : (Request5.optField o.username).length ≤ 65537 := by
      cases h : o.username with
      | none => simp [Request5.optField]
      | some u => exact hfl _ (ho.user u h).1.2
    have hpw : (Request5.optField o.password).length ≤ 65537 := by
      cases h : o.password with
      | none => simp [Request5.optField]
      | some u => exact hfl _ (ho.password u h)
    have hwi : (Request5.willBytes o.protocolVersion (o.will.map fun w => ⟨[], w.topic, w.payload, w.qos, w.retain⟩)).length ≤ 131080 := by
      cases h : o.will with
      | none => simp [Request5.willBytes]
      | some w =>
        obtain ⟨h1, _, h2, _⟩ := ho.will w h
        have a := hfl _ h1.2
        have b := hfl _ h2
        simp only [Option.map_some, Request5.willBytes, List.length_append]
        omega
    show (protocolOf o.protocolVersion ++ [_] ++ be16 _ ++ Request5.blockIn _ _ ++ field _ ++ _ ++ _ ++ _).length < _
    rw [List.length_append, List.length_append, List.length_append, List.length_append, List.length_append,
      List.length_append, List.length_append]
    have : (be16 o.keepAlive.toNat).length = 2 := rfl
    simp only [List.length_singleton]
    omega
  refine ⟨⟨hlt, ho.id.1, ho.id.2, ho.user, ho.password, ?_, fun _ => legal_nil _ _, ho.old, ho.older⟩,
    request_of hb hinv rfl hbody hlt⟩
  intro w hw
  obtain ⟨w', h', rfl⟩ := Option.map_eq_some_iff.mp hw
  obtain ⟨h1, h2, h3, h4⟩ := ho.will w' h'
  exact ⟨h1, h2, h3, h4, legal_nil _ _⟩

example : LegalOptions exOptions :=
  ⟨⟨by decide, by decide⟩, (by intro u h; cases h; exact ⟨by decide, by decide⟩), (by intro u h; cases h; decide),
    (by
      intro w h
      cases h
      exact ⟨by decide, ⟨by decide, by decide, by decide, by decide, by decide⟩, by decide, by decide⟩),
    (by intro h; exact absurd rfl h), (by intro h; cases h)⟩

example : (connectFor { exOptions with protocolVersion := .v3_1_1 }).body =
    [0, 4, 77, 81, 84, 84, 4, 0xec, 0, 30, 0, 2, 99, 49, 0, 3, 119, 47, 116, 0, 1, 9, 0, 1, 117, 0, 2, 1, 2] := by
  decide +kernel

/-! ## After the CONNECT -/

theorem write_sent {p q : Packet} {ok : Bool} {c c' : Client} {r : CallResult} (h : (c.call p ok r).2.sent = some q) :
    q = p := by
  unfold Client.call at h
  split at h <;> first | (cases h; rfl) | cases h

/-- What one step sends. -/
theorem step_request (c : Client) (i : ClientIn) (hi : LegalInput i) (h0 : c.counter ≠ 0) (p : Packet)
    (hp : (c.step i).2.sent = some p) :
    ∃ x : Request5, x.Legal ∧ x.For i ∧ p.encode = .ok x.bytes := by
  unfold Client.step at hp
  split at hp
  · unfold Client.take at hp; split at hp <;> cases hp
  split at hp
  · cases hp
  split at hp
  · cases i with
    | read r ok =>
      cases r with
      | packet q =>
        change (c.incoming q ok).2.sent = some p at hp
        cases q with
        | publish q =>
          cases hq : q.qos <;> cases hid : q.packetId <;> simp only [Client.incoming, hq, hid] at hp <;> try cases hp
          rename_i id
          split at hp
          · cases hp
            obtain ⟨a, b⟩ := ack5 .pubAck 0x40 (fun _ => rfl) id (.pubAck id none)
              (by show be16 id.toNat ++ [] = _; rw [List.append_nil]) rfl
            refine ⟨.pubAck id none, ⟨a, ?_, trivial⟩, ⟨hq, hid, rfl⟩, b⟩
            intro h
            apply hi
            rw [hid, h]
          all_goals cases hp
        | _ => cases hp
      | _ => cases hp
    | publish t pl q r ok =>
      obtain ⟨h1, h2, h3, h4⟩ := hi
      have := write_sent (c' := c) (show (Client.call _ _ _ _).2.sent = some p from hp)
      subst this
      obtain ⟨a, b⟩ := publish_request ⟨false, q, r, t, if q ≠ .atMostOnce then some c.counter else none, none, some pl⟩
        rfl h1 h3 h4
      refine ⟨_, ⟨a, h1, h2.no_nul, h2.no_plus, h2.no_hash, fun h => absurd h h2.nonempty, h3, ?_, ?_, ?_, legal_nil _ _⟩,
        ⟨rfl, rfl, rfl, rfl, rfl, rfl⟩, b⟩
      · by_cases hq : q = .atMostOnce <;> simp [hq]
      · by_cases hq : q = .atMostOnce <;> simp [hq, h0]
      · intro h; cases h
    | subscribe ts ok =>
      obtain ⟨h1, h2, h3⟩ := hi
      have := write_sent (c' := c) (show (Client.call _ _ _ _).2.sent = some p from hp)
      subst this
      obtain ⟨a, b⟩ := subscribe_request c.counter ts (fun t h => ⟨(h2 t h).1, (h2 t h).2.2⟩) h3
      refine ⟨_, ⟨a, h0, legal_nil _ _, by simpa using h1, ?_⟩, ⟨rfl, rfl⟩, b⟩
      intro f hf
      obtain ⟨t, ht, rfl⟩ := List.mem_map.mp hf
      obtain ⟨g1, g2, g3⟩ := h2 t ht
      refine ⟨g1, g2, ?_⟩
      have : ∀ q : QoS, q ≠ .invalid → (UInt8.ofNat q.level).toNat % 4 ≤ 2 ∧ (UInt8.ofNat q.level).toNat / 16 ≤ 2 := by
        intro q hq
        cases q <;> first | decide | exact absurd rfl hq
      exact this t.2 g3
    | unsubscribe ts ok =>
      obtain ⟨h1, h2, h3⟩ := hi
      have := write_sent (c' := c) (show (Client.call _ _ _ _).2.sent = some p from hp)
      subst this
      obtain ⟨a, b⟩ := unsubscribe_request c.counter ts (fun t h => (h2 t h).1) h3
      exact ⟨_, ⟨a, h0, legal_nil _ _, h1, h2⟩, ⟨rfl, rfl⟩, b⟩
    | disconnect ok =>
      have := write_sent (c' := c) (show (Client.call _ _ _ _).2.sent = some p from hp)
      subst this
      have hb : (Request5.disconnect (some (0, none))).bytes = [0xe0, 1, 0] := by
        show UInt8.ofNat 0xe0 :: (vbi 1 ++ [0]) = _
        rw [short_vbi (by decide)]; rfl
      refine ⟨.disconnect (some (0, none)), ⟨by decide, by decide, legal_nil _ _⟩, rfl, ?_⟩
      rw [hb]; decide +kernel
    | tick ok =>
      have hb : Request5.pingReq.bytes = [0xc0, 0] := by
        show UInt8.ofNat 0xc0 :: (vbi 0 ++ []) = _
        rw [short_vbi (by decide)]; rfl
      simp only [Client.turn] at hp
      split at hp <;> cases hp
      refine ⟨.pingReq, ⟨by decide, trivial⟩, trivial, ?_⟩
      rw [hb]; decide +kernel
    | recv => cases hp
  · cases i <;> cases hp

/-- C131: what a client of MQTT 5 sends after its CONNECT is a legal packet each time: the one that says what
the call said, acknowledges the message received or pings; for all calls, all packets of the server and all
orders of them.  Missing: calls that ask for something illegal, which the client does not refuse
(`C131_wildcard_false`, `C131_empty_false`); more than 65535 turns (then identifier 0 is used, `C57_zero_false`);
clients of MQTT 3.1 and 3.1.1 (`C131_old_disconnect_false`, `C131_old_publish_false`, `C131_old_subscribe_false`). -/
theorem C131_legal_partial (is : List ClientIn) (hl : is.length ≤ 65535) (hi : ∀ i ∈ is, LegalInput i) (k : Nat)
    (i : ClientIn) (o : ClientOut) (hk : is[k]? = some i) (ho : (Client.run {} is).2[k]? = some o) (p : Packet)
    (hp : o.sent = some p) :
    ∃ x : Request5, x.Legal ∧ x.For i ∧ p.encode = .ok x.bytes := by
  have go : ∀ (is : List ClientIn) (c : Client), 0 < c.counter.toNat → c.counter.toNat + is.length ≤ 65536 →
      (∀ i ∈ is, LegalInput i) → ∀ (k : Nat) (i : ClientIn) (o : ClientOut), is[k]? = some i → (c.run is).2[k]? = some o →
      ∀ p : Packet, o.sent = some p → ∃ x : Request5, x.Legal ∧ x.For i ∧ p.encode = .ok x.bytes := by
    intro is
    induction is with
    | nil => intro c _ _ _ k i o hk; cases hk
    | cons j js ih =>
      intro c h0 hl hi k i o hk ho p hp
      cases k with
      | zero =>
        cases hk
        cases ho
        refine step_request c j (hi j (by simp)) ?_ p hp
        intro h; rw [h] at h0; exact absurd h0 (by decide)
      | succ k =>
        have hk' : js[k]? = some i := hk
        have hpos : 0 < js.length := by
          cases js with
          | nil => cases hk'
          | cons _ _ => simp
        simp only [List.length_cons] at hl
        refine ih (c.step j).1 ?_ ?_ (fun i h => hi i (by simp [h])) k i o hk' ho p hp
        · rcases c.step_counter j with ⟨h, _⟩ | ⟨h, _⟩ <;> rw [h]
          · exact h0
          · rw [UInt16.toNat_add]; show 0 < (c.counter.toNat + 1) % 65536; omega
        · rcases c.step_counter j with ⟨h, _⟩ | ⟨h, _⟩ <;> rw [h]
          · omega
          · rw [UInt16.toNat_add]; show (c.counter.toNat + 1) % 65536 + _ ≤ _; omega
  exact go is {} (by decide) (by show 1 + _ ≤ _; omega) hi k i o hk ho p hp

theorem stopped_silent (is : List ClientIn) : ∀ (c : Client), c.running = false → ∀ o ∈ (c.run is).2, o.sent = none := by
  induction is with
  | nil => intro c _ o ho; cases ho
  | cons i is ih =>
    intro c hc o ho
    have h : (c.step i).2.sent = none ∧ (c.step i).1.running = false := by
      unfold Client.step
      split
      · unfold Client.take; split <;> exact ⟨rfl, hc⟩
      split
      · exact ⟨rfl, hc⟩
      simp only [hc, Bool.false_eq_true, if_false]
      cases i <;> exact ⟨rfl, hc⟩
    rcases List.mem_cons.mp ho with rfl | ho
    · exact h.1
    · exact ih _ h.2 o ho

/-- C131: after a DISCONNECT the client sends nothing. -/
theorem C131_last (is js : List ClientIn) (ok : Bool) :
    ((Client.run {} is).1.step (.disconnect ok)).2.sent ≠ none →
    ∀ o ∈ (((Client.run {} is).1.step (.disconnect ok)).1.run js).2, o.sent = none := by
  intro h
  apply stopped_silent
  revert h
  generalize (Client.run {} is).1 = c
  unfold Client.step
  simp only [reduceCtorEq, if_false]
  split
  · intro h; exact absurd rfl h
  split
  · intro _; rfl
  · intro h; exact absurd rfl h

/-- What can happen to a client: two subscriptions, a message, a ping, a publication of each QoS, the end. -/
def exInputs : List ClientIn :=
  [.subscribe [(str "a/+", .atLeastOnce), (str "#", .exactlyOnce)] true,
   .read (.packet (.publish { qos := .atLeastOnce, topicName := str "a/b", packetId := some 7, payload := some [1] })) true,
   .tick true, .publish (str "t") [2] .atMostOnce true true, .publish (str "t") [3] .exactlyOnce false true,
   .unsubscribe [str "#"] true, .disconnect true, .tick true]

theorem exInputs_legal : ∀ i ∈ exInputs, LegalInput i := by
  have hf : ∀ s, validateSubscribeFilter s = .ok () → ValidFilter s := fun s h => (C23_filter_iff s).mp h
  intro i hi
  simp only [exInputs, List.mem_cons, List.not_mem_nil, or_false] at hi
  rcases hi with rfl | rfl | rfl | rfl | rfl | rfl | rfl | rfl
  · refine ⟨by decide, ?_, by decide⟩
    intro t ht
    simp only [List.mem_cons, List.not_mem_nil, or_false] at ht
    rcases ht with rfl | rfl
    · exact ⟨by decide, hf _ (by decide +kernel), by decide⟩
    · exact ⟨by decide, hf _ (by decide +kernel), by decide⟩
  · show (some 7 : Option UInt16) ≠ some 0; decide
  · trivial
  · exact ⟨by decide, ⟨by decide, by decide, by decide, by decide, by decide⟩, by decide, by decide⟩
  · exact ⟨by decide, ⟨by decide, by decide, by decide, by decide, by decide⟩, by decide, by decide⟩
  · refine ⟨by decide, ?_, by decide⟩
    intro t ht
    cases List.mem_singleton.mp ht
    exact ⟨by decide, hf _ (by decide +kernel)⟩
  · trivial
  · trivial

example : (Client.run {} exInputs).2.map (fun o => o.sent.map Packet.encode) =
  [some (.ok [0x82, 13, 0, 1, 0, 0, 3, 97, 47, 43, 1, 0, 1, 35, 2]), some (.ok [0x40, 2, 0, 7]), some (.ok [0xc0, 0]),
   some (.ok [0x31, 5, 0, 1, 116, 0, 2]), some (.ok [0x34, 7, 0, 1, 116, 0, 2, 0, 3]),
   some (.ok [0xa2, 6, 0, 3, 0, 0, 1, 35]), some (.ok [0xe0, 1, 0]), none] := by decide +kernel

/-! ## The stream of bytes -/

/-- The bytes written in one turn. -/
def written (o : ClientOut) : Buf :=
  match o.sent with
  | some q => match q.encode with
    | .ok b => b
    | _ => []
  | none => []

/-- What is known of a client in the system: it has written its CONNECT and what its turns have sent; every turn
was one of the event loop, whose counter has advanced by at most one per turn. -/
structure Diary (p : Peer) : Prop where
  wrote : ∃ b, (Packet.connect (buildConnect p.opts)).encode = .ok b ∧ p.wrote = b ++ p.history.flatMap fun e => written e.2
  turns : ∀ k (h : k < p.history.length), ∃ l : Client, p.history[k].2 = (l.step p.history[k].1).2 ∧
    (k < 65535 → 0 < l.counter.toNat ∧ l.counter.toNat ≤ k + 1)
  loop : ∀ l, p.phase = .connected l → p.history.length < 65535 → 0 < l.counter.toNat ∧ l.counter.toNat ≤ p.history.length + 1
  idle : (∀ l, p.phase ≠ .connected l) → p.history = []

theorem Diary.act {p : Peer} (h : Diary p) {l : Client} (hl : p.phase = .connected l) (i : ClientIn) : Diary (p.act l i) := by
  refine ⟨?_, ?_, ?_, fun hn => absurd rfl (hn _)⟩
  · obtain ⟨b, hb, hw⟩ := h.wrote
    refine ⟨b, hb, ?_⟩
    show p.wrote ++ written (l.step i).2 = b ++ (p.history ++ [(i, (l.step i).2)]).flatMap _
    rw [hw, List.flatMap_append, List.append_assoc]
    simp
  · intro k hk
    have hlen : (p.act l i).history.length = p.history.length + 1 := by
      show (p.history ++ [_]).length = _; simp
    by_cases hk' : k < p.history.length
    · have e : (p.act l i).history[k] = p.history[k] := List.getElem_append_left hk'
      rw [e]
      exact h.turns k hk'
    · have hke : k = p.history.length := by omega
      subst hke
      have e : (p.act l i).history[p.history.length] = (i, (l.step i).2) := by
        exact List.getElem_concat_length rfl _
      rw [e]
      exact ⟨l, rfl, fun hk => h.loop l hl hk⟩
  · intro l' hl' hk
    cases hl'
    have hlen : (p.act l i).history.length = p.history.length + 1 := by
      show (p.history ++ [_]).length = _; simp
    rw [hlen] at hk ⊢
    obtain ⟨h1, h2⟩ := h.loop l hl (by omega)
    rcases l.step_counter i with ⟨e, _⟩ | ⟨e, _⟩ <;> rw [e]
    · omega
    · rw [UInt16.toNat_add]; show 0 < (l.counter.toNat + 1) % 65536 ∧ (l.counter.toNat + 1) % 65536 ≤ _; omega

theorem Diary.receive {p : Peer} (h : Diary p) (r : ReadOut) (ok : Bool) : Diary (p.receive r ok) := by
  unfold Peer.receive
  split
  · rename_i hp
    have hi := h.idle (fun l hl => by rw [hp] at hl; cases hl)
    refine ⟨h.wrote, h.turns, ?_, fun _ => hi⟩
    intro l hl _
    have : l = {} := by
      simp only at hl
      split at hl <;> cases hl
      rfl
    subst this
    exact ⟨by decide, by show 1 ≤ _; omega⟩
  · rename_i l hp; exact h.act hp _
  · exact h

theorem Diary.buf {p : Peer} (h : Diary p) (b g : Buf) : Diary { p with buf := b, got := g } :=
  ⟨h.wrote, h.turns, h.loop, h.idle⟩

theorem diary_put {σ : System} (h : ∀ c p, σ.peers.get c = some p → Diary p) {c : Nat} {p : Peer} (hp : Diary p) :
    ∀ c' p', (σ.put c p).peers.get c' = some p' → Diary p' := by
  intro c' p' hg
  change (σ.peers.insert c p).get c' = some p' at hg
  rw [Map.get_insert] at hg
  split at hg
  · cases hg; exact hp
  · exact h c' p' hg

theorem diary_step (m : Mode) (cfg : AuthConfig) {σ : System} (h : ∀ c p, σ.peers.get c = some p → Diary p) (e : SysEvent) :
    ∀ c p, (σ.step m cfg e).peers.get c = some p → Diary p := by
  have on : ∀ c (f : Peer → System), (∀ p, σ.peers.get c = some p → ∀ c' p', (f p).peers.get c' = some p' → Diary p') →
      ∀ c' p', (σ.onPeer c f).peers.get c' = some p' → Diary p' := by
    intro c f hf
    unfold System.onPeer
    split
    · exact h
    · rename_i p hp; exact hf p hp
  cases e with
  | connect c o =>
    simp only [System.step]
    split
    · rename_i b hg hb
      refine diary_put h (σ := σ) (c := c) (p := { opts := o, wrote := b }) ?_
      exact ⟨⟨b, hb, by simp⟩, (by intro k hk; cases hk), (by intro l hl; cases hl), fun _ => rfl⟩
    · exact h
  | serverRead c n =>
    refine on c _ fun p hp => ?_
    split
    · split <;> exact h
    · exact h
  | serverTurn c u w => exact h
  | deliver c f => exact h
  | serverClose c => exact h
  | clientRead c n =>
    refine on c _ fun p hp => ?_
    split
    · split
      · split
        · exact diary_put h ((h c p hp).receive _ _)
        · exact h
      · exact diary_put h ((h c p hp).buf _ _)
    · exact h
  | clientTurn c ok =>
    refine on c _ fun p hp => ?_
    split
    · split
      · exact h
      · exact diary_put h (((h c p hp).buf _ _).receive _ _)
      · exact diary_put h ((h c p hp).receive _ _)
      · exact diary_put h ((h c p hp).receive _ _)
    · exact h
  | clientError c =>
    refine on c _ fun p hp => ?_
    split
    · exact diary_put h ((h c p hp).receive _ _)
    · exact h
  | timeout c =>
    refine on c _ fun p hp => ?_
    split
    · rename_i hph
      have d := h c p hp
      refine diary_put h ⟨d.wrote, d.turns, (by intro l hl; cases hl), fun _ => d.idle fun l hl => ?_⟩
      rw [hph] at hl; cases hl
    · exact h
  | app c i =>
    refine on c _ fun p hp => ?_
    split
    · exact h
    · rename_i hph _; exact diary_put h ((h c p hp).act hph _)
    · exact h

theorem diary_run (m : Mode) (cfg : AuthConfig) (es : List SysEvent) :
    ∀ c p, (System.init.run m cfg es).peers.get c = some p → Diary p := by
  have : ∀ (es : List SysEvent) (σ : System), (∀ c p, σ.peers.get c = some p → Diary p) →
      ∀ c p, (σ.run m cfg es).peers.get c = some p → Diary p := by
    intro es
    induction es with
    | nil => intro σ h; exact h
    | cons e es ih => intro σ h; exact ih _ (diary_step m cfg h e)
  exact this es _ (by intro c p h; cases h)

/-- C131: in any system of a server and built-in clients, all that an MQTT 5 client has written to its connection
is its CONNECT, followed by legal packets, each the one for a call, a message or a ping.  Missing: as in
`C131_legal_partial`. -/
theorem C131_stream_partial (m : Mode) (cfg : AuthConfig) (es : List SysEvent) (c : Nat) (p : Peer)
    (hp : (System.init.run m cfg es).peers.get c = some p) (ho : LegalOptions p.opts)
    (hi : ∀ e ∈ p.history, LegalInput e.1) (hl : p.history.length ≤ 65535) :
    ∃ xs : List Request5, p.wrote = (connectFor p.opts).bytes ++ xs.flatMap Request5.bytes ∧ (connectFor p.opts).Legal ∧
      ∀ x ∈ xs, x.Legal ∧ ∃ e ∈ p.history, x.For e.1 := by
  have d := diary_run m cfg es c p hp
  obtain ⟨h1, h2⟩ := C131_connect p.opts ho
  obtain ⟨b, hb, hw⟩ := d.wrote
  rw [h2] at hb
  cases hb
  have key : ∀ e ∈ p.history, ∀ q, e.2.sent = some q → ∃ x : Request5, x.Legal ∧ x.For e.1 ∧ q.encode = .ok x.bytes := by
    intro e he q hq
    obtain ⟨k, hk, rfl⟩ := List.getElem_of_mem he
    obtain ⟨l, h3, h4⟩ := d.turns k hk
    rw [h3] at hq
    refine step_request l _ (hi _ he) ?_ q hq
    intro h
    have := (h4 (by omega)).1
    rw [h] at this
    exact absurd this (by decide)
  have go : ∀ L : List (ClientIn × ClientOut), (∀ e ∈ L, ∀ q, e.2.sent = some q →
        ∃ x : Request5, x.Legal ∧ x.For e.1 ∧ q.encode = .ok x.bytes) →
      ∃ xs : List Request5, L.flatMap (fun e => written e.2) = xs.flatMap Request5.bytes ∧
        ∀ x ∈ xs, x.Legal ∧ ∃ e ∈ L, x.For e.1 := by
    intro L
    induction L with
    | nil => intro _; exact ⟨[], rfl, by simp⟩
    | cons e L ih =>
      intro h
      obtain ⟨xs, g1, g2⟩ := ih (fun e he => h e (by simp [he]))
      have g3 : ∀ x ∈ xs, x.Legal ∧ ∃ e' ∈ e :: L, x.For e'.1 := by
        intro x hx
        obtain ⟨a, e', b, c⟩ := g2 x hx
        exact ⟨a, e', by simp [b], c⟩
      cases hs : e.2.sent with
      | none => exact ⟨xs, by rw [List.flatMap_cons, g1, written, hs]; rfl, g3⟩
      | some q =>
        obtain ⟨x, k1, k2, k3⟩ := h e (by simp) q hs
        refine ⟨x :: xs, ?_, ?_⟩
        · rw [List.flatMap_cons, List.flatMap_cons, g1, written, hs]
          simp only [k3]
        · intro y hy
          rcases List.mem_cons.mp hy with rfl | hy
          · exact ⟨k1, e, by simp, k2⟩
          · exact g3 y hy
  obtain ⟨xs, g1, g2⟩ := go p.history key
  exact ⟨xs, by rw [hw, g1], h1, g2⟩

/-- A client connects and publishes. -/
def exOneClient : List SysEvent :=
  [.connect 0 { clientId := some (str "c") }, .serverRead 0 100, .serverTurn 0 (str "u") true, .clientRead 0 100,
   .clientTurn 0 true, .app 0 (.publish (str "t") [1] .atLeastOnce false true)]

example : ((System.init.run .debug {} exOneClient).peers.get 0).map (fun p => (p.wrote, p.history.map (·.1))) =
    some ([0x10, 14, 0, 4, 77, 81, 84, 84, 5, 2, 0, 60, 0, 0, 1, 99] ++ [0x32, 7, 0, 1, 116, 0, 1, 0, 1],
      [.publish (str "t") [1] .atLeastOnce false true]) := by decide +kernel

/-! ## What is not legal -/

/-- A client whose loop waits for something to do. -/
def Client.Idle (c : Client) : Prop := c.running = true ∧ ¬ c.blocked

theorem call_ok (c : Client) (p : Packet) (r : CallResult) {b : Buf} (h : p.encode = .ok b) :
    (c.call p true r).2.sent = some p := by
  simp [Client.call, Client.write, h]

/-- C131 is false for topics with wildcards: the client sends them, and the packet is not legal. -/
theorem C131_wildcard_false (c : Client) (hc : c.Idle) (t : Str) (ht : TextField t)
    (hw : (0x2b : UInt8) ∈ t ∨ (0x23 : UInt8) ∈ t) (pl : Buf) (hl : pl.length + 65545 ≤ 2 ^ 28) (q : QoS) (hq : q ≠ .invalid)
    (r : Bool) :
    ∃ p b, (c.step (.publish t pl q r true)).2.sent = some p ∧ p.encode = .ok b ∧
      ∀ x : Request5, x.Legal → x.bytes ≠ b := by
  obtain ⟨a, hb⟩ := publish_request ⟨false, q, r, t, if q ≠ .atMostOnce then some c.counter else none, none, some pl⟩
    rfl ht hq hl
  refine ⟨_, _, ?_, hb, ?_⟩
  · simp only [Client.step, reduceCtorEq, if_false, hc.1, hc.2, if_true, Client.turn, Client.doPublish]
    exact call_ok _ _ _ hb
  intro x hx e
  obtain ⟨e1, e2⟩ := request_inj hx.1 a e
  have ne : ∀ n : Nat, n < 256 → n / 16 ≠ 3 → ∀ id ps pl', UInt8.ofNat n ≠
      UInt8.ofNat (Request5.publish false q r t id ps pl').first := by
    intro n h8 hn id ps pl' e
    have := congrArg UInt8.toNat e
    simp only [UInt8.toNat_ofNat', Request5.first] at this
    have hl : q.level ≤ 2 := by cases q <;> first | decide | exact absurd rfl hq
    have b2 : (if r = true then 1 else 0) ≤ 1 := by split <;> omega
    simp only [Bool.false_eq_true, if_false] at this
    omega
  cases x with
  | publish dup qos retain topic id ps payload =>
    simp only [Request5.body, List.append_assoc] at e2
    have h := field_append_inj hx.2.1.2 ht.2 e2
    rcases hw with hf | hf
    · exact hx.2.2.2.1 (h ▸ hf)
    · exact hx.2.2.2.2.1 (h ▸ hf)
  | _ => exact ne _ (by simp [Request5.first]) (by simp [Request5.first]) _ _ _ e1

example : (({} : Client).step (.publish (str "a/#") [1] .atMostOnce false true)).2.sent.map Packet.encode =
    some (.ok [0x30, 7, 0, 3, 97, 47, 35, 0, 1]) := by decide +kernel

/-- C131 is false for requests that name no filter: the client sends them, and the packet is not legal. -/
theorem C131_empty_false (c : Client) (hc : c.Idle) (i : ClientIn) (hi : i = .subscribe [] true ∨ i = .unsubscribe [] true) :
    ∃ p b, (c.step i).2.sent = some p ∧ p.encode = .ok b ∧ ∀ x : Request5, x.Legal → x.bytes ≠ b := by
  have fin : ∀ (h : UInt8) (body : Buf), body.length = 3 → (h = 0x82 ∨ h = 0xa2) → ∀ x : Request5, x.Legal →
      x.bytes ≠ h :: (vbi body.length ++ body) := by
    intro h body hl hh x hx e
    obtain ⟨e1, e2⟩ := request_inj hx.1 (by omega) e
    have e3 := congrArg List.length e2
    have ne : ∀ n : Nat, n < 256 → n ≠ 0x82 → n ≠ 0xa2 → UInt8.ofNat n ≠ h := by
      intro n h8 h1 h2 e
      have := congrArg UInt8.toNat e
      rw [UInt8.toNat_ofNat'] at this
      rcases hh with rfl | rfl
      · change _ = 0x82 at this; omega
      · change _ = 0xa2 at this; omega
    have hpb : ∀ ps, 1 ≤ (Packet5.propertyBlock ps).length := by
      intro ps
      have := encodeVbi_length_pos (ps.flatMap Property.wire).length
      unfold Packet5.propertyBlock
      rw [List.length_append]
      by_cases hs : (ps.flatMap Property.wire).length < 2 ^ 28
      · rw [← encodeVbi_eq_vbi (by omega)]; omega
      · omega
    cases x with
    | subscribe id ps fs =>
      obtain ⟨_, _, _, h2, _⟩ := hx
      obtain ⟨f, fs', rfl⟩ := List.exists_cons_of_ne_nil h2
      have := hpb ps
      simp only [Request5.body, List.length_append, List.flatMap_cons, field, be16, List.length_cons, List.length_nil] at e3
      omega
    | unsubscribe id ps fs =>
      obtain ⟨_, _, _, h2, _⟩ := hx
      obtain ⟨f, fs', rfl⟩ := List.exists_cons_of_ne_nil h2
      have := hpb ps
      simp only [Request5.body, List.length_append, List.flatMap_cons, field, be16, List.length_cons, List.length_nil] at e3
      omega
    | publish dup qos retain topic id ps payload =>
      have hl : qos.level ≤ 3 := by cases qos <;> decide
      have b1 : (if dup = true then 8 else 0) ≤ 8 := by split <;> omega
      have b2 : (if retain = true then 1 else 0) ≤ 1 := by split <;> omega
      refine ne _ ?_ ?_ ?_ e1 <;> simp only [Request5.first] <;> omega
    | _ => exact ne _ (by simp [Request5.first]) (by simp [Request5.first]) (by simp [Request5.first]) e1
  rcases hi with rfl | rfl
  · obtain ⟨a, hb⟩ := subscribe_request c.counter [] (by simp) (by simp)
    refine ⟨_, _, ?_, hb, ?_⟩
    · simp only [Client.step, reduceCtorEq, if_false, hc.1, hc.2, if_true, Client.turn, Client.doSubscribe]
      exact call_ok _ _ _ hb
    · exact fin 0x82 _ (by
        show (be16 _ ++ Packet5.propertyBlock [] ++ _).length = 3
        rw [propertyBlock_nil]; rfl) (.inl rfl)
  · obtain ⟨a, hb⟩ := unsubscribe_request c.counter [] (by simp) (by simp)
    refine ⟨_, _, ?_, hb, ?_⟩
    · simp only [Client.step, reduceCtorEq, if_false, hc.1, hc.2, if_true, Client.turn, Client.doUnsubscribe]
      exact call_ok _ _ _ hb
    · exact fin 0xa2 _ (by
        show (be16 _ ++ Packet5.propertyBlock [] ++ _).length = 3
        rw [propertyBlock_nil]; rfl) (.inr rfl)

example : (({} : Client).step (.subscribe [] true)).2.sent.map Packet.encode = some (.ok [0x82, 3, 0, 1, 0]) ∧
    Client.Idle {} := ⟨by decide +kernel, rfl, by decide⟩

/-! ## Clients of the older versions -/

theorem request3_inj {x : Packet3} {h : UInt8} {body : Buf} (hx : x.body.length < 2 ^ 28) (hb : body.length < 2 ^ 28)
    (e : x.bytes = h :: (vbi body.length ++ body)) : UInt8.ofNat x.first = h ∧ x.body = body := by
  unfold Packet3.bytes at e
  rw [List.cons.injEq] at e
  exact ⟨e.1, (vbi_append_inj hx hb e.2).2⟩

/-- The type of a packet of MQTT 3.1.1 is told by its first byte. -/
theorem first3 (x : Packet3) (n : Nat) (hn : 0x80 ≤ n ∧ n < 256) (h : UInt8.ofNat x.first = UInt8.ofNat n) : x.first = n := by
  have h' := congrArg UInt8.toNat h
  simp only [UInt8.toNat_ofNat'] at h'
  have : x.first < 256 := by
    cases x with
    | publish dup qos retain topic id payload =>
      have hl : qos.level ≤ 3 := by cases qos <;> decide
      have b1 : (if dup = true then 8 else 0) ≤ 8 := by split <;> omega
      have b2 : (if retain = true then 1 else 0) ≤ 1 := by split <;> omega
      simp only [Packet3.first]; omega
    | _ => simp [Packet3.first]
  omega

theorem not_publish3 {dup : Bool} {qos : QoS} {retain : Bool} {topic : Str} {id : Option UInt16} {payload : Buf} {n : Nat}
    (hn : 0x80 ≤ n) (h : (Packet3.publish dup qos retain topic id payload).first = n) : False := by
  have hl : qos.level ≤ 3 := by cases qos <;> decide
  have b1 : (if dup = true then 8 else 0) ≤ 8 := by split <;> omega
  have b2 : (if retain = true then 1 else 0) ≤ 1 := by split <;> omega
  simp only [Packet3.first] at h; omega

/-- C131 is false for clients of MQTT 3.1 and 3.1.1 (the version makes no difference after the CONNECT): their
DISCONNECT is not a legal packet of those versions. -/
theorem C131_old_disconnect_false (c : Client) (hc : c.Idle) :
    ∃ p b, (c.step (.disconnect true)).2.sent = some p ∧ p.encode = .ok b ∧ ∀ x : Packet3, x.Legal → x.bytes ≠ b := by
  refine ⟨.disconnect { reason := .normalDisconnection, properties := none }, [0xe0, 1, 0], ?_, by decide +kernel, ?_⟩
  · simp only [Client.step, reduceCtorEq, if_false, hc.1, hc.2, if_true, Client.turn, Client.doDisconnect]
    exact call_ok _ _ _ (b := [0xe0, 1, 0]) (by decide +kernel)
  · intro x hx e
    obtain ⟨e1, e2⟩ := request3_inj (h := UInt8.ofNat 0xe0) (body := [0]) hx.1 (by decide) (e.trans (by
      show _ = _ :: (vbi 1 ++ [0])
      rw [short_vbi (by decide)]; rfl))
    have e3 := first3 x 0xe0 (by decide) e1
    cases x with
    | disconnect => cases e2
    | publish => exact not_publish3 (by decide) e3
    | _ => cases e3

/-- C131 is false for clients of MQTT 3.1 and 3.1.1: what they publish is read by a server of those versions with
a zero byte in front of the payload. -/
theorem C131_old_publish_false (c : Client) (hc : c.Idle) (t : Str) (ht : TextField t) (pl : Buf)
    (hl : pl.length + 65545 ≤ 2 ^ 28) (q : QoS) (hq : q ≠ .invalid) (r : Bool) :
    let x := Packet3.publish false q r t (if q ≠ .atMostOnce then some c.counter else none) (0 :: pl)
    ∃ p, (c.step (.publish t pl q r true)).2.sent = some p ∧ p.encode = .ok x.bytes ∧ x.Legal ∧ ¬ x.Means p := by
  intro x
  obtain ⟨h1, h2, h3⟩ := C76_message_false ⟨false, q, r, t, if q ≠ .atMostOnce then some c.counter else none, none, some pl⟩
    rfl ht hq (by by_cases h : q = .atMostOnce <;> simp [h]) (by
      have := ht.2
      show t.length + pl.length < _
      omega)
  refine ⟨_, ?_, h3, h1, h2⟩
  simp only [Client.step, reduceCtorEq, if_false, hc.1, hc.2, if_true, Client.turn, Client.doPublish]
  exact call_ok _ _ _ h3

/-- C131 is false for clients of MQTT 3.1 and 3.1.1: their SUBSCRIBE and UNSUBSCRIBE are not legal packets of
those versions (if the first filter has less than 256 bytes), because of the length of the properties in them. -/
theorem C131_old_subscribe_false (c : Client) (hc : c.Idle) :
    (∀ f q ts, (∀ t ∈ (f, q) :: ts, TextField t.1 ∧ t.2 ≠ QoS.invalid) → f.length < 256 →
      (((f, q) :: ts).map fun t => t.1.length + 3).sum + 3 < 2 ^ 28 →
      ∃ p b, (c.step (.subscribe ((f, q) :: ts) true)).2.sent = some p ∧ p.encode = .ok b ∧
        ∀ x : Packet3, x.Legal → x.bytes ≠ b) ∧
    (∀ f ts, (∀ t ∈ f :: ts, TextField t) → f.length < 256 → ((f :: ts).map fun t => t.length + 2).sum + 3 < 2 ^ 28 →
      ∃ p b, (c.step (.unsubscribe (f :: ts) true)).2.sent = some p ∧ p.encode = .ok b ∧
        ∀ x : Packet3, x.Legal → x.bytes ≠ b) := by
  have clash : ∀ (id id' : UInt16) (g f : Buf) (u v : Buf), f.length < 256 → g.length ≤ 65535 → g ≠ [] →
      be16 id.toNat ++ (field g ++ u) ≠ be16 id'.toNat ++ [0] ++ (field f ++ v) := by
    intro id id' g f u v hf hg hne e
    simp only [be16, field, List.cons_append, List.nil_append, List.cons.injEq] at e
    obtain ⟨_, _, e1, e2, _⟩ := e
    have g1 := congrArg UInt8.toNat e1
    have g2 := congrArg UInt8.toNat e2
    rw [UInt8.toNat_ofNat'] at g1 g2
    rw [UInt8.toNat_ofNat'] at g2
    change _ = 0 at g1
    have : 0 < g.length := List.length_pos_iff.mpr hne
    omega
  constructor
  · intro f q ts ht hf hl
    obtain ⟨a, hb⟩ := subscribe_request c.counter ((f, q) :: ts) ht hl
    refine ⟨_, _, ?_, hb, ?_⟩
    · simp only [Client.step, reduceCtorEq, if_false, hc.1, hc.2, if_true, Client.turn, Client.doSubscribe]
      exact call_ok _ _ _ hb
    intro x hx e
    obtain ⟨e1, e2⟩ := request3_inj hx.1 a e
    have e3 := first3 x 0x82 (by decide) e1
    cases x with
    | subscribe id fs =>
      obtain ⟨_, h1, h2⟩ := hx
      obtain ⟨g, gs, rfl⟩ := List.exists_cons_of_ne_nil h1
      obtain ⟨k1, k2, _⟩ := h2 g (by simp)
      simp only [Packet3.body, Request5.body, List.flatMap_cons, List.map_cons, List.append_assoc] at e2
      rw [propertyBlock_nil] at e2
      exact clash _ _ _ _ _ _ hf k2.2 k1 (by simpa only [List.append_assoc] using e2)
    | publish => exact not_publish3 (by decide) e3
    | _ => cases e3
  · intro f ts ht hf hl
    obtain ⟨a, hb⟩ := unsubscribe_request c.counter (f :: ts) ht hl
    refine ⟨_, _, ?_, hb, ?_⟩
    · simp only [Client.step, reduceCtorEq, if_false, hc.1, hc.2, if_true, Client.turn, Client.doUnsubscribe]
      exact call_ok _ _ _ hb
    intro x hx e
    obtain ⟨e1, e2⟩ := request3_inj hx.1 a e
    have e3 := first3 x 0xa2 (by decide) e1
    cases x with
    | unsubscribe id fs =>
      obtain ⟨_, h1, h2⟩ := hx
      obtain ⟨g, gs, rfl⟩ := List.exists_cons_of_ne_nil h1
      obtain ⟨k1, k2⟩ := h2 g (by simp)
      simp only [Packet3.body, Request5.body, List.flatMap_cons, List.append_assoc] at e2
      rw [propertyBlock_nil] at e2
      exact clash _ _ _ _ _ _ hf k2.2 k1 (by simpa only [List.append_assoc] using e2)
    | publish => exact not_publish3 (by decide) e3
    | _ => cases e3

example : ∀ t ∈ [(str "a/b", QoS.atLeastOnce)], TextField t.1 ∧ t.2 ≠ QoS.invalid := by
  intro t ht
  cases List.mem_singleton.mp ht
  exact ⟨by decide, by decide⟩

end Mercurio
