import Verif.Lemmas.Client
import Verif.Props.Session

/-! # C56-C60: the client -/

namespace Mercurio

open Spec

/-! ## C56: CONNECT says what the options said -/

/-- The CONNECT as it is on the wire: in MQTT 3.x there are no will properties. -/
def wireConnect (o : ConnectOptions) : ConnectPacket :=
  if o.protocolVersion = .v5 then buildConnect o
  else { buildConnect o with payload := { (buildConnect o).payload with willProperties := none } }

theorem fits_frame (h : UInt8) (body : Buf) (hb : body.length < 2 ^ 28) :
    FitsMqtt (frame h body.length body) := by
  have := encodeVbi_length_le hb
  unfold FitsMqtt frame
  rw [Nat.mod_eq_of_lt (by omega)]
  simp only [List.length_cons, List.length_append]
  omega

theorem wireConnect_encode (o : ConnectOptions) :
    (wireConnect o).encode = (buildConnect o).encode := by
  unfold wireConnect
  split
  · rfl
  · rename_i hv
    have hs := not_supports hv
    have hp : (buildConnect o).protocolVersion = o.protocolVersion := rfl
    simp only [ConnectPacket.encode_def, hp, hs, Bool.false_eq_true, if_false, Res.pure_eq, Res.bind_ok,
      ConnectPayload.sizeFor_def, ConnectPayload.encodeFor_def, Bool.and_false]

theorem blockSize_nil : blockSize [] = .ok 1 := by decide

theorem ite_length_le {c : Bool} {x : Buf} {k : Nat} (h : x.length ≤ k) :
    (if c then x else []).length ≤ k := by
  cases c <;> simp [h]

theorem encodeOpt_le {enc : Buf → Buf} (he : ∀ s, (enc s).length = s.length + 2) {o : Option Buf}
    (h : ∀ s, o = some s → s.length ≤ 65535) : (encodeOpt enc o).length ≤ 65537 := by
  cases o with
  | none => simp [encodeOpt]
  | some s => have := h s rfl; simp only [encodeOpt, he]; omega

theorem str_len (s : Str) : (encodeStr s).length = s.length + 2 := by
  rw [encodeStr_length, binSize]

theorem bin_len (s : Buf) : (encodeBin s).length = s.length + 2 := by
  rw [encodeBin_length, binSize]

theorem buildConnect_encode_ok (o : ConnectOptions) (ho : o.Admissible) :
    ∃ bytes, (buildConnect o).encode = .ok bytes ∧ FitsMqtt bytes := by
  have h2 : optProps WillProperties.toProps (buildConnect o).payload.willProperties = [] := by
    cases h : o.will <;> simp [buildConnect, h, optProps] <;> rfl
  have h1 : optProps ConnectProperties.toProps (buildConnect o).properties = [] := rfl
  obtain ⟨bytes, hb⟩ : ∃ bytes, (buildConnect o).encode = .ok bytes := by
    simp only [ConnectPacket.encode_def, ConnectPayload.sizeFor_def, h1, h2, blockSize_nil]
    cases (buildConnect o).protocolVersion.supportsProperties <;>
      cases (buildConnect o).flags.willFlag <;> exact ⟨_, rfl⟩
  refine ⟨bytes, hb, ?_⟩
  have he := (ConnectPacket.encode_inv hb).1
  rw [he]
  apply fits_frame
  rw [ConnectPacket.body_eq]
  simp only [List.length_append, h1, h2]
  have e0 : (encodeStr (buildConnect o).protocolVersion.name).length ≤ 8 := by
    cases (buildConnect o).protocolVersion <;> decide
  have e1 : (encodeU8 (buildConnect o).protocolVersion.level).length = 1 := rfl
  have e2 : (encodeU16 (buildConnect o).keepalive).length = 2 := encodeU16_length _
  have e3 := ite_length_le (c := (buildConnect o).protocolVersion.supportsProperties)
    (x := encodeBlock []) (k := 1) (by decide)
  have e4 : (encodeStr (buildConnect o).payload.clientId).length ≤ 65537 := by
    rw [str_len]
    cases h : o.clientId with
    | none => simp [buildConnect, h]
    | some s => have := (ho.clientId s h).2; simp only [buildConnect, h, Option.getD_some]; omega
  have e5 := ite_length_le (c := (buildConnect o).flags.willFlag &&
    (buildConnect o).protocolVersion.supportsProperties) (x := encodeBlock []) (k := 1) (by decide)
  have e6 := ite_length_le (c := (buildConnect o).flags.willFlag)
    (encodeOpt_le (o := (buildConnect o).payload.willTopic) str_len (by
      intro s hs
      simp only [buildConnect, Option.map_eq_some_iff] at hs
      obtain ⟨w, hw, rfl⟩ := hs
      exact (ho.will w hw).1.2))
  have e7 := ite_length_le (c := (buildConnect o).flags.willFlag)
    (encodeOpt_le (o := (buildConnect o).payload.willPayload) bin_len (by
      intro s hs
      simp only [buildConnect, Option.map_eq_some_iff] at hs
      obtain ⟨w, hw, rfl⟩ := hs
      exact (ho.will w hw).2.1))
  have e8 := ite_length_le (c := (buildConnect o).flags.userName)
    (encodeOpt_le (o := (buildConnect o).payload.userName) str_len (fun s hs => (ho.username s hs).2))
  have e9 := ite_length_le (c := (buildConnect o).flags.password)
    (encodeOpt_le (o := (buildConnect o).payload.password) bin_len (fun s hs => ho.password s hs))
  simp only [e1, e2, List.length_cons, List.length_nil]
  omega

theorem wireConnect_survives (o : ConnectOptions) (ho : o.Admissible) :
    (Packet.connect (wireConnect o)).Survives := by
  have hw : ∀ w, o.will = some w → TextField w.topic ∧ BinaryField w.payload ∧ w.qos ≠ .invalid :=
    ho.will
  have hid : TextField (o.clientId.getD []) := by
    cases h : o.clientId with
    | none => decide
    | some s => exact ho.clientId s h
  have ha : ∀ p : ConnectPacket, p.payload.clientId = o.clientId.getD [] →
      p.payload.willTopic = o.will.map ClientWill.topic →
      p.payload.willPayload = o.will.map ClientWill.payload → p.payload.userName = o.username →
      p.payload.password = o.password → p.properties = none →
      (∀ q, p.payload.willProperties = some q → q = {}) → p.Admissible := by
    intro p h1 h2 h3 h4 h5 h6 h7
    refine ⟨by rw [h1]; exact hid, ?_, ?_, by rw [h4]; exact ho.username,
      by rw [h5]; exact ho.password, by simp [h6], ?_⟩
    · rw [h2]; intro s hs
      obtain ⟨w, hw', rfl⟩ := Option.map_eq_some_iff.mp hs
      exact (hw w hw').1
    · rw [h3]; intro s hs
      obtain ⟨w, hw', rfl⟩ := Option.map_eq_some_iff.mp hs
      exact (hw w hw').2.1
    · intro q hq
      rw [h7 q hq]
      exact ⟨fun _ h => (by cases h), fun _ h => (by cases h), fun _ h => (by cases h),
        fun _ h => (by cases h)⟩
  have hq : (buildConnect o).flags.willQos ≠ .invalid := by
    cases h : o.will with
    | none => simp [buildConnect, h]
    | some w => simpa [buildConnect, h] using (hw w h).2.2
  have hnq : (buildConnect o).flags.willFlag = false →
      (buildConnect o).flags.willQos = .atMostOnce := by
    cases h : o.will <;> simp [buildConnect, h]
  have hwp : ∀ q, (buildConnect o).payload.willProperties = some q → q = {} := by
    intro q hq
    simp only [buildConnect, Option.map_eq_some_iff] at hq
    obtain ⟨_, _, rfl⟩ := hq
    rfl
  unfold wireConnect
  split
  · rename_i hv
    refine ⟨⟨?_, ?_, ?_, by simp [buildConnect], hq, hnq, rfl, rfl⟩, ha _ rfl rfl rfl rfl rfl rfl hwp⟩
    · simp [buildConnect]
    · simp [buildConnect]
    · intro h; exact ⟨by simpa [buildConnect] using h, hv⟩
  · refine ⟨⟨?_, ?_, by simp, by simp [buildConnect], hq, hnq, rfl, rfl⟩,
      ha _ rfl rfl rfl rfl rfl rfl (by simp)⟩
    · simp [buildConnect]
    · simp [buildConnect]

theorem wireConnect_says (o : ConnectOptions) : (wireConnect o).received.Says o := by
  unfold ConnectPacket.received wireConnect
  by_cases hv : o.protocolVersion = .v5
  · have : (buildConnect o).protocolVersion = .v5 := hv
    simp only [hv, if_true, this]
    refine ⟨hv.symm, rfl, rfl, rfl, rfl, rfl, ?_, ?_⟩
    · intro h; simp [buildConnect, h]
    · intro w h; simp [buildConnect, h]
  · have : (buildConnect o).protocolVersion ≠ .v5 := hv
    simp only [hv, if_false, this]
    refine ⟨rfl, rfl, rfl, rfl, rfl, rfl, ?_, ?_⟩
    · intro h; simp [buildConnect, h]
    · intro w h; simp [buildConnect, h]

/-- C56: for all options that MQTT can carry, the client has bytes to send, and the server, in
whatever chunks these bytes arrive, reads from them exactly one packet, a CONNECT that says what the
options say. -/
theorem C56_connect (m : Mode) (o : ConnectOptions) (ho : o.Admissible) :
    ∃ bytes p, (Packet.connect (buildConnect o)).encode = .ok bytes ∧ p.Says o ∧
      ∀ cs, Chunks cs → cs.flatten = bytes →
        ∃ cs', readPacket m [] cs = (.packet (.connect p), [], cs') ∧ cs'.flatten = [] := by
  obtain ⟨bytes, hb, hf⟩ := buildConnect_encode_ok o ho
  refine ⟨bytes, (wireConnect o).received, hb, wireConnect_says o, fun cs hcs hfl => ?_⟩
  have he : (Packet.connect (wireConnect o)).encode = .ok bytes := by
    rw [← hb]; exact wireConnect_encode o
  obtain ⟨buf', cs', h1, _, _, h4⟩ := readPacket_first m (wireConnect_survives o ho) he hf [] cs []
    hcs (by simp) (by simpa using hfl)
  obtain ⟨h5, h6⟩ := List.append_eq_nil_iff.mp h4
  subst h5
  exact ⟨cs', h1, h6⟩

/-- Sample options: a client with credentials and a retained will. -/
def exOptions : ConnectOptions :=
  { clientId := some (str "c1"), username := some (str "u"), password := some [1, 2], keepAlive := 30
    cleanStart := false, will := some { topic := str "w/t", payload := [9], qos := .atLeastOnce, retain := true } }

theorem exOptions_admissible (v : ProtocolVersion) :
    ({ exOptions with protocolVersion := v } : ConnectOptions).Admissible where
  clientId := by intro s h; cases h; decide
  username := by intro s h; cases h; decide
  password := by intro s h; cases h; decide
  will := by intro w h; cases h; decide

example : exOptions.Admissible := exOptions_admissible .v5
example : ({ exOptions with protocolVersion := .v3_1_1 } : ConnectOptions).Admissible :=
  exOptions_admissible .v3_1_1

/-- C56: the session a server opens for that CONNECT (clean start) belongs to the client id of the
options (or the generated one if there is none) and holds exactly the will of the options; whether it
is opened depends on exactly the credentials of the options.  If the CONNACK of the server reaches the
client, the client is connected, with that client id (the generated one is only told in MQTT 5). -/
theorem C56_session (cfg : AuthConfig) (srv : Server) (c : Nat) (uuid : Str) (o : ConnectOptions)
    (p : ConnectPacket) (hp : p.Says o) (hc : o.cleanStart = true) (hn : ¬ srv.isOpen c)
    (ha : cfg.requireAuth = true → ∃ u pw v, o.username = some u ∧ o.password = some pw ∧
      cfg.validator = some v ∧ v u pw = true) :
    let r := srv.step cfg (.first c (.connect p) uuid true)
    ∃ s ack, r.1.at c = some s ∧ r.2.sent = [.connAck ack] ∧
      s.clientId = (if o.clientId.getD [] = [] then uuid else o.clientId.getD []) ∧
      s.will = o.will.map (fun w => ⟨w.topic, w.payload, w.qos, w.retain⟩) ∧
      performConnect o (.read (.packet (.connAck ack))) = .connected
        (if o.clientId.getD [] = [] ∧ o.protocolVersion = .v5 then uuid else o.clientId.getD [])
        o.keepAlive := by
  intro r
  have hadm : Admitted cfg srv c p := by
    refine ⟨hn, fun h => ?_⟩
    rw [hp.userName, hp.password]
    exact ha h
  obtain ⟨h1, s, h2, h3, _, _, _, _, h4, _⟩ :=
    C43_clean_start cfg srv c p uuid hadm (hp.cleanStart.trans hc)
  refine ⟨s, _, h2, h1, ?_, ?_, ?_⟩
  · rw [h3, identity, hp.clientId]
  · rw [h4, willIn_eq, willOfConnect]
    cases hw : o.will with
    | none => simp [hp.noWill hw]
    | some w =>
      obtain ⟨e1, e2, e3, e4, e5⟩ := hp.will w hw
      simp [e1, e2, e3, e4, e5]
  · simp only [performConnect, connAckOf, ne_eq, not_true_eq_false, if_false, hp.clientId,
      hp.version]
    split <;> simp

/-- C56: a refusal, a wrong packet, the end of the stream or no answer never count as connected: `connect`
returns an error that tells which it was. -/
theorem C56_not_connected (o : ConnectOptions) (a : ConnectReply)
    (ha : ∀ ack, a = .read (.packet (.connAck ack)) → ack.reasonCode ≠ .success) :
    (∀ id k, performConnect o a ≠ .connected id k) ∧
    (a = .timeout → performConnect o a = .failed .timeout) ∧
    (a = .read .closed → performConnect o a = .failed .connectionFailed) ∧
    (∀ ack, a = .read (.packet (.connAck ack)) → performConnect o a = .failed (.refused ack.reasonCode)) ∧
    (∀ p, a = .read (.packet p) → (∀ ack, p ≠ .connAck ack) → performConnect o a = .failed .protocol) ∧
    (∀ e, a = .read (.error e) → performConnect o a = .failed (if e = .io then .io else .packet e)) := by
  refine ⟨?_, ?_, ?_, ?_, ?_, ?_⟩
  · intro id k
    cases a with
    | timeout => simp [performConnect]
    | read r =>
      cases r with
      | panicked => simp [performConnect]
      | closed => simp [performConnect]
      | error e => cases e <;> simp [performConnect]
      | packet p =>
        cases p with
        | connAck ack => simp [performConnect, ha ack rfl]
        | _ => simp [performConnect]
  · rintro rfl; rfl
  · rintro rfl; rfl
  · rintro ack rfl; simp [performConnect, ha ack rfl]
  · rintro p rfl h
    cases p with
    | connAck ack => exact absurd rfl (h ack)
    | _ => simp [performConnect]
  · rintro e rfl; cases e <;> simp [performConnect]

example : performConnect exOptions .timeout = .failed .timeout := rfl

/-! ## C57: packet identifiers -/

/-- The identifiers a client chose in a run, in order. -/
def ownIds (outs : List ClientOut) : List UInt16 :=
  outs.filterMap fun o => o.sent.bind Packet.ownId

/-- Calls for which the client chooses an identifier, and whose write succeeds. -/
def TakesId : ClientIn → Prop
  | .publish _ _ q _ ok => q ≠ .atMostOnce ∧ ok = true
  | .subscribe _ ok => ok = true
  | .unsubscribe _ ok => ok = true
  | _ => False

namespace Client

theorem call_counter (c : Client) (p : Packet) (ok : Bool) (r : CallResult) :
    (c.call p ok r).1.counter = c.counter ∧ (c.call p ok r).1.pending = c.pending ∧
    ((c.call p ok r).2.sent = none ∨ (c.call p ok r).2.sent = some p) := by
  unfold call
  split <;> simp

theorem incoming_counter (c : Client) (p : Packet) (ok : Bool) :
    (c.incoming p ok).1.counter = c.counter ∧ (c.incoming p ok).2.sent.bind Packet.ownId = none := by
  unfold incoming
  cases p with
  | publish p =>
    simp only
    split
    · split <;> simp [emit, crash, Packet.ownId]
    · simp [emit]
  | disconnect p => simp [emit]
  | _ => simp

theorem turn_counter (c : Client) (i : ClientIn) :
    ((c.turn i).1.counter = c.counter ∧ (c.turn i).2.sent.bind Packet.ownId = none) ∨
    ((c.turn i).1.counter = c.counter + 1 ∧
      ((c.turn i).2.sent.bind Packet.ownId = none ∨
        (c.turn i).2.sent.bind Packet.ownId = some c.counter)) := by
  cases i with
  | recv => left; simp [turn]
  | read r ok =>
    left
    cases r with
    | packet p => exact c.incoming_counter p ok
    | closed => simp [turn, stop, emit]
    | error e => simp [turn, stop, emit]
    | panicked => simp [turn, crash]
  | publish t pl q r ok =>
    simp only [turn]
    unfold doPublish
    by_cases hq : q = .atMostOnce
    · left
      simp only [hq, ne_eq, not_true_eq_false, if_false]
      obtain ⟨h1, _, h2⟩ := c.call_counter (.publish { dup := false, qos := .atMostOnce, retain := r, topicName := t, packetId := none, properties := none, payload := some pl }) ok (.published none)
      refine ⟨h1, ?_⟩
      rcases h2 with h2 | h2 <;> rw [h2] <;> simp [Packet.ownId]
    · right
      simp only [hq, ne_eq, not_false_eq_true, if_true]
      obtain ⟨h1, _, h2⟩ := ({ c with counter := c.counter + 1 } : Client).call_counter (.publish { dup := false, qos := q, retain := r, topicName := t, packetId := some c.counter, properties := none, payload := some pl }) ok (.published (some c.counter))
      refine ⟨h1, ?_⟩
      rcases h2 with h2 | h2 <;> rw [h2] <;> simp [Packet.ownId]
  | subscribe l ok =>
    right
    simp only [turn]
    unfold doSubscribe
    obtain ⟨h1, _, h2⟩ := ({ c with counter := c.counter + 1 } : Client).call_counter (.subscribe { packetId := c.counter, properties := none, payload := l.map fun t => { topicFilter := t.1, opts := { qos := t.2 } } }) ok (.subscribed (l.map fun t => (t.1, t.2, true)))
    refine ⟨h1, ?_⟩
    rcases h2 with h2 | h2 <;> simp only [h2] <;> simp [Packet.ownId]
  | unsubscribe l ok =>
    right
    simp only [turn]
    unfold doUnsubscribe
    obtain ⟨h1, _, h2⟩ := ({ c with counter := c.counter + 1 } : Client).call_counter (.unsubscribe { packetId := c.counter, properties := none, payload := l }) ok .done
    refine ⟨h1, ?_⟩
    rcases h2 with h2 | h2 <;> simp only [h2] <;> simp [Packet.ownId]
  | disconnect ok =>
    left
    simp only [turn]
    unfold doDisconnect
    obtain ⟨h1, _, h2⟩ := c.call_counter (.disconnect { reason := .normalDisconnection, properties := none }) ok .done
    refine ⟨h1, ?_⟩
    simp only
    rcases h2 with h2 | h2 <;> rw [h2] <;> simp [Packet.ownId]
  | tick ok =>
    left
    simp only [turn]
    split <;> simp [stop, crash, emit, Packet.ownId]

/-- What one step does to the counter. -/
theorem step_counter (c : Client) (i : ClientIn) :
    ((c.step i).1.counter = c.counter ∧ (c.step i).2.sent.bind Packet.ownId = none) ∨
    ((c.step i).1.counter = c.counter + 1 ∧
      ((c.step i).2.sent.bind Packet.ownId = none ∨
        (c.step i).2.sent.bind Packet.ownId = some c.counter)) := by
  unfold step
  split
  · left; unfold take; split <;> simp
  split
  · left; simp
  split
  · exact c.turn_counter i
  · left; unfold refuse; split <;> simp

theorem ids_offsets (is : List ClientIn) : ∀ (c : Client), ∃ ks : List Nat,
    ownIds (c.run is).2 = ks.map (fun k => c.counter + UInt16.ofNat k) ∧
      ks.Pairwise (· < ·) ∧ ∀ k ∈ ks, k < is.length := by
  induction is with
  | nil => intro c; exact ⟨[], rfl, List.Pairwise.nil, by simp⟩
  | cons i is ih =>
    intro c
    obtain ⟨ks, h1, h2, h3⟩ := ih (c.step i).1
    have e : ownIds (c.run (i :: is)).2 =
        ((c.step i).2.sent.bind Packet.ownId).toList ++ ownIds ((c.step i).1.run is).2 := by
      simp only [run, ownIds, List.filterMap_cons]
      cases (c.step i).2.sent.bind Packet.ownId <;> rfl
    rw [e, h1]
    rcases c.step_counter i with ⟨hc, ho⟩ | ⟨hc, ho⟩
    · refine ⟨ks, by simp [hc, ho], h2, fun k hk => ?_⟩
      have := h3 k hk; simp; omega
    · have hs : ks.map (fun k => (c.step i).1.counter + UInt16.ofNat k) =
          (ks.map (· + 1)).map (fun k => c.counter + UInt16.ofNat k) := by
        rw [hc, List.map_map]
        apply List.map_congr_left
        intro k _
        simp only [Function.comp_apply, UInt16.ofNat_add]
        rw [UInt16.add_assoc, UInt16.add_comm 1]; rfl
      have hpw : (ks.map (· + 1)).Pairwise (· < ·) := by
        rw [List.pairwise_map]; exact h2.imp (by intro a b h; omega)
      rcases ho with ho | ho
      · refine ⟨ks.map (· + 1), by simp [ho, hs], hpw, ?_⟩
        intro k hk
        obtain ⟨j, hj, rfl⟩ := List.mem_map.mp hk
        have := h3 j hj; simp; omega
      · refine ⟨0 :: ks.map (· + 1), ?_, ?_, ?_⟩
        · rw [ho, hs]; simp
        · refine List.Pairwise.cons ?_ hpw
          intro k hk
          obtain ⟨j, hj, rfl⟩ := List.mem_map.mp hk
          omega
        · intro k hk
          rcases List.mem_cons.mp hk with rfl | hk
          · simp
          · obtain ⟨j, hj, rfl⟩ := List.mem_map.mp hk
            have := h3 j hj; simp; omega

/-- A call that takes an identifier, on a client that runs and is not waiting. -/
theorem step_takesId (c : Client) (i : ClientIn) (hi : TakesId i) (hr : c.running = true)
    (hp : c.pending = []) :
    (c.step i).1 = { c with counter := c.counter + 1 } ∧
    (c.step i).2.sent.bind Packet.ownId = some c.counter := by
  have hb : ¬ c.blocked := by simp [blocked, hp]
  have hcall : ∀ (c : Client) (p : Packet) (r : CallResult), (∃ b, p.encode = .ok b) →
      c.call p true r = (c, { sent := some p, result := some r }) := by
    rintro c p r ⟨b, hb⟩
    simp [call, write, hb]
  cases i with
  | publish t pl q r ok =>
    obtain ⟨hq, rfl⟩ := hi
    have h := hcall { c with counter := c.counter + 1 } (.publish { dup := false, qos := q, retain := r, topicName := t, packetId := some c.counter, properties := none, payload := some pl }) (.published (some c.counter)) ⟨_, rfl⟩
    rw [hr] at h
    simp [step, hb, hr, turn, doPublish, hq, h, Packet.ownId]
  | subscribe l ok =>
    cases hi
    have h := hcall { c with counter := c.counter + 1 } (.subscribe { packetId := c.counter, properties := none, payload := l.map fun t => { topicFilter := t.1, opts := { qos := t.2 } } }) (.subscribed (l.map fun t => (t.1, t.2, true))) ⟨_, rfl⟩
    rw [hr] at h
    simp [step, hb, hr, turn, doSubscribe, h, Packet.ownId]
  | unsubscribe l ok =>
    cases hi
    have h := hcall { c with counter := c.counter + 1 } (.unsubscribe { packetId := c.counter, properties := none, payload := l }) .done ⟨_, rfl⟩
    rw [hr] at h
    simp [step, hb, hr, turn, doUnsubscribe, h, Packet.ownId]
  | read _ _ => exact hi.elim
  | disconnect _ => exact hi.elim
  | tick _ => exact hi.elim
  | recv => exact hi.elim

theorem ids_exact (is : List ClientIn) : ∀ (c : Client), c.running = true → c.pending = [] →
    (∀ i ∈ is, TakesId i) →
    ownIds (c.run is).2 = (List.range is.length).map (fun k => c.counter + UInt16.ofNat k) := by
  induction is with
  | nil => intro c _ _ _; rfl
  | cons i is ih =>
    intro c hr hp hi
    obtain ⟨h1, h2⟩ := c.step_takesId i (hi i (by simp)) hr hp
    have e : ownIds (c.run (i :: is)).2 =
        ((c.step i).2.sent.bind Packet.ownId).toList ++ ownIds ((c.step i).1.run is).2 := by
      simp only [run, ownIds, List.filterMap_cons]
      cases (c.step i).2.sent.bind Packet.ownId <;> rfl
    rw [e, h2, ih _ (by rw [h1]; exact hr) (by rw [h1]; exact hp) (fun j hj => hi j (by simp [hj])),
      h1, List.length_cons, List.range_succ_eq_map, List.map_cons, List.map_map]
    simp only [Option.toList_some, List.singleton_append]
    congr 1
    · simp
    · apply List.map_congr_left
      intro k _
      simp only [Function.comp_apply, Nat.succ_eq_add_one, UInt16.ofNat_add]
      rw [UInt16.add_assoc, UInt16.add_comm 1]; rfl

end Client

/-- C57: in any run of at most 65536 turns, from any state of the client, the identifiers of its own
packets are all different. -/
theorem C57_distinct (c : Client) (is : List ClientIn) (h : is.length ≤ 65536) :
    (ownIds (c.run is).2).Nodup := by
  obtain ⟨ks, h1, h2, h3⟩ := Client.ids_offsets is c
  rw [h1, List.Nodup, List.pairwise_map]
  refine List.Pairwise.imp_of_mem ?_ h2
  intro a b ha hb hab he
  have := h3 a ha
  have := h3 b hb
  have e : UInt16.ofNat a = UInt16.ofNat b := by
    have := congrArg (fun x => x - c.counter) he
    simpa using this
  have e' := congrArg UInt16.toNat e
  simp only [UInt16.toNat_ofNat'] at e'
  omega

/-- C57: a new client uses the identifiers 1, 2, 3, … in this order, modulo 65536. -/
theorem C57_numbering (is : List ClientIn) (h : ∀ i ∈ is, TakesId i) :
    ownIds (Client.run {} is).2 = (List.range is.length).map fun k => UInt16.ofNat (k + 1) := by
  rw [Client.ids_exact is {} rfl rfl h]
  apply List.map_congr_left
  intro k _
  show 1 + UInt16.ofNat k = _
  rw [UInt16.ofNat_add, UInt16.add_comm]; rfl

/-- C57: within the first 65535 turns of a client, identifier 0 (which MQTT forbids) is not used.
Missing, and false (`C57_zero_false`): that it is never used. -/
theorem C57_nonzero_partial (is : List ClientIn) (h : is.length ≤ 65535) :
    0 ∉ ownIds (Client.run {} is).2 := by
  obtain ⟨ks, h1, _, h3⟩ := Client.ids_offsets is {}
  rw [h1]
  intro hm
  obtain ⟨k, hk, he⟩ := List.mem_map.mp hm
  have := h3 k hk
  have e := congrArg UInt16.toNat he
  have e1 : (1 + UInt16.ofNat k).toNat = 0 := e
  rw [UInt16.toNat_add, UInt16.toNat_ofNat'] at e1
  simp at e1
  omega

/-- C57 is false: the 65536th call that takes an identifier is sent with identifier 0. -/
theorem C57_zero_false (is : List ClientIn) (h : ∀ i ∈ is, TakesId i) (hl : is.length = 65536) :
    (ownIds (Client.run {} is).2)[65535]? = some 0 := by
  rw [C57_numbering is h, hl, List.getElem?_map, List.getElem?_range (by omega)]
  rfl

example : TakesId (.publish (str "t") [1] .atLeastOnce false true) := ⟨by decide, rfl⟩
example : ownIds (Client.run {} [.publish (str "t") [1] .atLeastOnce false true, .tick true,
    .publish (str "t") [1] .atMostOnce false true, .subscribe [(str "t", .exactlyOnce)] true,
    .unsubscribe [str "t"] false, .unsubscribe [str "t"] true]).2 = [1, 2, 4] := by decide +kernel

/-! ## C58: reading what the server sent -/

/-- C58: if no read of the socket ends inside a packet, the client reads exactly the packets that were
sent, then sees the end of the stream.
Missing, and false (`C58_payload_cut_false`, `C58_ping_cut_false`): the same when a read ends inside a
packet. -/
theorem C58_whole_packets_partial (m : Mode) (v : ProtocolVersion) (ps : List Packet) (cs : List Buf)
    (h : WholePackets v ps cs) (n : Nat) (hn : ps.length < n) :
    clientReadStream m v n [] cs = (ps.map (Packet.receivedBy v), some .closed) :=
  clientReadStream_whole m v h n hn

/-- C58 is false: if a read ends inside the payload of a PUBLISH, the client takes the packet for
malformed, whatever arrives later. -/
theorem C58_payload_cut_false (m : Mode) (v : ProtocolVersion) (p : PublishPacket)
    (ha : p.Admissible) (bytes : Buf) (he : (Packet.publish p).encode = .ok bytes)
    (hf : FitsMqtt bytes) (k : Nat) (hk : bytes.length - (p.payload.getD []).length ≤ k)
    (hk' : k < bytes.length) (hne : k ≠ 0) (cs : List Buf) :
    (clientReadPacket m v (bytes.take k) cs).1 = .error (.mqtt .malformedPacket) := by
  have hb : bytes = frame p.header p.body.length p.body := PublishPacket.encode_inv he
  have hbl : p.body.length < 2 ^ 28 := by subst hb; exact frame_inj_body rfl hf
  have hfr : bytes = frame p.header p.body.length p.head ++ p.payload.getD [] := by
    rw [hb]
    conv in frame p.header p.body.length p.body => rw [frame, p.body_head]
    simp only [frame, p.body_head]; simp
  have hlen : bytes.length = (frame p.header p.body.length p.head).length
      + (p.payload.getD []).length := by rw [hfr, List.length_append]
  obtain ⟨j, rfl⟩ : ∃ j, k = (frame p.header p.body.length p.head).length + j :=
    ⟨k - (frame p.header p.body.length p.head).length, by omega⟩
  have hj : j < (p.payload.getD []).length := by omega
  have htake : bytes.take ((frame p.header p.body.length p.head).length + j) =
      frame p.header p.body.length (p.head ++ (p.payload.getD []).take j) := by
    rw [hfr, List.take_length_add_append]; simp [frame]
  have hd := decodePublish_head m p ha ((p.payload.getD []).take j) hbl (by
    rw [p.body_head] at hbl
    simp only [List.length_append, List.length_take] at hbl ⊢
    omega)
  rw [if_pos (by rw [List.length_take]; omega), ← htake] at hd
  obtain ⟨t, ht⟩ : ∃ t, bytes.take ((frame p.header p.body.length p.head).length + j) =
      p.header :: t := ⟨_, by rw [htake, frame]⟩
  rw [ht] at hd ⊢
  have hp : parseWithVersion m v (p.header :: t) = .err (.mqtt .malformedPacket) := by
    rw [parse_publish m v p.header (publish_header p ha.qos).2.2.2.1 t]
    exact Dec.bind_err hd
  cases cs with
  | nil => rw [clientReadPacket]; simp only [hp]
  | cons c cs => rw [clientReadPacket]; simp only [hp]

example := C58_payload_cut_false .debug .v5 { topicName := str "a", payload := some [1, 2, 3] }
  ⟨by decide, by decide, by simp, fun _ h => by cases h⟩ [0x30, 7, 0, 1, 97, 0, 1, 2, 3] (by decide)
  (by unfold FitsMqtt; decide) 7 (by decide) (by decide) (by decide) [[2, 3]]

/-- C58 is false: a read that returns only the first byte of a PINGRESP makes the client's task
panic. -/
theorem C58_ping_cut_false (m : Mode) (v : ProtocolVersion) (cs : List Buf) (n : Nat) :
    clientReadStream m v (n + 1) [] ([0xd0] :: cs) = ([], some .panicked) := by
  have h : clientReadPacket m v [0xd0] cs = (.panicked, [0xd0], cs) := by
    cases cs <;> cases v <;> rfl
  rw [clientReadStream, clientReadPacket_nil_cons m v _ _ (by simp), h]

/-- A PUBLISH of about five kilobytes. -/
def exLargePublish : PublishPacket :=
  { topicName := str "t", payload := some (List.replicate 5000 0x61) }

/-- C58 is false for every message that does not fit into one read of the client's 4096 byte buffer:
the topic and the properties do, the payload does not.  The first read returns at most 4096 bytes, so
the client never receives such a message. -/
theorem C58_large_message_false (m : Mode) (v : ProtocolVersion) (p : PublishPacket)
    (ha : p.Admissible) (bytes : Buf) (he : (Packet.publish p).encode = .ok bytes)
    (hf : FitsMqtt bytes) (hh : bytes.length - (p.payload.getD []).length ≤ 4096)
    (hl : 4096 < bytes.length) (cs : List Buf) (n : Nat) :
    clientReadStream m v (n + 1) [] (bytes.take 4096 :: cs) =
      ([], some (.error (.mqtt .malformedPacket))) := by
  have h := C58_payload_cut_false m v p ha bytes he hf 4096 hh hl (by omega) cs
  rw [clientReadStream, clientReadPacket_nil_cons m v _ _ (by
    intro h0
    have := congrArg List.length h0
    rw [List.length_take, List.length_nil] at this
    omega)]
  cases hx : clientReadPacket m v (bytes.take 4096) cs with
  | mk a b => rw [hx] at h; simp only at h; subst h; rfl

/-- a message of 5000 bytes -/
example (payload : Buf) (h : payload.length = 5000) : ∃ bytes,
    (Packet.publish { topicName := str "a", payload := some payload }).encode = .ok bytes ∧
    FitsMqtt bytes ∧ bytes.length - 5000 ≤ 4096 ∧ 4096 < bytes.length := by
  have hv : encodeVbi ((3 + 0 + 1 + 5000) % 2 ^ 32) = [0x8c, 0x27] := by decide +kernel
  refine ⟨0x30 :: ([0x8c, 0x27] ++ ([0, 1, 97, 0] ++ payload)), ?_, ?_, ?_, ?_⟩
  · have hb : blockSize (optProps PublishProperties.toProps none) = .ok 1 := by decide +kernel
    show PublishPacket.encode _ = _
    rw [PublishPacket.encode_def]
    simp only [hb, optSize, h]
    show Res.ok (_ :: (encodeVbi ((3 + 0 + 1 + 5000) % 2 ^ 32) ++ _)) = _
    rw [hv, show encodeStr (str "a") ++ encodeOpt encodeU16 none ++ encodeBlock (optProps PublishProperties.toProps none) =
      [0, 1, 97, 0] by decide +kernel,
      show PublishPacket.header { topicName := str "a", payload := some payload } = 0x30 from
        (by decide +kernel : PublishPacket.header { topicName := str "a" } = 0x30)]
    rfl
  all_goals
    simp only [FitsMqtt, List.length_cons, List.length_append, h]
    decide
example : (List.replicate 5000 (7 : UInt8)).length = 5000 := List.length_replicate

/-- A QoS 1 message, a ping response and a SUBACK in two reads. -/
def exArrived : List Packet :=
  [.publish { topicName := str "a", qos := .atLeastOnce, packetId := some 3, payload := some [7] },
   .pingResp, .subAck { packetId := 1, payload := [.grantedQoS1] }]

theorem exArrived_whole : WholePackets .v5 exArrived
    [[0x32, 7, 0, 1, 97, 0, 3, 0, 7, 0xd0, 0], [0x90, 4, 0, 1, 0, 1]] := by
  refine WholePackets.cons (ps := exArrived.take 2) (qs := exArrived.drop 2) ?_ (by decide)
    (by decide) (WholePackets.cons (ps := exArrived.drop 2) (qs := []) ?_ (by decide) (by decide) .nil)
  · refine SentTo.cons (bytes := [0x32, 7, 0, 1, 97, 0, 3, 0, 7]) (bs := [0xd0, 0]) ?_
      (by decide) (by unfold FitsMqtt; decide) ?_
    · exact ⟨by decide, by decide, by decide, fun q h => (by cases h)⟩
    · exact SentTo.cons (bytes := [0xd0, 0]) (bs := []) trivial (by decide)
        (by unfold FitsMqtt; decide) .nil
  · refine SentTo.cons (bytes := [0x90, 4, 0, 1, 0, 1]) (bs := []) ?_ (by decide)
      (by unfold FitsMqtt; decide) .nil
    exact ⟨by decide, fun _ => ⟨fun q h => (by cases h), by decide⟩⟩

/-! ## C59: messages and acknowledgements -/

/-- C59: a PUBLISH read by a running client whose event channel has room (and whose socket takes
what is written) gives exactly one event, the message with the same topic, payload, QoS and retain
flag, after all earlier events; PUBACK with the same identifier is written exactly for QoS 1. -/
theorem C59_publish (c : Client) (hr : c.running = true) (hb : ¬ c.blocked) (p : PublishPacket) :
    let r := c.step (.read (.packet (.publish p)) true)
    r.1 = { c with pending := c.pending ++
      [.message p.topicName (p.payload.getD []) p.qos p.retain] } ∧
    (∀ id, p.qos = .atLeastOnce → p.packetId = some id →
      r.2.sent = some (.pubAck ⟨id, .success, none⟩)) ∧
    (p.qos ≠ .atLeastOnce → r.2.sent = none) ∧ r.2.result = none := by
  have hw : ∀ id, Client.write (.pubAck { packetId := id, reason := .success, properties := none })
      true = .ok true := fun id => rfl
  simp only [Client.step, reduceCtorEq, if_false, hb, hr, if_true, Client.turn, Client.incoming]
  cases hq : p.qos <;> cases hi : p.packetId <;> simp [hw, hr, Client.emit]

/-- C59: whether or not the socket takes what is written, the application gets a QoS 1 message exactly if it
has been acknowledged: if the PUBACK cannot be written, the message is dropped (and the server still has it). -/
theorem C59_seen_iff_acknowledged (c : Client) (hr : c.running = true) (hb : ¬ c.blocked) (p : PublishPacket)
    (id : UInt16) (hq : p.qos = .atLeastOnce) (hid : p.packetId = some id) (ok : Bool) :
    let r := c.step (.read (.packet (.publish p)) ok)
    (r.2.sent = some (.pubAck ⟨id, .success, none⟩) ∧
      r.1.pending = c.pending ++ [.message p.topicName (p.payload.getD []) p.qos p.retain]) ∨
    (ok = false ∧ r.2.sent = none ∧ r.1.pending = c.pending) := by
  have hw : ∀ id ok, Client.write (.pubAck { packetId := id, reason := .success, properties := none })
      ok = .ok ok := fun id ok => by cases ok <;> rfl
  simp only [Client.step, reduceCtorEq, if_false, hb, hr, if_true, Client.turn, Client.incoming, hq, hid, hw]
  cases ok with
  | true => exact Or.inl ⟨rfl, by simp [Client.emit]⟩
  | false => exact Or.inr ⟨rfl, rfl, rfl⟩

/-- What the application is told about a packet that was read. -/
def messageOf : ClientIn → Option ClientEvent
  | .read (.packet (.publish p)) _ => some p.event
  | _ => none

/-- The acknowledgement due for a packet that was read. -/
def ackOf : ClientIn → Option Packet
  | .read (.packet (.publish p)) _ =>
    if p.qos = .atLeastOnce then p.packetId.map fun id => .pubAck ⟨id, .success, none⟩ else none
  | _ => none

/-- What happens on a connection that stays up: packets (but no DISCONNECT) arrive, the application
publishes, subscribes, unsubscribes and takes events, pings are due, and writes succeed. -/
def StaysUp : ClientIn → Prop
  | .read (.packet p) ok => ok = true ∧ ∀ d, p ≠ .disconnect d
  | .read _ _ => False
  | .publish _ _ _ _ ok => ok = true
  | .subscribe _ ok => ok = true
  | .unsubscribe _ ok => ok = true
  | .disconnect _ => False
  | .tick ok => ok = true
  | .recv => True

/-- The loop is never waiting for room in the event channel when something arrives. -/
def Flowing (c : Client) : List ClientIn → Prop
  | [] => True
  | i :: is => (i = .recv ∨ ¬ c.blocked) ∧ Flowing (c.step i).1 is

namespace Client

theorem call_true (c : Client) (p : Packet) (r : CallResult) (hp : ∃ b, p.encode = .ok b) :
    c.call p true r = (c, { sent := some p, result := some r }) := by
  obtain ⟨b, hb⟩ := hp
  simp [call, write, hb]

/-- PUBACKs among the packets sent. -/
def acks (outs : List ClientOut) : List Packet :=
  outs.filterMap fun o => match o.sent with
    | some (.pubAck a) => some (.pubAck a)
    | _ => none

theorem step_staysUp (c : Client) (i : ClientIn) (hi : StaysUp i) (hr : c.running = true)
    (hf : i = .recv ∨ ¬ c.blocked) :
    (c.step i).1.running = true ∧
    (c.step i).2.event.toList ++ (c.step i).1.pending = c.pending ++ (messageOf i).toList ∧
    acks [(c.step i).2] = (ackOf i).toList := by
  by_cases hrecv : i = .recv
  · subst hrecv
    simp only [step, if_true, take, messageOf, ackOf]
    cases hp : c.pending <;> simp [acks, hr, hp]
  · have hb : ¬ c.blocked := hf.resolve_left hrecv
    simp only [step, hrecv, hb, hr, if_false, if_true]
    cases i with
    | recv => exact absurd rfl hrecv
    | read r ok =>
      cases r with
      | packet p =>
        obtain ⟨rfl, hd⟩ := hi
        cases p with
        | publish p =>
          have hw : ∀ id, Client.write (.pubAck { packetId := id, reason := .success, properties := none })
              true = .ok true := fun id => rfl
          simp only [turn, incoming, messageOf, ackOf, PublishPacket.event]
          cases hq : p.qos <;> cases hid : p.packetId <;> simp [hw, emit, acks, hr]
        | disconnect d => exact absurd rfl (hd d)
        | _ => simp [turn, incoming, messageOf, ackOf, acks, hr]
      | closed => exact hi.elim
      | error e => exact hi.elim
      | panicked => exact hi.elim
    | publish t pl q r ok =>
      cases hi
      simp only [turn, doPublish]
      rw [call_true _ _ _ ⟨_, rfl⟩]
      by_cases hq : q = .atMostOnce <;> simp [hq, messageOf, ackOf, acks, hr]
    | subscribe l ok =>
      cases hi
      simp only [turn, doSubscribe]
      rw [call_true _ _ _ ⟨_, rfl⟩]
      simp [messageOf, ackOf, acks, hr]
    | unsubscribe l ok =>
      cases hi
      simp only [turn, doUnsubscribe]
      rw [call_true _ _ _ ⟨_, rfl⟩]
      simp [messageOf, ackOf, acks, hr]
    | disconnect ok => exact hi.elim
    | tick ok =>
      cases hi
      have : write .pingReq true = .ok true := by decide
      simp [turn, this, messageOf, ackOf, acks, hr]

end Client

/-- C59: over any length of time on a connection that stays up, the application gets, in order and
each once, exactly the messages of the PUBLISH packets that arrived (those not yet taken are still
pending), and the PUBACKs sent are exactly those due for the QoS 1 messages, in order. -/
theorem C59_all_messages (is : List ClientIn) : ∀ (c : Client), c.running = true → Flowing c is →
    (∀ i ∈ is, StaysUp i) →
    (c.run is).2.filterMap (·.event) ++ (c.run is).1.pending = c.pending ++ is.filterMap messageOf ∧
    Client.acks (c.run is).2 = is.filterMap ackOf := by
  induction is with
  | nil => intro c _ _ _; simp [Client.run, Client.acks]
  | cons i is ih =>
    intro c hr hf hi
    obtain ⟨h1, h2, h3⟩ := c.step_staysUp i (hi i (by simp)) hr hf.1
    obtain ⟨h4, h5⟩ := ih (c.step i).1 h1 hf.2 (fun j hj => hi j (by simp [hj]))
    have e1 : (c.run (i :: is)).2.filterMap (·.event) =
        (c.step i).2.event.toList ++ ((c.step i).1.run is).2.filterMap (·.event) := by
      simp only [Client.run, List.filterMap_cons]
      cases (c.step i).2.event <;> rfl
    have e2 : (c.run (i :: is)).1 = ((c.step i).1.run is).1 := rfl
    have e3 : (i :: is).filterMap messageOf = (messageOf i).toList ++ is.filterMap messageOf := by
      simp only [List.filterMap_cons]; cases messageOf i <;> rfl
    have e4 : (i :: is).filterMap ackOf = (ackOf i).toList ++ is.filterMap ackOf := by
      simp only [List.filterMap_cons]; cases ackOf i <;> rfl
    have e5 : Client.acks (c.run (i :: is)).2 =
        Client.acks [(c.step i).2] ++ Client.acks ((c.step i).1.run is).2 := by
      simp only [Client.run, Client.acks]
      rw [← List.filterMap_append]; rfl
    constructor
    · rw [e1, e2, e3, List.append_assoc, h4, ← List.append_assoc, h2, List.append_assoc]
    · rw [e4, e5, h3, h5]

example : StaysUp (.read (.packet (.publish samplePublish)) true) := ⟨rfl, by simp⟩
example : (Client.run {} (exArrived.map (fun p => .read (.packet p) true) ++ [.recv])).2.map
    (fun o => (o.sent, o.event)) =
    [(some (.pubAck ⟨3, .success, none⟩), none), (none, none), (none, none),
     (none, some (.message (str "a") [7] .atLeastOnce false))] := by decide +kernel

/-- C59: a QoS 2 message is never acknowledged: the client answers neither the PUBLISH nor the PUBREL. -/
theorem C59_qos2_unanswered (c : Client) (p : Packet) (ok : Bool)
    (hp : (∃ q, p = .publish q ∧ q.qos = .exactlyOnce) ∨ ∃ a, p = .pubRel a) :
    (c.step (.read (.packet p) ok)).2.sent = none := by
  simp only [Client.step, reduceCtorEq, if_false]
  split
  · rfl
  split
  · rcases hp with ⟨q, rfl, hq⟩ | ⟨a, rfl⟩
    · simp [Client.turn, Client.incoming, hq]
    · simp [Client.turn, Client.incoming]
  · rfl

/-! ## C60: from a publish call to the broker -/

/-- C60: a publish call on a running client, for a topic MQTT allows and a message within the size
limit of MQTT, writes one PUBLISH.  The server reads exactly one packet from its bytes, in whatever
chunks they arrive, and on an open connection publishes, under the same topic, a message with that
topic, payload, QoS and retain flag, and with the packet id the call returned. -/
theorem C60_publish (m : Mode) (c : Client) (hr : c.running = true) (hb : ¬ c.blocked) (topic : Str)
    (payload : Buf) (q : QoS) (retain : Bool) (ht : ValidTopic topic) (hu : IsUtf8 topic)
    (hq : q ≠ .invalid) (hl : topic.length + payload.length + 5 < 2 ^ 28) :
    ∃ id sent bytes p,
      (c.step (.publish topic payload q retain true)).2 =
        { sent := some sent, result := some (.published id) } ∧
      sent.encode = .ok bytes ∧ (id.isSome ↔ q ≠ .atMostOnce) ∧
      (∀ cs, Chunks cs → cs.flatten = bytes →
        ∃ cs', readPacket m [] cs = (.packet p, [], cs') ∧ cs'.flatten = []) ∧
      ∀ (cfg : AuthConfig) (srv : Server) (k : Nat) (s : Session), srv.at k = some s →
        (srv.step cfg (.recv k p)).1.world =
          srv.world.publish (.client k) topic ⟨id, topic, false, q, retain, some payload⟩ := by
  let pk : PublishPacket :=
    { dup := false, qos := q, retain := retain, topicName := topic
      packetId := if q ≠ .atMostOnce then some c.counter else none
      properties := none, payload := some payload }
  have ha : pk.Admissible := by
    refine ⟨⟨hu, ht.short⟩, hq, ?_, fun q h => (by cases h)⟩
    show (if q ≠ .atMostOnce then some c.counter else none).isSome ↔ q ≠ .atMostOnce
    split <;> simp_all
  have he : (Packet.publish pk).encode = .ok (frame pk.header pk.body.length pk.body) := by
    obtain ⟨b, hb⟩ : ∃ b, (Packet.publish pk).encode = .ok b := ⟨_, rfl⟩
    rw [hb, PublishPacket.encode_inv hb]
  have hf : FitsMqtt (frame pk.header pk.body.length pk.body) := by
    apply fits_frame
    have e1 : (encodeOpt encodeU16 pk.packetId).length ≤ 2 := by
      rw [encodeOpt_length _ (fun _ => 2) encodeU16_length]
      cases pk.packetId <;> simp [optSize]
    have e2 : (encodeBlock (optProps PublishProperties.toProps pk.properties)).length = 1 := by
      show (encodeBlock []).length = 1
      decide
    simp only [PublishPacket.body, List.length_append, str_len, e2]
    show topic.length + 2 + _ + 1 + payload.length < _
    omega
  refine ⟨if q ≠ .atMostOnce then some c.counter else none, .publish pk,
    frame pk.header pk.body.length pk.body, .publish pk.received, ?_, he, ha.packetId, ?_, ?_⟩
  · simp only [Client.step, reduceCtorEq, if_false, hb, hr, if_true, Client.turn, Client.doPublish]
    rw [Client.call_true _ _ _ ⟨_, rfl⟩]
  · intro cs hcs hfl
    obtain ⟨buf', cs', h1, _, _, h4⟩ := readPacket_first m (p := .publish pk) ha he hf [] cs []
      hcs (by simp) (by simpa using hfl)
    obtain ⟨h5, h6⟩ := List.append_eq_nil_iff.mp h4
    subst h5
    exact ⟨cs', h1, h6⟩
  · intro cfg srv k s hs
    have hacc : Accepted (.publish pk.received) := by
      refine ⟨ht, ?_⟩
      show q = .atMostOnce ∨ ((q = .atLeastOnce ∨ q = .exactlyOnce) ∧
        ∃ id, (if q ≠ .atMostOnce then some c.counter else none) = some id)
      cases q <;> simp_all
    exact C35_valid_topic cfg srv k s hs pk.received hacc

example : ValidTopic (str "a/b") ∧ IsUtf8 (str "a/b") :=
  ⟨⟨by decide, by decide, by decide, by decide, by decide⟩, by decide⟩

end Mercurio
