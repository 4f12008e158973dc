import Verif.Props.V5
import Verif.Props.ClientApi
import Verif.Props.Forward
import Verif.Props.Plain
import Verif.Spec.Admission

/-! # C136: writing a packet crashes neither side -/

namespace Mercurio

open Spec Server

/-- A property block that cannot be written: it has a subscription identifier of 2^28 or more, or its length does not fit into the
four bytes of a length field (the length is taken modulo 2^32). -/
def Spec.TooBig (ps : List Property) : Prop :=
  (∃ v : UInt32, .subscriptionIdentifier v ∈ ps ∧ 2 ^ 28 ≤ v.toNat) ∨ 2 ^ 28 ≤ (ps.flatMap Property.encode).length % 2 ^ 32

/-- The property blocks with a length field in a packet: those of CONNECT (with that of the will), CONNACK, SUBACK and UNSUBACK only in
MQTT 5.  DISCONNECT and AUTH are written without a length field. -/
def Spec.blocksOf : Packet → List (List Property)
  | .connect p => if p.protocolVersion = .v5 then
      optProps ConnectProperties.toProps p.properties ::
        (if p.flags.willFlag then [optProps WillProperties.toProps p.payload.willProperties] else []) else []
  | .connAck p => if p.protocolVersion = .v5 then [optProps ConnAckProperties.toProps p.properties] else []
  | .publish p => [optProps PublishProperties.toProps p.properties]
  | .pubAck p | .pubRec p | .pubRel p | .pubComp p => [optProps AckProperties.toProps p.properties]
  | .subscribe p => [optProps SubscribeProperties.toProps p.properties]
  | .unsubscribe p => [optProps UnsubscribeProperties.toProps p.properties]
  | .subAck p => if p.protocolVersion = .v5 then [optProps AckProperties.toProps p.properties] else []
  | .unsubAck p => if p.protocolVersion = .v5 then [optProps AckProperties.toProps p.properties] else []
  | .pingReq | .pingResp | .disconnect _ | .auth _ => []

theorem sizePanics_iff (p : Property) : p.sizePanics = true ↔ ∃ v : UInt32, p = .subscriptionIdentifier v ∧ 2 ^ 28 ≤ v.toNat := by
  cases p <;> simp [Property.sizePanics]
  omega

theorem any_sizePanics (ps : List Property) :
    ps.any Property.sizePanics = true ↔ ∃ v : UInt32, .subscriptionIdentifier v ∈ ps ∧ 2 ^ 28 ≤ v.toNat := by
  rw [List.any_eq_true]
  constructor
  · rintro ⟨p, hp, h⟩
    obtain ⟨v, rfl, hv⟩ := (sizePanics_iff p).mp h
    exact ⟨v, hp, hv⟩
  · rintro ⟨v, hp, hv⟩
    exact ⟨_, hp, (sizePanics_iff _).mpr ⟨v, rfl, hv⟩⟩

theorem blockSize_big {ps : List Property} (h : TooBig ps) : blockSize ps = .panic := by
  unfold blockSize propsSizeRes
  by_cases ha : ps.any Property.sizePanics = true
  · rw [if_pos ha]; rfl
  · rw [if_neg ha]
    have hn := propsSize_eq ps (by simpa using ha)
    rcases h with h | h
    · exact absurd ((any_sizePanics ps).mpr h) ha
    · show (vbiSize (propsSize ps % 2 ^ 32)).bind _ = _
      have h' : 268435455 < propsSize ps % 2 ^ 32 := by
        rw [hn]; exact Nat.lt_of_lt_of_le (by decide) h
      have : vbiSize (propsSize ps % 2 ^ 32) = .panic := by
        unfold vbiSize
        repeat' split
        all_goals first | rfl | omega
      rw [this]
      rfl

theorem blockSize_fine {ps : List Property} (h : ¬ TooBig ps) : ∃ k, blockSize ps = .ok k := by
  unfold blockSize propsSizeRes
  have ha : ¬ ps.any Property.sizePanics = true := fun ha => h (.inl ((any_sizePanics ps).mp ha))
  rw [if_neg ha]
  have hn := propsSize_eq ps (by simpa using ha)
  have hlt : propsSize ps % 2 ^ 32 < 2 ^ 28 := by
    rw [hn]; exact Nat.lt_of_not_le fun hle => h (.inr hle)
  have hv : ∃ k, vbiSize (propsSize ps % 2 ^ 32) = .ok k := by
    unfold vbiSize
    repeat' split
    all_goals first | exact ⟨_, rfl⟩ | omega
  obtain ⟨k, hk⟩ := hv
  refine ⟨k + propsSize ps, ?_⟩
  show (vbiSize (propsSize ps % 2 ^ 32)).bind _ = _
  rw [hk]
  rfl

theorem res_pure_bind {α β : Type} (a : α) (f : α → Res β) : (pure a >>= f : Res β) = f a := rfl

theorem res_panic_bind {α β : Type} (f : α → Res β) : ((Res.panic : Res α) >>= f : Res β) = .panic := rfl

theorem propsSizeRes_none {ps : List Property} (h : ∀ v : UInt32, .subscriptionIdentifier v ∉ ps) : propsSizeRes ps = .ok (propsSize ps) := by
  unfold propsSizeRes
  rw [if_neg]
  intro ha
  obtain ⟨v, hv, _⟩ := (any_sizePanics ps).mp ha
  exact h v hv

theorem not_tooBig_nil : ¬ TooBig [] := by
  rintro (⟨v, h, _⟩ | h)
  · cases h
  · exact absurd h (by decide)

theorem encodes_of {p : Packet} (h : ∀ ps ∈ blocksOf p, ¬ TooBig ps) : ∃ b, p.encode = .ok b := by
  have one : ∀ ps, ps ∈ blocksOf p → ∃ k, blockSize ps = .ok k := fun ps hp => blockSize_fine (h ps hp)
  have ack : ∀ (x : UInt8) (q : AckPacket), (∃ k, blockSize (optProps AckProperties.toProps q.properties) = .ok k) → ∃ b, q.encode x = .ok b := by
    rintro x q ⟨k, hk⟩
    rw [AckPacket.encode_def, hk]
    split
    · simp only [Res.bind_ok, res_pure_bind]
      split <;> exact ⟨_, rfl⟩
    · simp only [res_pure_bind]
      split <;> exact ⟨_, rfl⟩
  cases p with
  | connect q =>
    rw [Packet.encode, ConnectPacket.encode_def, ConnectPayload.sizeFor_def]
    by_cases hv : q.protocolVersion.supportsProperties = true
    · obtain ⟨k, hk⟩ := one (optProps ConnectProperties.toProps q.properties) (by simp [blocksOf, (supports_iff _).mp hv])
      by_cases hw : q.flags.willFlag = true
      · obtain ⟨j, hj⟩ := one (optProps WillProperties.toProps q.payload.willProperties) (by simp [blocksOf, (supports_iff _).mp hv, hw])
        rw [if_pos hv, hk, if_pos (by rw [hv, hw]; rfl), hj]; exact ⟨_, rfl⟩
      · rw [if_pos hv, hk, if_neg (by simp [hw])]; exact ⟨_, rfl⟩
    · rw [if_neg hv, if_neg (by simp [hv])]; exact ⟨_, rfl⟩
  | connAck q =>
    rw [Packet.encode, ConnAckPacket.encode_def]
    split
    · rename_i hv
      obtain ⟨k, hk⟩ := one (optProps ConnAckProperties.toProps q.properties) (by simp [blocksOf, (supports_iff _).mp hv])
      rw [hk]; exact ⟨_, rfl⟩
    · exact ⟨_, rfl⟩
  | publish q =>
    obtain ⟨k, hk⟩ := one _ (List.mem_singleton.mpr rfl)
    rw [Packet.encode, PublishPacket.encode_def, hk]; exact ⟨_, rfl⟩
  | pubAck q => exact ack _ q (one _ (List.mem_singleton.mpr rfl))
  | pubRec q => exact ack _ q (one _ (List.mem_singleton.mpr rfl))
  | pubRel q => exact ack _ q (one _ (List.mem_singleton.mpr rfl))
  | pubComp q => exact ack _ q (one _ (List.mem_singleton.mpr rfl))
  | subscribe q =>
    obtain ⟨k, hk⟩ := one _ (List.mem_singleton.mpr rfl)
    rw [Packet.encode, SubscribePacket.encode_def, hk]; exact ⟨_, rfl⟩
  | unsubscribe q =>
    obtain ⟨k, hk⟩ := one _ (List.mem_singleton.mpr rfl)
    rw [Packet.encode, UnsubscribePacket.encode_def, hk]; exact ⟨_, rfl⟩
  | subAck q =>
    rw [Packet.encode, SubAckPacket.encode_def]
    by_cases hv : q.protocolVersion.supportsProperties = true
    · obtain ⟨k, hk⟩ := one (optProps AckProperties.toProps q.properties) (by simp [blocksOf, (supports_iff _).mp hv])
      rw [if_pos hv, hk]; exact ⟨_, rfl⟩
    · rw [if_neg hv]; exact ⟨_, rfl⟩
  | unsubAck q =>
    rw [Packet.encode, UnsubAckPacket.encode_def]
    split
    · rename_i hv
      obtain ⟨k, hk⟩ := one (optProps AckProperties.toProps q.properties) (by simp [blocksOf, (supports_iff _).mp hv])
      rw [hk]; exact ⟨_, rfl⟩
    · exact ⟨_, rfl⟩
  | pingReq => exact ⟨_, rfl⟩
  | pingResp => exact ⟨_, rfl⟩
  | disconnect q =>
    rw [Packet.encode, DisconnectPacket.encode_def, propsSizeRes_none]
    · exact ⟨_, rfl⟩
    · intro v hv
      cases hq : q.properties with
      | none => rw [hq] at hv; cases hv
      | some x =>
        rw [hq] at hv
        simp [optProps, DisconnectProperties.toProps] at hv
  | auth q =>
    rw [Packet.encode, AuthPacket.encode_def, propsSizeRes_none]
    · exact ⟨_, rfl⟩
    · intro v hv
      simp [AuthProperties.toProps] at hv

/-- C136: writing a packet aborts exactly if one of its property blocks has a subscription identifier of 2^28 or more, or a length that
does not fit into a length field; otherwise it succeeds. -/
theorem C136_aborts_iff (p : Packet) : p.encode = .panic ↔ ∃ ps ∈ blocksOf p, TooBig ps := by
  constructor
  · intro h
    apply Classical.byContradiction
    intro hn
    obtain ⟨b, hb⟩ := encodes_of (p := p) fun ps hp hb => hn ⟨ps, hp, hb⟩
    rw [hb] at h
    cases h
  · rintro ⟨ps, hp, hb⟩
    have hk := blockSize_big hb
    have ack : ∀ (x : UInt8) (q : AckPacket), blockSize (optProps AckProperties.toProps q.properties) = .panic → q.encode x = .panic := by
      intro x q hq
      rw [AckPacket.encode_def, if_pos, hq]
      · rfl
      · cases hs : q.properties with
        | none => rw [hs] at hq; cases hq
        | some y => rfl
    cases p with
    | connect q =>
      simp only [blocksOf] at hp
      split at hp
      · rename_i hv
        rw [Packet.encode, ConnectPacket.encode_def, ConnectPayload.sizeFor_def, if_pos ((supports_iff _).mpr hv)]
        rcases List.mem_cons.mp hp with rfl | hp
        · rw [hk]; rfl
        · split at hp
          · rename_i hw
            cases List.mem_singleton.mp hp
            rw [if_pos (by rw [(supports_iff _).mpr hv, hw]; rfl), hk]
            cases hz : blockSize (optProps ConnectProperties.toProps q.properties) with
            | ok k => rfl
            | panic => rfl
            | err e =>
              exfalso
              have := C09_encode_no_error (.connect q) e
              rw [Packet.encode, ConnectPacket.encode_def, if_pos ((supports_iff _).mpr hv), hz] at this
              exact this rfl
          · cases hp
      · cases hp
    | connAck q =>
      simp only [blocksOf] at hp
      split at hp
      · rename_i hv
        cases List.mem_singleton.mp hp
        rw [Packet.encode, ConnAckPacket.encode_def, if_pos ((supports_iff _).mpr hv), hk]; rfl
      · cases hp
    | publish q =>
      cases List.mem_singleton.mp hp
      rw [Packet.encode, PublishPacket.encode_def, hk]; rfl
    | pubAck q => cases List.mem_singleton.mp hp; exact ack _ q hk
    | pubRec q => cases List.mem_singleton.mp hp; exact ack _ q hk
    | pubRel q => cases List.mem_singleton.mp hp; exact ack _ q hk
    | pubComp q => cases List.mem_singleton.mp hp; exact ack _ q hk
    | subscribe q =>
      cases List.mem_singleton.mp hp
      rw [Packet.encode, SubscribePacket.encode_def, hk]; rfl
    | unsubscribe q =>
      cases List.mem_singleton.mp hp
      rw [Packet.encode, UnsubscribePacket.encode_def, hk]; rfl
    | subAck q =>
      simp only [blocksOf] at hp
      split at hp
      · rename_i hv
        cases List.mem_singleton.mp hp
        rw [Packet.encode, SubAckPacket.encode_def, if_pos ((supports_iff _).mpr hv), hk]; rfl
      · cases hp
    | unsubAck q =>
      simp only [blocksOf] at hp
      split at hp
      · rename_i hv
        cases List.mem_singleton.mp hp
        rw [Packet.encode, UnsubAckPacket.encode_def, if_pos ((supports_iff _).mpr hv), hk]; rfl
      · cases hp
    | pingReq => cases hp
    | pingResp => cases hp
    | disconnect q => cases hp
    | auth q => cases hp

/-- A PUBLISH with the identifier 2^28 aborts; with the largest legal one it is written. -/
example : (Packet.publish { qos := .atMostOnce, topicName := str "t", properties := some { subscriptionIdentifier := some 268435456 } }).encode =
      .panic ∧
    (Packet.publish { qos := .atMostOnce, topicName := str "t", properties := some { subscriptionIdentifier := some 268435455 } }).encode =
      .ok [0x30, 9, 0, 1, 116, 5, 0x0b, 0xff, 0xff, 0xff, 0x7f] := by decide +kernel

theorem small_block {p : Packet} (h : ∀ ps ∈ blocksOf p, ps = []) : ∃ b, p.encode = .ok b :=
  encodes_of fun ps hp => h ps hp ▸ not_tooBig_nil

theorem publish_plain {q : PublishPacket} (h : q.properties = none) : ∃ b, (Packet.publish q).encode = .ok b :=
  small_block fun ps hp => by rw [List.mem_singleton.mp hp, h]; rfl

theorem ack_plain (q : AckPacket) (h : q.properties = none) :
    (∃ b, (Packet.pubAck q).encode = .ok b) ∧ (∃ b, (Packet.pubRec q).encode = .ok b) ∧ (∃ b, (Packet.pubRel q).encode = .ok b) ∧
      ∃ b, (Packet.pubComp q).encode = .ok b := by
  have key : ∀ ps, ps ∈ [optProps AckProperties.toProps q.properties] → ps = [] := fun ps hp => by
    rw [List.mem_singleton.mp hp, h]; rfl
  exact ⟨small_block key, small_block key, small_block key, small_block key⟩

theorem ackV_plain {v : ProtocolVersion} {o : Option AckProperties} (h : o = none) :
    ∀ ps ∈ (if v = .v5 then [optProps AckProperties.toProps o] else []), ps = [] := by
  intro ps hp
  split at hp
  · rw [List.mem_singleton.mp hp, h]; rfl
  · cases hp

theorem connAck_plain {q : ConnAckPacket} (h : q.properties = none) : ∃ b, (Packet.connAck q).encode = .ok b :=
  small_block fun ps hp => by
    simp only [blocksOf] at hp
    split at hp
    · rw [List.mem_singleton.mp hp, h]; rfl
    · cases hp

theorem connAck_assigned {q : ConnAckPacket} {u : Str} (hu : u.length ≤ 65535) (h : q.properties = some { assignedClientId := some u }) :
    ∃ b, (Packet.connAck q).encode = .ok b :=
  encodes_of fun ps hp => by
    simp only [blocksOf] at hp
    split at hp
    · rw [List.mem_singleton.mp hp, h]
      have e : optProps ConnAckProperties.toProps (some { assignedClientId := some u }) = [.assignedClientIdentifier u] := by
        simp [optProps, ConnAckProperties.toProps]
      rw [e]
      rintro (⟨v, hv, _⟩ | hv)
      · cases List.mem_singleton.mp hv
      · have : ([Property.assignedClientIdentifier u].flatMap Property.encode).length < 2 ^ 28 := by
          simp only [List.flatMap_cons, List.flatMap_nil, List.append_nil, Property.encode, Property.encodeValue, Property.id,
            List.length_append]
          have : (encodeVbi 0x12).length = 1 := rfl
          have : (encodeStr u).length = u.length + 2 := by simp [binSize]
          omega
        have := Nat.mod_le ([Property.assignedClientIdentifier u].flatMap Property.encode).length (2 ^ 32)
        omega
    · cases hp

/-- C136 for the server: whatever has happened and whatever happens next, every packet the server sends can be written.  (The
client identifiers it makes up are UUIDs, well below 65536 bytes.) -/
theorem C136_server (cfg : AuthConfig) (srv : Server) (e : Event) (hu : ∀ c p u w, e = .first c p u w → u.length ≤ 65535) :
    ∀ p ∈ (srv.step cfg e).2.sent, ∃ b, p.encode = .ok b := by
  have on : ∀ (c : Nat) (f : Nat → Session → Server × Out), (∀ r s, ∀ p ∈ (f r s).2.sent, ∃ b, p.encode = .ok b) →
      ∀ p ∈ (srv.onConn c f).2.sent, ∃ b, p.encode = .ok b := by
    intro c f hf p hp
    unfold Server.onConn at hp
    split at hp
    · cases hp
    · split at hp
      · cases hp
      · exact hf _ _ p hp
  intro p hp
  cases e with
  | first c q u w =>
    simp only [Server.step] at hp
    split at hp
    · cases hp
    · split at hp
      · rename_i q
        unfold Server.connect at hp
        split at hp
        · rw [List.mem_singleton.mp hp]; exact connAck_plain rfl
        · unfold Server.start at hp
          simp only at hp
          split at hp
          · rcases List.mem_cons.mp hp with rfl | hp
            · unfold Session.begin
              split
              · simp only
                by_cases hv : (ProtocolVersion.supportsProperties (((srv.discard q.payload.clientId q.flags.cleanStart).enter q).2.2.connect.protocolVersion)) = true
                · exact connAck_assigned (hu _ _ _ _ rfl) (if_pos hv)
                · exact connAck_plain (if_neg hv)
              · exact connAck_plain rfl
            · obtain ⟨i, _, rfl⟩ := List.mem_map.mp hp
              exact publish_plain rfl
          · cases hp
      · cases hp
  | recv c q =>
    refine on c _ ?_ p hp
    intro r s p hp
    have answer : ∀ q res, (s.processIncoming srv.world cfg.manager c q).result = .ok (some res) → (∀ d, q ≠ .disconnect d) →
        ∃ b, res.encode = .ok b := by
      intro q res h hd
      cases q with
      | publish q =>
        simp only [Session.processIncoming, Session.handlePublish] at h
        split at h
        · cases h
        · simp only [Session.publishResponse] at h
          split at h <;> cases h
          · exact (ack_plain _ rfl).1
          · exact (ack_plain _ rfl).2.1
      | pubAck q => cases h
      | pubRec q => cases h; exact (ack_plain _ rfl).2.2.1
      | pubRel q => cases h; exact (ack_plain _ rfl).2.2.2
      | pubComp q => cases h
      | subscribe q => cases h; exact small_block (ackV_plain rfl)
      | unsubscribe q => cases h; exact small_block (ackV_plain rfl)
      | pingReq => cases h; exact ⟨_, rfl⟩
      | disconnect q => exact absurd rfl (hd q)
      | auth q =>
        have a : ∀ x : AuthPacket, ∃ b, (Packet.auth x).encode = .ok b := fun x => small_block fun ps hp => by cases hp
        have key : ∃ x, res = .auth x := by
          simp only [Session.processIncoming, Session.handleAuth] at h
          split at h
          · cases h
          · simp only at h
            split at h
            · simp only [Session.authStart] at h
              repeat' split at h
              all_goals cases h
              all_goals exact ⟨_, rfl⟩
            · simp only [Session.authContinue] at h
              repeat' split at h
              all_goals cases h
              all_goals exact ⟨_, rfl⟩
            · cases h
        obtain ⟨x, rfl⟩ := key
        exact a x
      | connect q => cases h
      | connAck q => cases h
      | subAck q => cases h
      | unsubAck q => cases h
      | pingResp => cases h
    unfold Server.recv at hp
    split at hp
    · cases hp
    · rename_i hd
      simp only at hp
      split at hp
      · cases hp
      · rename_i res hres
        cases res with
        | none => cases hp
        | some res =>
          rw [List.mem_singleton.mp hp]
          exact answer _ res hres fun d e => hd d e
  | deliver c f =>
    refine on c _ ?_ p hp
    intro r s p hp
    unfold Server.deliver at hp
    split at hp
    · cases hp
    · rename_i h
      rw [List.mem_singleton.mp hp]
      unfold Session.processOutgoing at h
      split at h
      · cases h
      · split at h
        · cases h
        · simp only at h
          split at h <;> cases h
          exact publish_plain rfl
    · cases hp
  | close c => exact on c _ (fun r s p hp => by cases hp) p hp
  | abort c => cases hp
  | restart => cases hp

/-- A client without an identifier is given one, and the answer is written. -/
example : ((Server.init.step {} (.first 0 (.connect (exConnect [] true)) (str "made-up") true)).2.sent.map
    Packet.encode) = [.ok [0x20, 13, 0, 0, 10, 0x12, 0, 7, 109, 97, 100, 101, 45, 117, 112]] := by decide +kernel

/-- C136 for the client's CONNECT: it can be written, whatever the options. -/
theorem C136_connect (o : ConnectOptions) : ∃ b, (Packet.connect (buildConnect o)).encode = .ok b := by
  refine small_block fun ps hp => ?_
  simp only [blocksOf] at hp
  split at hp
  · rcases List.mem_cons.mp hp with rfl | hp
    · rfl
    · split at hp
      · rw [List.mem_singleton.mp hp]
        show optProps WillProperties.toProps (o.will.map fun _ => {}) = []
        cases o.will <;> rfl
      · cases hp
  · cases hp

/-- C136 for the client: every packet a turn of the client sends can be written, and if the loop ends in a turn, it is not because of
writing: the turn had nothing to write, or was the application's `disconnect`, or a ping the socket did not take. -/
theorem C136_client (c : Client) (i : ClientIn) :
    (∀ p, (c.step i).2.sent = some p → ∃ b, p.encode = .ok b) ∧
    (c.running = true → (c.step i).1.running = false →
      i = .tick false ∨ (∃ ok, i = .disconnect ok) ∨ ∃ r ok, i = .read r ok ∧ ∀ p, r ≠ .packet p) := by
  refine ⟨?_, ?_⟩
  · intro p hp
    have wr : ∀ (d : Client) (q : Packet) (ok : Bool) (r : CallResult), (d.call q ok r).2.sent = some p → ∃ b, p.encode = .ok b := by
      intro d q ok r h
      unfold Client.call Client.write at h
      cases hq : q.encode with
      | ok b =>
        rw [hq] at h
        cases ok
        · cases h
        · cases h; exact ⟨b, hq⟩
      | err e => rw [hq] at h; cases h
      | panic => rw [hq] at h; cases h
    unfold Client.step at hp
    split at hp
    · unfold Client.take at hp
      split at hp <;> cases hp
    · split at hp
      · cases hp
      · split at hp
        · cases i with
          | read r ok =>
            cases r with
            | packet q =>
              simp only [Client.turn, Client.incoming] at hp
              repeat' split at hp
              all_goals first | (cases hp; done) | skip
              all_goals (cases hp; exact (ack_plain _ rfl).1)
            | closed => cases hp
            | error e => cases hp
            | panicked => cases hp
          | publish t pl q r ok => exact wr _ _ _ _ hp
          | subscribe l ok => exact wr _ _ _ _ hp
          | unsubscribe l ok => exact wr _ _ _ _ hp
          | disconnect ok => exact wr _ _ _ _ hp
          | tick ok =>
            cases ok
            · cases hp
            · cases hp; exact ⟨_, rfl⟩
          | recv => cases hp
        · cases i <;> cases hp
  · intro hr hend
    rcases C81_end_told c hr i hend with ⟨ok, rfl, _⟩ | ⟨r, h, _⟩
    · exact .inr (.inr ⟨_, _, rfl, fun p => by rintro ⟨⟩⟩)
    · cases i with
      | read x ok =>
        cases x with
        | packet q => cases h
        | closed => exact .inr (.inr ⟨_, _, rfl, fun p => by rintro ⟨⟩⟩)
        | error e => exact .inr (.inr ⟨_, _, rfl, fun p => by rintro ⟨⟩⟩)
        | panicked => exact .inr (.inr ⟨_, _, rfl, fun p => by rintro ⟨⟩⟩)
      | tick ok =>
        cases ok
        · exact .inl rfl
        · exact absurd h.1 (by simp)
      | disconnect ok => exact .inr (.inl ⟨ok, rfl⟩)
      | _ => cases h

/-- A client that is asked to publish under a topic of 70000 bytes sends a packet and goes on. -/
example : let r := Client.step {} (.publish (List.replicate 70000 97) [] .atMostOnce false true)
    r.1.running = true ∧ r.2.sent.isSome = true := by decide +kernel

/-- A client whose socket does not take the ping ends. -/
example : (Client.step {} (.tick false)).1.running = false := by decide +kernel

theorem writePackets_all {ps : List Packet} (h : ∀ p ∈ ps, ∃ b, p.encode = .ok b) :
    ∃ bs : List Buf, ps.map Packet.encode = bs.map Res.ok ∧ writePackets ps = (bs.flatten, true) := by
  induction ps with
  | nil => exact ⟨[], rfl, rfl⟩
  | cons p ps ih =>
    obtain ⟨b, hb⟩ := h p (by simp)
    obtain ⟨bs, h1, h2⟩ := ih fun q hq => h q (by simp [hq])
    refine ⟨b :: bs, by simp [hb, h1], ?_⟩
    rw [writePackets, hb, h2]
    rfl

/-- C78 for packets: on a connection that has been let in, a packet (other than AUTH, see C48) that was read from the bytes is
answered in writing, and the handler goes on, exactly if the packet is one of those a client may send and the keep-alive is not 0;
otherwise the handler ends. -/
theorem C78_packet (m : Mode) (cfg : AuthConfig) (ns : List NetEvent) (hd : ShortChunks ns) (c : Nat) (w : Wire)
    (hw : (Net.init.run m cfg ns).wires.get c = some w) (hr : w.running = true) (hb : w.begun = true) (p : Packet) (rest : Buf)
    (hp : parsePacket m w.buf = .packet p rest) (ha : ∀ a, p ≠ .auth a) (uuid : Str) (written : Bool) :
    ∃ w', ((Net.init.run m cfg ns).step m cfg (.turn c uuid written)).wires.get c = some w' ∧ w'.buf = rest ∧
      (w'.running = true ↔ Accepted p ∧ w.keepalive ≠ 0) ∧
      (Accepted p → ∃ (ps : List Packet) (bs : List Buf), Answer p ps ∧ ps.map Packet.encode = bs.map Res.ok ∧ w'.sent = w.sent ++ bs.flatten) ∧
      (¬ Accepted p → w'.sent = w.sent) := by
  obtain ⟨es, h⟩ := netInv_run m cfg ns hd
  generalize Net.init.run m cfg ns = n at *
  obtain ⟨k, hk⟩ := (h.opened c).mpr ⟨w, hw, hr, hb⟩
  have hR : Server.Reachable cfg n.server := ⟨es, h.server⟩
  obtain ⟨_, s, hs⟩ := (Server.Reachable.inv hR).conns c k hk
  have hat : n.server.at c = some s := at_eq_some.mpr ⟨k, hk, hs⟩
  obtain ⟨h1, h2⟩ := C34_answers cfg n.server c s hat p ha
  obtain ⟨bs, g1, g2⟩ := writePackets_all (C136_server cfg n.server (.recv c p) (by rintro _ _ _ _ ⟨⟩))
  simp only [Net.step, Net.onWire, hw, hr, if_true, hp, hb, Net.act, Map.get_insert, g2, Bool.true_and, Net.resets]
  refine ⟨_, rfl, rfl, ?_, ?_, ?_⟩
  · have ab : ∀ x : Server, ((x.step cfg (.abort c)).1.conns.get c).isSome = false := by
      intro x
      simp [Server.step, Map.get_erase]
    by_cases hz : w.keepalive = 0
    · simp [hz, ab]
    · simp only [ne_eq, hz, not_false_eq_true, decide_true, if_true, and_true]
      rw [← isOpen_iff]
      by_cases hA : Accepted p
      · exact ⟨fun _ => hA, fun _ => (h1 hA).1⟩
      · exact ⟨fun x => absurd x (h2 hA).1, fun x => absurd x hA⟩
  · intro hA
    exact ⟨_, bs, (h1 hA).2, g1, rfl⟩
  · intro hA
    have := (h2 hA).2
    rw [this] at g1
    cases bs with
    | nil => simp
    | cons => cases g1

/-- A client connects and pings; then the ping is read and answered. -/
def exPinging : List NetEvent :=
  [.accept 0, .data 0 ([0x10, 14, 0, 4, 77, 81, 84, 84, 5, 2, 0, 60, 0, 0, 1, 99] ++ [0xc0, 0]), .turn 0 (str "u") true]

example : (((Net.init.run .debug {} exPinging).wires.get 0).map fun w => (w.buf, w.running, w.begun, w.keepalive, w.sent)) =
      some ([0xc0, 0], true, true, 60, [0x20, 3, 0, 0, 0]) ∧
    parsePacket .debug [0xc0, 0] = .packet .pingReq [0] ∧
    (((Net.init.run .debug {} exPinging).step .debug {} (.turn 0 (str "u") true)).wires.get 0).map (fun w => (w.running, w.sent)) =
      some (true, [0x20, 3, 0, 0, 0] ++ [0xd0, 0]) := by decide +kernel

/-- C78 for AUTH: it is answered in writing, and the handler goes on, exactly if the authenticator that the client's exchange is
with has an answer and the keep-alive is not 0; without authenticators every AUTH ends the handler. -/
theorem C78_auth (m : Mode) (cfg : AuthConfig) (ns : List NetEvent) (hd : ShortChunks ns) (c : Nat) (w : Wire)
    (hw : (Net.init.run m cfg ns).wires.get c = some w) (hr : w.running = true) (hb : w.begun = true) (a : AuthPacket) (rest : Buf)
    (hp : parsePacket m w.buf = .packet (.auth a) rest) (uuid : Str) (written : Bool) :
    ∃ s w', (Net.init.run m cfg ns).server.at c = some s ∧
      ((Net.init.run m cfg ns).step m cfg (.turn c uuid written)).wires.get c = some w' ∧ w'.buf = rest ∧
      match cfg.manager.bind fun x => (Plain.authStep x s.authMethod a).2 with
      | none => w'.running = false ∧ w'.sent = w.sent
      | some q => (w'.running = true ↔ w.keepalive ≠ 0) ∧ ∃ b, q.encode = .ok b ∧ w'.sent = w.sent ++ b := by
  obtain ⟨es, h⟩ := netInv_run m cfg ns hd
  generalize Net.init.run m cfg ns = n at *
  obtain ⟨k, hk⟩ := (h.opened c).mpr ⟨w, hw, hr, hb⟩
  have hR : Server.Reachable cfg n.server := ⟨es, h.server⟩
  obtain ⟨_, s, hs⟩ := (Server.Reachable.inv hR).conns c k hk
  have hat : n.server.at c = some s := at_eq_some.mpr ⟨k, hk, hs⟩
  obtain ⟨bs, g1, g2⟩ := writePackets_all (C136_server cfg n.server (.recv c (.auth a)) (by rintro _ _ _ _ ⟨⟩))
  have hres : ∃ s', (∃ e, (cfg.manager.bind fun x => (Plain.authStep x s.authMethod a).2) = none ∧
        s.processIncoming n.server.world cfg.manager c (.auth a) = ⟨s', n.server.world, .error e⟩) ∨
      ∃ q, (cfg.manager.bind fun x => (Plain.authStep x s.authMethod a).2) = some q ∧
        s.processIncoming n.server.world cfg.manager c (.auth a) = ⟨s', n.server.world, .ok (some q)⟩ := by
    cases hm : cfg.manager with
    | none => exact ⟨s, .inl ⟨_, rfl, rfl⟩⟩
    | some x =>
      obtain ⟨r, e1, e2⟩ := handleAuth_eq s n.server.world x a
      rcases e2 with ⟨e2, e, rfl⟩ | ⟨q, e2, rfl⟩
      · exact ⟨_, .inl ⟨e, e2, e1⟩⟩
      · exact ⟨_, .inr ⟨q, e2, e1⟩⟩
  refine ⟨s, _, hat, by
    simp only [Net.step, Net.onWire, hw, hr, if_true, hp, hb, Net.act, Map.get_insert, g2, Bool.true_and, Net.resets]; rfl, rfl, ?_⟩
  have ab : ∀ x : Server, ((x.step cfg (.abort c)).1.conns.get c).isSome = false := by
    intro x
    simp [Server.step, Map.get_erase]
  obtain ⟨s', ⟨e, e1, e2⟩ | ⟨q, e1, e2⟩⟩ := hres
  · obtain ⟨_, _, _, e3⟩ := step_recv_error (cfg := cfg) hat (by rintro d ⟨⟩) e2
    rw [e3] at g1
    rw [e1, e3]
    refine ⟨?_, ?_⟩
    · by_cases hz : w.keepalive = 0
      · simp [hz, ab]
      · simp only [ne_eq, hz, not_false_eq_true, decide_true, if_true]
        rw [conns_finish, Map.get_erase, if_pos rfl]; rfl
    · cases bs with
      | nil => simp
      | cons => cases g1
  · obtain ⟨_, _, _, e3⟩ := step_recv_ok (cfg := cfg) hat (by rintro d ⟨⟩) e2
    rw [e3] at g1
    rw [e1, e3]
    refine ⟨?_, ?_⟩
    · by_cases hz : w.keepalive = 0
      · simp [hz, ab]
      · simp [hz, hk]
    · cases bs with
      | nil => cases g1
      | cons b bs =>
        simp only [Option.toList, List.map_cons, List.map_nil, List.cons.injEq] at g1
        cases bs with
        | nil => exact ⟨b, g1.1, by simp⟩
        | cons => cases g1.2

/-- A client connects and sends an AUTH without properties to a server without authenticators. -/
def exChallenged : List NetEvent :=
  [.accept 0, .data 0 ([0x10, 14, 0, 4, 77, 81, 84, 84, 5, 2, 0, 60, 0, 0, 1, 99] ++ [0xf0, 2, 0x19, 0]), .turn 0 (str "u") true]

example : (((Net.init.run .debug {} exChallenged).wires.get 0).map fun w => (w.running, w.begun, parsePacket .debug w.buf)) =
    some (true, true, .packet (.auth { reason := .reAuthenticate, properties := {} }) []) := by decide +kernel

/-- C78 for the first packet: the handler of a new connection goes on exactly if the packet is a CONNECT, with accepted user name and
password if they are required, and the CONNACK could be written.  Whatever the packet, what the server sends it can write. -/
theorem C78_first (m : Mode) (cfg : AuthConfig) (ns : List NetEvent) (hd : ShortChunks ns) (c : Nat) (w : Wire)
    (hw : (Net.init.run m cfg ns).wires.get c = some w) (hr : w.running = true) (hb : w.begun = false) (p : Packet) (rest : Buf)
    (hp : parsePacket m w.buf = .packet p rest) (uuid : Str) (hu : uuid.length ≤ 65535) (written : Bool) :
    ∃ w', ((Net.init.run m cfg ns).step m cfg (.turn c uuid written)).wires.get c = some w' ∧ w'.buf = rest ∧
      (w'.running = true ↔ written = true ∧ ∃ q, p = .connect q ∧
        (cfg.requireAuth = true → Accepts cfg q.payload.userName q.payload.password)) ∧
      ∃ bs : List Buf, ((Net.init.run m cfg ns).server.step cfg (.first c p uuid written)).2.sent.map Packet.encode = bs.map Res.ok ∧
        w'.sent = w.sent ++ bs.flatten := by
  obtain ⟨es, h⟩ := netInv_run m cfg ns hd
  generalize Net.init.run m cfg ns = n at *
  have hno : ¬ n.server.isOpen c := by
    intro ho
    obtain ⟨w0, h0, _, h1⟩ := (h.opened c).mp ho
    rw [hw] at h0
    cases h0
    rw [hb] at h1
    cases h1
  have hk : n.server.conns.get c = none := by
    cases hc : n.server.conns.get c with
    | none => rfl
    | some k => exact absurd ⟨k, hc⟩ hno
  obtain ⟨bs, g1, g2⟩ := writePackets_all (C136_server cfg n.server (.first c p uuid written) (by rintro _ _ _ _ ⟨⟩; exact hu))
  refine ⟨_, by
    simp only [Net.step, Net.onWire, hw, hr, if_true, hp, hb, Net.act, Map.get_insert, g2, Bool.true_and, Net.resets,
      Bool.false_eq_true, if_false]; rfl, rfl, ?_, bs, g1, rfl⟩
  simp only
  by_cases hq : ∃ q, p = .connect q
  · obtain ⟨q, rfl⟩ := hq
    have ha := authenticated_iff cfg q
    simp only [Server.step, hk, Option.isSome_none, Bool.false_eq_true, if_false, Server.connect]
    by_cases hr' : cfg.requireAuth = true ∧ authenticated cfg q = false
    · rw [if_pos (by simp [hr'.1, hr'.2])]
      simp only [hk, Option.isSome_none, Bool.false_eq_true, false_iff]
      rintro ⟨_, q', e, h'⟩
      cases e
      have := ha.mpr (h' hr'.1)
      rw [hr'.2] at this
      cases this
    · rw [if_neg (by simpa using fun h => by cases hx : authenticated cfg q <;> simp_all)]
      have hacc : cfg.requireAuth = true → Accepts cfg q.payload.userName q.payload.password := fun hx =>
        ha.mp (by cases hy : authenticated cfg q with
          | true => rfl
          | false => exact absurd ⟨hx, hy⟩ hr')
      unfold Server.start
      cases written with
      | true => simpa [Map.get_insert] using hacc
      | false =>
        simp only [Bool.false_eq_true, if_false, false_and, iff_false, conns_put]
        have : ((n.server.discard q.payload.clientId q.flags.cleanStart).enter q).1.conns = n.server.conns := by
          unfold Server.enter Server.discard
          repeat' split
          all_goals rfl
        rw [this, hk]
        simp
  · rw [C46_first_packet cfg n.server c p uuid written fun x e => hq ⟨x, e⟩]
    simp only [hk, Option.isSome_none, Bool.false_eq_true, false_iff]
    rintro ⟨_, q, e, _⟩
    exact hq ⟨q, e⟩

/-- The hypotheses of `C78_first` with a CONNECT that is let in, and with a packet that is not a CONNECT. -/
example : (((Net.init.run .debug {} (exChallenged.take 2)).wires.get 0).map fun w =>
      (w.running, w.begun, match parsePacket .debug w.buf with | .packet (.connect _) r => some r | _ => none)) =
    some (true, false, some [0xf0, 2, 0x19, 0]) := by decide +kernel

example : (((Net.init.run .debug {} (exChallenged.take 2 ++ [.turn 0 (str "u") true])).wires.get 0).map (·.running)) = some true ∧
    (((Net.init.run .debug {} [.accept 0, .data 0 [0xc0, 0], .turn 0 (str "u") true]).wires.get 0).map (·.running)) = some false := by
  decide +kernel

end Mercurio
