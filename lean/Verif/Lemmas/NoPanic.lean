import Verif.Lemmas.Consume
import Verif.Lemmas.Stream

/-! # Decoders that cannot panic in a release build, and blocks written without a length -/

namespace Mercurio

open Spec

/-! ## Never panicking -/

structure Dec.NoPanic {α : Type} (d : Dec α) : Prop where
  ne : ∀ b, d b ≠ .panic

theorem Dec.NoPanic.bind {α β : Type} {d : Dec α} {f : α → Dec β} (hd : d.NoPanic)
    (hf : ∀ a, (f a).NoPanic) : (d >>= f).NoPanic := by
  refine ⟨fun b h => ?_⟩
  rw [Dec.bind_apply] at h
  cases hb : d b with
  | err e => rw [hb] at h; cases h
  | panic => exact hd.ne b hb
  | ok x => rw [hb] at h; exact (hf x.1).ne x.2 h

theorem Dec.NoPanic.pure {α : Type} (a : α) : (Pure.pure a : Dec α).NoPanic := ⟨fun b h => by cases h⟩
theorem Dec.NoPanic.fail {α : Type} (e : Err) : (Dec.fail e : Dec α).NoPanic := ⟨fun b h => by cases h⟩

theorem Dec.NoPanic.ite {α : Type} {c : Prop} [Decidable c] {x y : Dec α} (hx : x.NoPanic)
    (hy : y.NoPanic) : (if c then x else y : Dec α).NoPanic := by split <;> assumption

theorem decodeU8_noPanic : decodeU8.NoPanic := ⟨fun b h => by cases b <;> cases h⟩
theorem decodeBool_noPanic : decodeBool.NoPanic := ⟨fun b h => by cases b <;> cases h⟩
theorem decodeU16_noPanic : decodeU16.NoPanic :=
  ⟨fun b h => by rcases b with _ | ⟨b0, _ | ⟨b1, b⟩⟩ <;> cases h⟩
theorem decodeU32_noPanic : decodeU32.NoPanic :=
  ⟨fun b h => by rcases b with _ | ⟨b0, _ | ⟨b1, _ | ⟨b2, _ | ⟨b3, b⟩⟩⟩⟩ <;> cases h⟩

theorem decodeBin_noPanic : decodeBin.NoPanic := by
  refine ⟨fun b h => ?_⟩
  rcases b with _ | ⟨b0, _ | ⟨b1, b⟩⟩
  · cases h
  · cases h
  · simp only [decodeBin] at h
    split at h <;> cases h

theorem decodeStr_noPanic : decodeStr.NoPanic := by
  refine ⟨fun b h => ?_⟩
  rcases b with _ | ⟨b0, _ | ⟨b1, b⟩⟩
  · cases h
  · cases h
  · simp only [decodeStr] at h
    split at h
    · cases h
    · split at h <;> cases h

theorem decodeVbiLoop_noPanic : ∀ (b : Buf) (k v : Nat), decodeVbiLoop .release k v b ≠ .panic := by
  intro b
  induction b with
  | nil => intro k v h; cases h
  | cons c b ih =>
    intro k v h
    simp only [decodeVbiLoop] at h
    split at h
    · rename_i hc; cases hc.1
    · split at h
      · cases h
      · split at h
        · cases h
        · exact ih _ _ h

theorem decodeVbi_noPanic : (decodeVbi .release).NoPanic := ⟨fun b => decodeVbiLoop_noPanic b 1 0⟩

theorem decodeWithId_noPanic (id : Nat) : (decodeWithId .release id).NoPanic := by
  unfold decodeWithId
  have vbi32 : (decodeVbi32 .release).NoPanic :=
    Dec.NoPanic.bind decodeVbi_noPanic (fun _ => Dec.NoPanic.pure _)
  split
  all_goals first
    | exact Dec.NoPanic.bind decodeU8_noPanic (fun _ => Dec.NoPanic.pure _)
    | exact Dec.NoPanic.bind decodeU16_noPanic (fun _ => Dec.NoPanic.pure _)
    | exact Dec.NoPanic.bind decodeU32_noPanic (fun _ => Dec.NoPanic.pure _)
    | exact Dec.NoPanic.bind decodeBool_noPanic (fun _ => Dec.NoPanic.pure _)
    | exact Dec.NoPanic.bind decodeStr_noPanic (fun _ => Dec.NoPanic.pure _)
    | exact Dec.NoPanic.bind decodeBin_noPanic (fun _ => Dec.NoPanic.pure _)
    | exact Dec.NoPanic.bind vbi32 (fun _ => Dec.NoPanic.pure _)
    | exact Dec.NoPanic.fail _
    | exact Dec.NoPanic.bind decodeStr_noPanic
        (fun _ => Dec.NoPanic.bind decodeStr_noPanic (fun _ => Dec.NoPanic.pure _))

theorem decodeProperty_noPanic : (decodeProperty .release).NoPanic :=
  Dec.NoPanic.bind decodeVbi_noPanic decodeWithId_noPanic

theorem propLoop_noPanic {P : Type} (set : P → Property → Option P) :
    ∀ fuel p b, b.length ≤ fuel → propLoop .release set fuel p b ≠ .panic := by
  intro fuel
  induction fuel with
  | zero => intro p b hb h; cases b with
    | nil => simp only [propLoop] at h; cases h
    | cons c b => simp at hb
  | succ fuel ih =>
    intro p b hb h
    cases b with
    | nil => simp only [propLoop] at h; cases h
    | cons c b =>
      simp only [propLoop] at h
      split at h
      · cases h
      · rename_i hp; exact decodeProperty_noPanic.ne _ hp
      · rename_i prop rest hp
        obtain ⟨u, hu, hl⟩ := (decodeProperty_reads .release).h _ _ _ hp
        split at h
        · cases h
        · refine ih _ _ ?_ h
          have := congrArg List.length hu
          simp at this hb
          omega

theorem decodeBlock_noPanic {P : Type} (short : Err) (dflt : P) (set : P → Property → Option P) :
    (decodeBlock .release short dflt set).NoPanic := by
  rw [decodeBlock]
  refine Dec.NoPanic.bind decodeVbi_noPanic (fun len => ?_)
  refine Dec.NoPanic.ite (Dec.NoPanic.pure _) ⟨fun b h => ?_⟩
  simp only [Dec.of_apply] at h
  split at h
  · cases h
  · split at h
    · cases h
    · rename_i hp; exact propLoop_noPanic set _ _ _ (Nat.le_refl _) hp
    · cases h

theorem remaining_noPanic : remaining.NoPanic := ⟨fun b h => by cases h⟩

theorem liftRes_noPanic {α : Type} {x : Res α} (hx : x ≠ .panic) : (liftRes x).NoPanic :=
  ⟨fun b h => by cases x <;> first | exact hx rfl | cases h⟩

theorem usizeSub_release (a b : Nat) : usizeSub .release a b ≠ .panic := by
  intro h
  simp only [usizeSub] at h
  split at h <;> cases h

theorem decodeIf_noPanic {α : Type} (c : Bool) {d : Dec α} (hd : d.NoPanic) : (decodeIf c d).NoPanic := by
  cases c
  · exact Dec.NoPanic.pure _
  · exact Dec.NoPanic.bind hd (fun _ => Dec.NoPanic.pure _)

theorem payloadLoop_noPanic {α : Type} {d : Dec α} (hd : d.NoPanic) (hr : d.Reads 1) (next : Nat) :
    ∀ fuel b, b.length ≤ fuel → payloadLoop d next fuel b ≠ .panic := by
  intro fuel
  induction fuel with
  | zero =>
    intro b hb h
    simp only [payloadLoop] at h
    split at h
    · omega
    · cases h
  | succ fuel ih =>
    intro b hb h
    simp only [payloadLoop] at h
    split at h
    · split at h
      · cases h
      · rename_i hp; exact hd.ne _ hp
      · rename_i a rest ha
        obtain ⟨u, hu, hl⟩ := hr.h _ _ _ ha
        have hlen := congrArg List.length hu
        simp at hlen
        split at h
        · cases h
        · rename_i hp; exact ih _ (by omega) hp
        · cases h
    · cases h

theorem decodeEntries_noPanic {α : Type} (a b : Nat) {d : Dec α} (hd : d.NoPanic) (hr : d.Reads 1) :
    (decodeEntries .release a b d).NoPanic := by
  rw [decodeEntries]
  refine Dec.NoPanic.bind remaining_noPanic (fun r => ?_)
  refine Dec.NoPanic.ite (Dec.NoPanic.fail _) ?_
  refine Dec.NoPanic.bind (liftRes_noPanic (usizeSub_release _ _)) (fun _ => ?_)
  exact ⟨fun b => payloadLoop_noPanic hd hr _ _ _ (Nat.le_refl _)⟩

theorem advance1_cons {β : Type} {f : Unit → Dec β} (hf : ∀ u, (f u).NoPanic) (c : UInt8) (b : Buf) :
    (advance1 >>= f) (c :: b) ≠ .panic := by
  rw [Dec.bind_ok (show advance1 (c :: b) = .ok ((), b) from rfl)]
  exact (hf ()).ne b

theorem getU8_cons {β : Type} {f : UInt8 → Dec β} (hf : ∀ u, (f u).NoPanic) (c : UInt8) (b : Buf) :
    (getU8 >>= f) (c :: b) ≠ .panic := by
  rw [Dec.bind_ok (show getU8 (c :: b) = .ok (c, b) from rfl)]
  exact (hf c).ne b

theorem decodeConnect_noPanic (c : UInt8) (b : Buf) : decodeConnect .release (c :: b) ≠ .panic := by
  rw [decodeConnect]
  refine advance1_cons (fun _ => ?_) c b
  refine Dec.NoPanic.bind decodeVbi_noPanic (fun _ => ?_)
  refine Dec.NoPanic.bind decodeStr_noPanic (fun name => ?_)
  refine Dec.NoPanic.bind decodeU8_noPanic (fun level => ?_)
  cases ProtocolVersion.fromNameAndLevel name level with
  | none => exact Dec.NoPanic.fail _
  | some v =>
    have flags : decodeConnectFlags.NoPanic := by
      rw [decodeConnectFlags]
      refine Dec.NoPanic.bind decodeU8_noPanic (fun b => ?_)
      cases ConnectFlags.ofByte b
      · exact Dec.NoPanic.fail _
      · exact Dec.NoPanic.pure _
    refine Dec.NoPanic.bind flags (fun _ => ?_)
    refine Dec.NoPanic.bind decodeU16_noPanic (fun _ => ?_)
    refine Dec.NoPanic.bind (decodeIf_noPanic _ (decodeBlock_noPanic _ _ _)) (fun _ => ?_)
    refine Dec.NoPanic.bind decodeStr_noPanic (fun _ => ?_)
    refine Dec.NoPanic.bind (decodeIf_noPanic _ (decodeBlock_noPanic _ _ _)) (fun _ => ?_)
    refine Dec.NoPanic.bind (decodeIf_noPanic _ decodeStr_noPanic) (fun _ => ?_)
    refine Dec.NoPanic.bind (decodeIf_noPanic _ decodeBin_noPanic) (fun _ => ?_)
    refine Dec.NoPanic.bind (decodeIf_noPanic _ decodeStr_noPanic) (fun _ => ?_)
    refine Dec.NoPanic.bind (decodeIf_noPanic _ decodeBin_noPanic) (fun _ => ?_)
    exact Dec.NoPanic.pure _

theorem decodeUnsubscribe_noPanic (c : UInt8) (b : Buf) :
    decodeUnsubscribe .release (c :: b) ≠ .panic := by
  rw [decodeUnsubscribe]
  refine advance1_cons (fun _ => ?_) c b
  refine Dec.NoPanic.bind decodeVbi_noPanic (fun _ => ?_)
  refine Dec.NoPanic.bind remaining_noPanic (fun _ => ?_)
  refine Dec.NoPanic.bind decodeU16_noPanic (fun _ => ?_)
  refine Dec.NoPanic.bind (decodeBlock_noPanic _ _ _) (fun _ => ?_)
  refine Dec.NoPanic.bind (decodeEntries_noPanic _ _ decodeStr_noPanic
    (decodeStr_reads.mono (by omega))) (fun _ => ?_)
  exact Dec.NoPanic.pure _

/-! ## Sizes of blocks that were read -/

theorem propsSize_append (a b : List Property) : propsSize (a ++ b) = propsSize a + propsSize b := by
  simp [propsSize]

theorem propsSize_user (o : Option (List (Str × Str))) (k v : Str) :
    propsSize (((some (o.getD [] ++ [(k, v)])).getD []).map (fun kv => Property.userProperty kv.1 kv.2))
      = propsSize ((o.getD []).map (fun kv => Property.userProperty kv.1 kv.2))
        + (Property.userProperty k v).size := by
  simp [propsSize]

theorem propsSize_opt {α : Type} (o : Option α) (C : α → Property) (v : α) :
    propsSize ((some v).toList.map C) ≤ propsSize (o.toList.map C) + (C v).size := by
  cases o <;> simp [propsSize]

theorem any_append {a b : List Property} (ha : a.any Property.sizePanics = false)
    (hb : b.any Property.sizePanics = false) : (a ++ b).any Property.sizePanics = false := by
  rw [List.any_append, ha, hb]; rfl

theorem PublishProperties.set_size (p : PublishProperties) (q : Property) (p' : PublishProperties)
    (h : p.set q = some p') (hq : q.sizePanics = false)
    (hp : p.toProps.any Property.sizePanics = false) :
    propsSize p'.toProps ≤ propsSize p.toProps + q.size ∧
      p'.toProps.any Property.sizePanics = false := by
  simp only [PublishProperties.toProps, List.any_append, Bool.or_eq_false_iff] at hp
  obtain ⟨⟨⟨⟨⟨⟨⟨h1, h2⟩, h3⟩, h4⟩, h5⟩, h6⟩, h7⟩, h8⟩ := hp
  cases q <;> simp only [PublishProperties.set] at h <;> cases h <;>
    refine ⟨?_, ?_⟩ <;>
    simp only [PublishProperties.toProps, propsSize_append, propsSize_user, List.any_append,
      Bool.or_eq_false_iff] <;>
    first
      | (refine ⟨⟨⟨⟨⟨⟨⟨?_, ?_⟩, ?_⟩, ?_⟩, ?_⟩, ?_⟩, ?_⟩, ?_⟩ <;>
          first | assumption | simpa using hq | simp [Property.sizePanics])
      | (have a1 := propsSize_opt p.payloadFormatIndicator .payloadFormatIndicator
         have a2 := propsSize_opt p.messageExpiryInterval .messageExpiryInterval
         have a3 := propsSize_opt p.topicAlias .topicAlias
         have a4 := propsSize_opt p.responseTopic .responseTopic
         have a5 := propsSize_opt p.correlationData .correlationData
         have a6 := propsSize_opt p.subscriptionIdentifier .subscriptionIdentifier
         have a7 := propsSize_opt p.contentType .contentType
         first
           | (have := a1 ‹_›; omega) | (have := a2 ‹_›; omega) | (have := a3 ‹_›; omega)
           | (have := a4 ‹_›; omega) | (have := a5 ‹_›; omega) | (have := a6 ‹_›; omega)
           | (have := a7 ‹_›; omega) | omega)

theorem publishProps_blockSize {m : Mode} {b r : Buf} {p : PublishProperties}
    (h : decodePublishProperties m b = .ok (p, r)) : blockSize p.toProps ≠ .panic := by
  obtain ⟨len, c, hv, hle, -, hp⟩ := decodeBlock_inv h
  have hlt := decodeVbi_lt hv
  obtain ⟨h1, h2⟩ := propLoop_ok (fun p => propsSize (PublishProperties.toProps p))
    (fun p => (PublishProperties.toProps p).any Property.sizePanics = false)
    (fun p q p' => PublishProperties.set_size p q p') len {} (c.take len) p hp rfl
  have h0 : propsSize (PublishProperties.toProps {}) = 0 := rfl
  simp only [h0, Nat.zero_add, List.length_take] at h1
  rw [blockSize_ok h2 (by omega)]
  intro h; cases h

theorem decodePublish_noPanic (c : UInt8) (b : Buf) : decodePublish .release (c :: b) ≠ .panic := by
  rw [decodePublish_def]
  refine getU8_cons (fun _ => ?_) c b
  refine Dec.NoPanic.bind decodeVbi_noPanic (fun n => ?_)
  refine Dec.NoPanic.bind decodeStr_noPanic (fun t => ?_)
  have hid : ∀ q, (decodePublishId q).NoPanic := by
    intro q
    cases q
    · exact Dec.NoPanic.pure _
    · exact Dec.NoPanic.bind decodeU16_noPanic (fun _ => Dec.NoPanic.pure _)
    · exact Dec.NoPanic.bind decodeU16_noPanic (fun _ => Dec.NoPanic.pure _)
    · exact Dec.NoPanic.fail _
  refine Dec.NoPanic.bind (hid _) (fun i => ?_)
  refine ⟨fun b h => ?_⟩
  rw [Dec.bind_apply] at h
  cases hb : decodePublishProperties .release b with
  | err e => rw [hb] at h; cases h
  | panic => exact (decodeBlock_noPanic _ _ _).ne b hb
  | ok x =>
    obtain ⟨p, b'⟩ := x
    rw [hb] at h
    refine (Dec.NoPanic.bind (liftRes_noPanic (publishProps_blockSize hb)) (fun k => ?_)).ne b' h
    refine Dec.NoPanic.bind (liftRes_noPanic (usizeSub_release _ _)) (fun k => ?_)
    refine ⟨fun b h => ?_⟩
    simp only [Dec.of_apply] at h
    split at h <;> cases h

theorem check_noPanic (b : Buf) : check .release b ≠ .panic := by
  intro h
  unfold check at h
  split at h
  · cases h
  · split at h
    · cases h
    · rename_i hv; exact decodeVbi_noPanic.ne _ hv
    · rename_i n r hv
      rw [vbiSize_ok (decodeVbi_lt hv)] at h
      simp only at h
      split at h
      · cases h
      · rename_i hu; exact usizeSub_release _ _ hu
      · split at h <;> cases h

/-! ## Blocks written without a length -/

theorem DisconnectProperties.set_size (p : DisconnectProperties) (q : Property)
    (p' : DisconnectProperties) (h : p.set q = some p') :
    propsSize p'.toProps ≤ propsSize p.toProps + q.size := by
  have a1 := propsSize_opt p.sessionExpiryInterval .sessionExpiryInterval
  have a2 := propsSize_opt p.reasonString .reasonString
  have a3 := propsSize_opt p.serverReference .serverReference
  cases q <;> simp only [DisconnectProperties.set] at h <;> cases h <;>
    simp only [DisconnectProperties.toProps, propsSize_append, propsSize_user] <;>
    first
      | (have := a1 ‹_›; omega) | (have := a2 ‹_›; omega) | (have := a3 ‹_›; omega) | omega

theorem AuthProperties.set_size (p : AuthProperties) (q : Property)
    (p' : AuthProperties) (h : p.set q = some p') :
    propsSize p'.toProps ≤ propsSize p.toProps + q.size := by
  have a1 := propsSize_opt p.authMethod .authenticationMethod
  have a2 := propsSize_opt p.authData .authenticationData
  have a3 := propsSize_opt p.reasonString .reasonString
  cases q <;> simp only [AuthProperties.set] at h <;> cases h <;>
    simp only [AuthProperties.toProps, propsSize_append, propsSize_user] <;>
    first
      | (have := a1 ‹_›; omega) | (have := a2 ‹_›; omega) | (have := a3 ‹_›; omega) | omega

/-- A block of properties written without its length is not read as a block of that size: the
identifier of the first property is taken for the length. -/
theorem decodeBlock_no_length {P : Type} {m : Mode} {short : Err} {dflt : P}
    {set : P → Property → Option P} (size : P → Nat) (hd : size dflt = 0)
    (hset : ∀ p q p', set p q = some p' → size p' ≤ size p + q.size)
    {b : Buf} {p : P} (h : decodeBlock m short dflt set b = .ok (p, [])) : size p < b.length := by
  obtain ⟨len, c, hv, hle, hr, hp⟩ := decodeBlock_inv h
  obtain ⟨u, rfl, hu, -⟩ := decodeVbi_ok hv
  have h1 := (propLoop_ok size (fun _ => True) (fun p q p' h _ _ => ⟨hset p q p' h, trivial⟩)
    len dflt (c.take len) p hp trivial).1
  rw [hd, List.length_take] at h1
  rw [List.length_append]
  omega

theorem receivedUser_getD (o : Option (List (Str × Str))) : (receivedUser o).getD [] = o.getD [] := by
  rcases o with _ | ⟨_ | ⟨x, l⟩⟩ <;> rfl

/-- No AUTH packet this library writes reads back as itself. -/
theorem auth_never (m : Mode) (v : ProtocolVersion) (p : AuthPacket) (bytes : Buf)
    (he : (Packet.auth p).encode = .ok bytes) (hf : FitsMqtt bytes) :
    parseWithVersion m v bytes ≠
      .ok (.auth { reason := p.reason.received, properties := p.properties.received }, []) := by
  intro h
  obtain ⟨body, rfl, hb⟩ := AuthPacket.encode_inv he
  have h28 := frame_inj_body rfl hf
  have hpp : parseWithVersion m v (frame 0xf0 body.length body) =
      (do let p ← decodeAuth m; return .auth p : Dec Packet) (frame 0xf0 body.length body) := rfl
  rw [hpp] at h
  obtain ⟨p', b', h1, h2⟩ := Dec.bind_inv h
  injection h2 with h2
  injection h2 with h2 h3
  injection h2 with h2
  subst h2 h3
  have hframe : frame 0xf0 body.length body = frame 0xf0 body.length body ++ [] := by simp
  rw [hframe, decodeAuth, Dec.bind_ok (getU8_frame _ _ _ _), if_neg (by decide),
    Dec.bind_ok (decodeVbi_frame m h28 _), hb, List.append_assoc,
    Dec.bind_ok (decodeReason_received _ _)] at h1
  obtain ⟨q, b2, h4, h5⟩ := Dec.bind_inv h1
  injection h5 with h5
  injection h5 with h5 h6
  subst h6
  injection h5 with h5 h6
  have hs := decodeBlock_no_length (fun p => propsSize (AuthProperties.toProps p)) rfl
    AuthProperties.set_size h4
  have hsz : propsSize q.toProps = propsSize p.properties.toProps := by
    rw [h6]
    simp only [AuthProperties.received, AuthProperties.toProps, receivedUser_getD]
  have hno : p.properties.toProps.any Property.sizePanics = false := by
    have he' : p.encode = .ok _ := he
    rw [AuthPacket.encode_def] at he'
    cases hb : p.properties.toProps.any Property.sizePanics with
    | false => rfl
    | true => rw [propsSizeRes, hb] at he'; cases he'
  rw [propsSize_eq _ hno] at hsz
  simp only [hsz, List.append_nil] at hs
  exact absurd hs (Nat.lt_irrefl _)

/-- No DISCONNECT with a property reads back as itself. -/
theorem disconnect_never (m : Mode) (v : ProtocolVersion) (p : DisconnectPacket) (bytes : Buf)
    (he : (Packet.disconnect p).encode = .ok bytes) (hf : FitsMqtt bytes) (q : DisconnectProperties)
    (hq : p.properties = some q) (hne : q.received ≠ {}) :
    parseWithVersion m v bytes ≠
      .ok (.disconnect { reason := p.reason.received, properties := some q.received }, []) := by
  intro h
  obtain ⟨body, rfl, hb⟩ := DisconnectPacket.encode_inv he
  have h28 := frame_inj_body rfl hf
  rw [hq] at hb
  have hno : q.toProps.any Property.sizePanics = false := by
    have he' : p.encode = .ok _ := he
    rw [DisconnectPacket.encode_def, hq] at he'
    cases hb : q.toProps.any Property.sizePanics with
    | false => rfl
    | true => rw [propsSizeRes] at he'; simp only [optProps, hb] at he'; cases he'
  have hpp : parseWithVersion m v (frame 0xe0 body.length body) =
      (do let p ← decodeDisconnect m; return .disconnect p : Dec Packet) (frame 0xe0 body.length body) :=
    rfl
  rw [hpp] at h
  obtain ⟨p', b', h1, h2⟩ := Dec.bind_inv h
  injection h2 with h2
  injection h2 with h2 h3
  injection h2 with h2
  subst h2 h3
  have hlen : 2 ≤ body.length := by
    rw [hb, List.length_append, encodeReason_length]
    have : 1 ≤ (encodeProps (optProps DisconnectProperties.toProps (some q))).length := by
      have hnil : q.toProps ≠ [] := by
        intro h0
        apply hne
        obtain ⟨a, b, c, d⟩ := q
        simp only [DisconnectProperties.toProps, List.append_eq_nil_iff, List.map_eq_nil_iff,
          Option.toList_eq_nil_iff] at h0
        obtain ⟨⟨⟨rfl, rfl⟩, hc⟩, rfl⟩ := h0
        rcases c with _ | ⟨_ | ⟨x, l⟩⟩
        · rfl
        · rfl
        · simp at hc
      cases ht : q.toProps with
      | nil => exact absurd ht hnil
      | cons x l =>
        have := x.encode_length_pos
        simp only [optProps, ht, encodeProps, List.flatMap_cons, List.length_append]
        omega
    omega
  have hframe : frame 0xe0 body.length body = frame 0xe0 body.length body ++ [] := by simp
  rw [hframe, decodeDisconnect, Dec.bind_ok (getU8_frame _ _ _ _), if_neg (by decide),
    Dec.bind_ok (decodeVbi_frame m h28 _), decodeDisconnectReason, if_neg (by omega), decide_eq_true hlen,
    hb, List.append_assoc, Dec.bind_ok (decodeReason_received _ _)] at h1
  obtain ⟨o, b2, h4, h5⟩ := Dec.bind_inv h1
  injection h5 with h5
  injection h5 with h5 h6
  subst h6
  injection h5 with h5 h6
  subst h6
  obtain ⟨q', b3, h7, h8⟩ := Dec.bind_inv h4
  injection h8 with h8
  injection h8 with h8 h9
  subst h9
  injection h8 with h8
  subst h8
  have hs := decodeBlock_no_length (fun p => propsSize (DisconnectProperties.toProps p)) rfl
    DisconnectProperties.set_size h7
  have hsz : propsSize q.received.toProps = propsSize q.toProps := by
    simp only [DisconnectProperties.received, DisconnectProperties.toProps, receivedUser_getD]
  rw [propsSize_eq _ hno] at hsz
  simp only [hsz, List.append_nil, optProps] at hs
  exact absurd hs (Nat.lt_irrefl _)

end Mercurio
