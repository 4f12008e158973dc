import Verif.Spec.Cuts
import Verif.Lemmas.Abort

/-! # Decoding the beginning of a packet -/

namespace Mercurio

open Spec

/-- On a part of what it accepts a decoder says that more is needed. -/
structure Dec.Starves {α : Type} (d : Dec α) (W : α → Buf → Prop) : Prop where
  exact' : d.Exact W
  short : ∀ a w k, W a w → k < w.length → w.length < 2 ^ 32 → d (w.take k) = .err .incomplete

/-- One step of decoding a part of `u ++ v`. -/
theorem Dec.Starves.step {α β : Type} {d : Dec α} {W : α → Buf → Prop} (hd : d.Starves W) {f : α → Dec β} {a : α}
    {u v : Buf} (k : Nat) (hw : W a u) (hl : (u ++ v).length < 2 ^ 32) :
    (d >>= f) ((u ++ v).take k) =
      if k < u.length then .err .incomplete else f a (v.take (k - u.length)) := by
  rw [List.length_append] at hl
  split
  · rename_i hk
    rw [List.take_append_of_le_length (by omega)]
    exact Dec.bind_err (hd.short a u k hw hk (by omega))
  · rename_i hk
    have e : (u ++ v).take k = u ++ v.take (k - u.length) := by
      rw [List.take_append, List.take_of_length_le (by omega)]
    rw [e]
    refine Dec.bind_ok (hd.exact'.complete a u _ hw ?_)
    rw [List.length_append, List.length_take]; omega

theorem decodeVbi_starves (m : Mode) : (decodeVbi m).Starves VbiOf := by
  refine ⟨decodeVbi_exact m, ?_⟩
  rintro n w k ⟨pre, last, rfl, h1, h2, h3, h4⟩ hk _
  rw [List.length_append, List.length_singleton] at hk
  rw [List.take_append_of_le_length (by omega)]
  refine decodeVbi_short m (by rw [List.length_take]; omega) fun b hb => h2 b (List.mem_of_mem_take hb)

theorem decodeU16_starves : decodeU16.Starves (fun v w => w = be16 v.toNat) := by
  refine ⟨decodeU16_exact, ?_⟩
  rintro v w k rfl hk _
  have : k = 0 ∨ k = 1 := by simp [be16] at hk; omega
  rcases this with rfl | rfl <;> rfl

/-- A text is refused if some of it is there, but not all. -/
theorem text_step {β : Type} {f : Str → Dec β} {t : Str} {u v : Buf} (k : Nat) (hw : TextOf t u)
    (hl : (u ++ v).length < 2 ^ 32) :
    (decodeStr >>= f) ((u ++ v).take k) =
      if k < 2 then .err .incomplete else if k < u.length then .err (.mqtt .malformedPacket)
      else f t (v.take (k - u.length)) := by
  have hu : u = field t := hw.2
  have hlen : t.length ≤ 65535 := hw.1.2
  have hul : u.length = t.length + 2 := by rw [hu]; simp [field]
  rw [List.length_append] at hl
  by_cases hk : k < u.length
  · have e : (u ++ v).take k = u.take k := List.take_append_of_le_length (by omega)
    rw [e]
    match k, hk with
    | 0, _ => rw [if_pos (by omega)]; rfl
    | 1, _ => rw [if_pos (by omega), hu]; rfl
    | k + 2, hk =>
      rw [if_neg (by omega), if_pos hk]
      refine Dec.bind_err ?_
      have e : u.take (k + 2) = UInt8.ofNat (t.length / 256) :: UInt8.ofNat (t.length % 256) :: t.take k := by
        rw [hu]; rfl
      rw [e]
      show (if (t.take k).length < (UInt8.ofNat (t.length / 256)).toNat * 256 + (UInt8.ofNat (t.length % 256)).toNat
        then Res.err (.mqtt .malformedPacket) else _) = _
      rw [if_pos]
      simp only [List.length_take, UInt8.toNat_ofNat']
      omega
  · have e : (u ++ v).take k = u ++ v.take (k - u.length) := by
      rw [List.take_append, List.take_of_length_le (by omega)]
    rw [if_neg (by omega), if_neg hk, e]
    refine Dec.bind_ok (decodeStr_exact.complete t u _ hw ?_)
    rw [List.length_append, List.length_take]; omega

theorem decodePublishId_starves (q : QoS) : (decodePublishId q).Starves (fun o w => q ≠ .invalid ∧
    (o.isSome ↔ q ≠ .atMostOnce) ∧ OptOf (fun k w => w = be16 k.toNat) o w) := by
  refine ⟨decodePublishId_exact q, ?_⟩
  rintro o w k ⟨h1, h2, h3⟩ hk hl
  cases o with
  | none => cases h3; simp at hk
  | some i =>
    cases q with
    | atMostOnce => simp at h2
    | invalid => exact absurd rfl h1
    | _ => exact Dec.bind_err (decodeU16_starves.short i w k h3 hk hl)

theorem decodeBlock_starves {P : Type} (m : Mode) {dflt : P} {set : P → Property → Option P} {W : P → Buf → Prop}
    (hW : ∀ q w, W q w → ∃ n l x, w = l ++ x ∧ VbiOf n l ∧ x.length = n)
    (he : (decodeBlock m .incomplete dflt set).Exact W) : (decodeBlock m .incomplete dflt set).Starves W := by
  refine ⟨he, ?_⟩
  intro q w k hw hk hl
  obtain ⟨n, l, x, rfl, hn, hx⟩ := hW q w hw
  rw [List.length_append] at hk
  rw [decodeBlock, (decodeVbi_starves m).step k hn hl]
  split
  · rfl
  · rw [if_neg (by omega)]
    simp only [Dec.of]
    rw [List.length_append] at hl
    rw [if_pos (by rw [List.length_take]; omega)]

theorem BlockOf.parts {held : List Property} {w : Buf} (h : BlockOf held w) :
    ∃ n l x, w = l ++ x ∧ VbiOf n l ∧ x.length = n := by
  obtain ⟨ps, l, x, h1, h2, _⟩ := h
  exact ⟨x.length, l, x, h1, h2, rfl⟩

theorem decodeAckProperties_starves (m : Mode) : (decodeAckProperties m).Starves AckBlock :=
  decodeBlock_starves m (fun _ _ h => BlockOf.parts h.2) (decodeAckProperties_exact m)
theorem decodeConnAckProperties_starves (m : Mode) : (decodeConnAckProperties m).Starves ConnAckBlock :=
  decodeBlock_starves m (fun _ _ h => BlockOf.parts h.2) (decodeConnAckProperties_exact m)
theorem decodePublishProperties_starves (m : Mode) : (decodePublishProperties m).Starves PublishBlock :=
  decodeBlock_starves m (fun _ _ h => BlockOf.parts h.2) (decodePublishProperties_exact m)
theorem decodeDisconnectProperties_starves (m : Mode) : (decodeDisconnectProperties m).Starves DisconnectBlock :=
  decodeBlock_starves m (fun _ _ h => BlockOf.parts h.2) (decodeDisconnectProperties_exact m)
theorem decodeAuthProperties_starves (m : Mode) : (decodeAuthProperties m).Starves AuthBlock :=
  decodeBlock_starves m (fun _ _ h => BlockOf.parts h.2) (decodeAuthProperties_exact m)

/-- A byte that is read without looking. -/
theorem byte_step {α β : Type} {d : Dec α} {W : α → Buf → Prop} (hd : d.Exact W) (h0 : d [] = .panic)
    {f : α → Dec β} {a : α} {u v : Buf} (k : Nat) (hw : W a u) (hu : u.length = 1) (hl : (u ++ v).length < 2 ^ 32) :
    (d >>= f) ((u ++ v).take k) = if k = 0 then .panic else f a (v.take (k - 1)) := by
  rw [List.length_append] at hl
  split
  · rename_i hk
    subst hk
    rw [List.take_zero, Dec.bind_apply, h0]
  · rename_i hk
    have e : (u ++ v).take k = u ++ v.take (k - 1) := by
      rw [List.take_append, List.take_of_length_le (by omega), hu]
    rw [e]
    refine Dec.bind_ok (hd.complete a u _ hw ?_)
    rw [List.length_append, List.length_take]; omega

theorem ReasonOf.length {r : ReasonCode} {w : Buf} (h : ReasonOf r w) : w.length = 1 := by
  rw [h.1]; rfl

theorem ListOf.length_eq {α : Type} {W : α → Buf → Prop} (h1 : ∀ a w, W a w → w.length = 1) {as : List α} {w : Buf}
    (h : ListOf W as w) : w.length = as.length := by
  induction h with
  | nil => rfl
  | cons hu _ ih => rw [List.length_append, h1 _ _ hu, ih, List.length_cons]; omega

theorem headEnd_eq {n : Nat} {c : UInt8} {l body : Buf} (h : VbiOf n l) : headEnd (c :: (l ++ body)) = 1 + l.length := by
  obtain ⟨pre, last, rfl, _, h2, h3, _⟩ := h
  have : ((pre ++ [last] ++ body).takeWhile fun b => decide (Continues b)) = pre := by
    rw [List.append_assoc, List.takeWhile_append_of_pos (fun b hb => by simpa using h2 b hb),
      List.singleton_append, List.takeWhile_cons_of_neg (by simpa using h3), List.append_nil]
  rw [headEnd, List.tail_cons, this]
  simp; omega

/-- The outcome of parsing the beginning of a packet: more is needed, or something that is not the packet. -/
def Cut {α : Type} (safe : Prop) (x : Res (α × Buf)) (a : α) : Prop :=
  (safe → x = .err .incomplete) ∧ (¬ safe → x ≠ .err .incomplete ∧ ∀ r, x ≠ .ok (a, r))

theorem Cut.of_incomplete {α : Type} {safe : Prop} (h : safe) (a : α) :
    Cut safe (.err .incomplete : Res (α × Buf)) a := ⟨fun _ => rfl, fun hn => absurd h hn⟩

theorem Cut.of_panic {α : Type} {safe : Prop} (h : ¬ safe) (a : α) : Cut safe (.panic : Res (α × Buf)) a :=
  ⟨fun hs => absurd hs h, fun _ => ⟨by simp, by simp⟩⟩

theorem Cut.of_err {α : Type} {safe : Prop} (h : ¬ safe) (a : α) {e : Err} (he : e ≠ .incomplete) :
    Cut safe (.err e : Res (α × Buf)) a :=
  ⟨fun hs => absurd hs h, fun _ => ⟨by simpa using he, by simp⟩⟩

theorem Cut.of_other {α : Type} {safe : Prop} (h : ¬ safe) {a b : α} (hab : b ≠ a) (r : Buf) :
    Cut safe (.ok (b, r) : Res (α × Buf)) a :=
  ⟨fun hs => absurd hs h, fun _ => ⟨by simp, fun r' e => by injection e with e; injection e with e _; exact hab e⟩⟩

theorem Cut.map {α β : Type} {safe : Prop} {d : Dec α} {C : α → β} (hC : ∀ x y, C x = C y → x = y) {b : Buf} {a : α}
    (h : Cut safe (d b) a) : Cut safe ((d >>= fun p => pure (C p)) b) (C a) := by
  refine ⟨fun hs => Dec.bind_err (h.1 hs), fun hn => ?_⟩
  obtain ⟨h1, h2⟩ := h.2 hn
  rw [Dec.bind_apply]
  cases hx : d b with
  | err e => exact ⟨fun he => h1 (by rw [hx]; injection he with he; rw [he]), by simp⟩
  | panic => exact ⟨by simp, by simp⟩
  | ok x =>
    obtain ⟨x, r⟩ := x
    refine ⟨(by intro h; cases h), fun r' e => ?_⟩
    have e : (.ok (C x, r) : Res (β × Buf)) = .ok (C a, r') := e
    injection e with e
    injection e with e _
    exact h2 r (by rw [hx, hC _ _ e])

/-! ## The packets -/

theorem VbiOf.unique {n n' : Nat} {l l' b b' : Buf} (h : VbiOf n l) (h' : VbiOf n' l') (e : l ++ b = l' ++ b')
    (hl : (l ++ b).length < 2 ^ 32) : n = n' ∧ l = l' ∧ b = b' := by
  have h1 := (decodeVbi_exact .release).complete n l b h hl
  have h2 := (decodeVbi_exact .release).complete n' l' b' h' (by rw [← e]; exact hl)
  rw [e, h2] at h1
  injection h1 with h1
  injection h1 with h1 h3
  subst h3
  exact ⟨h1.symm, List.append_cancel_right e, rfl⟩

theorem cut_ack (m : Mode) (c : UInt8) {n : Nat} {l w : Buf} {p : AckPacket} (k : Nat) (hn : VbiOf n l)
    (hb : p.BodyOf n w) (hl : (l ++ w).length < 2 ^ 32) (hk : k < (l ++ w).length) :
    Cut (k ≠ l.length + 2) (decodeAck m ((c :: (l ++ w)).take (k + 1))) p := by
  rw [List.length_append] at hk
  have hl' : w.length < 2 ^ 32 := by rw [List.length_append] at hl; omega
  rw [List.take_succ_cons, decodeAck, advance1_bind, (decodeVbi_starves m).step k hn hl]
  split
  · exact .of_incomplete (by omega) _
  rename_i hkl
  rcases hb with ⟨rfl, rfl, h1, h2⟩ | ⟨hn2, r, x, q, rfl, hr, hq, hx⟩
  · rw [Dec.bind_err (decodeU16_starves.short p.packetId _ _ rfl (by omega) hl')]
    have : (be16 p.packetId.toNat).length = 2 := rfl
    exact .of_incomplete (by omega) _
  · have h2 : (be16 p.packetId.toNat).length = 2 := rfl
    have hr1 := ReasonOf.length hr
    rw [List.append_assoc] at hl' hk ⊢
    rw [decodeU16_starves.step (a := p.packetId) _ rfl hl', h2]
    split
    · exact .of_incomplete (by omega) _
    rename_i hk2
    simp only [List.length_append] at hl' hk
    rw [byte_step decodeReason_exact rfl _ hr hr1 (by rw [List.length_append]; omega)]
    split
    · exact .of_panic (by omega) _
    · rw [Dec.bind_err ((decodeAckProperties_starves m).short q x _ hx (by omega) (by omega))]
      exact .of_incomplete (by omega) _

theorem cut_connAck (m : Mode) (c : UInt8) {n : Nat} {l w : Buf} {p : ConnAckPacket} (k : Nat) (hn : VbiOf n l)
    (hb : (Packet.connAck p).BodyOf .v5 n w) (hl : (l ++ w).length < 2 ^ 32) (hk : k < (l ++ w).length) :
    Cut (k < l.length ∨ l.length + 2 ≤ k) (decodeConnAck m ((c :: (l ++ w)).take (k + 1))) p := by
  rw [List.length_append] at hk
  have hl' : w.length < 2 ^ 32 := by rw [List.length_append] at hl; omega
  rw [List.take_succ_cons, decodeConnAck, advance1_bind, (decodeVbi_starves m).step k hn hl]
  split
  · exact .of_incomplete (by omega) _
  rename_i hkl
  obtain ⟨_, r, x, q, rfl, hr, hq, hx⟩ := hb
  have hr1 := ReasonOf.length hr
  rw [show UInt8.ofNat (bit p.sessionPresent) :: (r ++ x) = [UInt8.ofNat (bit p.sessionPresent)] ++ (r ++ x) from rfl]
    at hl' hk ⊢
  rw [byte_step (a := p.sessionPresent) decodeConnAckFlags_exact rfl _ rfl rfl hl']
  simp only [List.length_append, List.length_singleton] at hl' hk
  split
  · exact .of_panic (by omega) _
  rw [byte_step decodeReason_exact rfl _ hr hr1 (by rw [List.length_append]; omega)]
  split
  · exact .of_panic (by omega) _
  · rw [Dec.bind_err ((decodeConnAckProperties_starves m).short q x _ hx (by omega) (by omega))]
    exact .of_incomplete (by omega) _

theorem cut_connAck3 (m : Mode) (c : UInt8) {v : ProtocolVersion} (hv : v ≠ .v5) {n : Nat} {l w : Buf}
    {p : ConnAckPacket} (k : Nat) (hn : VbiOf n l) (hb : (Packet.connAck p).BodyOf v n w)
    (hl : (l ++ w).length < 2 ^ 32) (hk : k < (l ++ w).length) :
    Cut (k < l.length ∨ l.length + 2 ≤ k) (decodeConnAckV3 m ((c :: (l ++ w)).take (k + 1))) p := by
  rw [List.length_append] at hk
  have hl' : w.length < 2 ^ 32 := by rw [List.length_append] at hl; omega
  rw [List.take_succ_cons, decodeConnAckV3, advance1_bind, (decodeVbi_starves m).step k hn hl]
  split
  · exact .of_incomplete (by omega) _
  rename_i hkl
  rw [Packet.BodyOf, if_neg hv] at hb
  obtain ⟨_, r, rfl, ⟨b, rfl, _⟩, _⟩ := hb
  rw [show [UInt8.ofNat (bit p.sessionPresent), b] = [UInt8.ofNat (bit p.sessionPresent)] ++ [b] from rfl]
    at hl' hk ⊢
  rw [byte_step (a := p.sessionPresent) decodeConnAckFlags_exact rfl _ rfl rfl hl']
  simp only [List.length_append, List.length_singleton] at hl' hk
  split
  · exact .of_panic (by omega) _
  rw [show k - l.length - 1 = 0 by omega]
  exact .of_panic (by omega) _

/-- Reason codes some of which are missing. -/
theorem cut_payloadList {α : Type} (m : Mode) (d : Dec α) {a b : Nat} (hab : a < b) (hb : b < 2 ^ 32) (x : Buf)
    (hx : x.length < 2 ^ 32) {f : List α → Dec β} :
    (liftRes (usizeSub m a b) >>= fun next => payloadList d next >>= f) x =
      match m with
      | .debug => .panic
      | .release => f [] x := by
  rw [Dec.bind_apply]
  unfold usizeSub
  rw [if_neg (by omega)]
  cases m with
  | debug => rfl
  | release =>
    show (payloadList d (a + 2 ^ 64 - b) >>= f) x = f [] x
    refine Dec.bind_ok ?_
    rw [payloadList]
    cases x with
    | nil => simp [payloadLoop]
    | cons y x =>
      simp only [List.length_cons] at hx ⊢
      rw [payloadLoop, if_neg (by rw [List.length_cons]; omega)]

theorem cut_subAck3 (m : Mode) (c : UInt8) {v : ProtocolVersion} (hv : v ≠ .v5) {l w : Buf} {p : SubAckPacket}
    (k : Nat) (hn : VbiOf w.length l) (hb : (Packet.subAck p).BodyOf v w.length w) (hl : (l ++ w).length < 2 ^ 32)
    (hk : k < (l ++ w).length) :
    Cut (p.payload.length < (l ++ w).length - k) (decodeSubAckV3 m ((c :: (l ++ w)).take (k + 1))) p := by
  rw [Packet.BodyOf, if_neg hv] at hb
  obtain ⟨_, es, hw, _, hes⟩ := hb
  have hlen := ListOf.length_eq (fun a u h => by obtain ⟨b, rfl, _⟩ := h; rfl) hes
  have h2 : (be16 p.packetId.toNat).length = 2 := rfl
  have hwl := congrArg List.length hw
  rw [List.length_append, h2] at hwl
  have hlw := List.length_append (as := l) (bs := w)
  rw [List.take_succ_cons, decodeSubAckV3, advance1_bind, (decodeVbi_starves m).step k hn hl]
  split
  · exact .of_incomplete (by omega) _
  rename_i hkl
  rw [Dec.bind_ok (show remaining (w.take (k - l.length)) = .ok (k - l.length, w.take (k - l.length)) by
    rw [remaining, List.length_take, Nat.min_eq_left (by omega)])]
  conv in (occs := *) List.take _ w => rw [hw]
  rw [decodeU16_starves.step (a := p.packetId) _ rfl (by rw [← hw]; omega), h2]
  split
  · exact .of_incomplete (by omega) _
  rename_i hk2
  rw [cut_payloadList m _ (by omega) (by omega) _ (by rw [List.length_take]; omega)]
  cases m with
  | debug => exact .of_panic (by omega) _
  | release =>
    refine .of_other (by omega) (fun h => ?_) _
    have := congrArg SubAckPacket.payload h
    rw [← this] at hlen
    have : es.length = 0 := hlen
    omega

theorem cut_entries {β : Type} (m : Mode) {a b : Nat} (hab : a < b) (hb : b < 2 ^ 32) (x : Buf)
    (hx : x.length < 2 ^ 32) {f : List ReasonCode → Dec β} :
    (decodeEntries m a b decodeReason >>= f) x =
      if x = [] then .err (.mqtt .protocolError) else match m with
      | .debug => .panic
      | .release => f [] x := by
  cases x with
  | nil => rfl
  | cons y x =>
    have h := cut_payloadList m decodeReason hab hb (y :: x) hx (f := f)
    rw [if_neg (by simp), ← h]
    rw [Dec.bind_apply, Dec.bind_apply, decodeEntries, Dec.bind_ok (show remaining (y :: x) = .ok (_, y :: x) from rfl),
      if_neg (by simp), Dec.bind_apply]
    cases liftRes (usizeSub m a b) (y :: x) <;> rfl

theorem cut_subAck (m : Mode) (c : UInt8) {l w : Buf} {p : SubAckPacket} (k : Nat) (hn : VbiOf w.length l)
    (hb : (Packet.subAck p).BodyOf .v5 w.length w) (hl : (l ++ w).length < 2 ^ 32) (hk : k < (l ++ w).length) :
    Cut (p.payload.length < (l ++ w).length - k) (decodeSubAck m ((c :: (l ++ w)).take (k + 1))) p := by
  obtain ⟨_, x, q, es, hw, _, hx, hes⟩ := hb
  have hlen := ListOf.length_eq (fun _ _ h => ReasonOf.length h) hes
  have h2 : (be16 p.packetId.toNat).length = 2 := rfl
  rw [List.append_assoc] at hw
  have hwl := congrArg List.length hw
  rw [List.length_append, List.length_append, h2] at hwl
  have hlw := List.length_append (as := l) (bs := w)
  rw [List.take_succ_cons, decodeSubAck, advance1_bind, (decodeVbi_starves m).step k hn hl]
  split
  · exact .of_incomplete (by omega) _
  rename_i hkl
  rw [Dec.bind_ok (show remaining (w.take (k - l.length)) = .ok (k - l.length, w.take (k - l.length)) by
    rw [remaining, List.length_take, Nat.min_eq_left (by omega)])]
  conv in (occs := *) List.take _ w => rw [hw]
  rw [decodeU16_starves.step (a := p.packetId) _ rfl (by rw [← hw]; omega), h2]
  split
  · exact .of_incomplete (by omega) _
  rename_i hk2
  rw [(decodeAckProperties_starves m).step (a := q) _ hx (by rw [List.length_append]; omega)]
  split
  · exact .of_incomplete (by omega) _
  rename_i hk3
  rw [cut_entries m (by omega) (by omega) _ (by rw [List.length_take]; omega)]
  split
  · exact .of_err (by omega) _ (by simp)
  cases m with
  | debug => exact .of_panic (by omega) _
  | release =>
    refine .of_other (by omega) (fun h => ?_) _
    have := congrArg SubAckPacket.payload h
    rw [← this] at hlen
    have : es.length = 0 := hlen
    omega

theorem cut_unsubAck (m : Mode) (c : UInt8) {l w : Buf} {p : UnsubAckPacket} (k : Nat) (hn : VbiOf w.length l)
    (hb : (Packet.unsubAck p).BodyOf .v5 w.length w) (hl : (l ++ w).length < 2 ^ 32) (hk : k < (l ++ w).length) :
    Cut (p.payload.length < (l ++ w).length - k) (decodeUnsubAck m ((c :: (l ++ w)).take (k + 1))) p := by
  obtain ⟨_, x, q, es, hw, _, hx, hes⟩ := hb
  have hlen := ListOf.length_eq (fun _ _ h => ReasonOf.length h) hes
  have h2 : (be16 p.packetId.toNat).length = 2 := rfl
  rw [List.append_assoc] at hw
  have hwl := congrArg List.length hw
  rw [List.length_append, List.length_append, h2] at hwl
  have hlw := List.length_append (as := l) (bs := w)
  rw [List.take_succ_cons, decodeUnsubAck, advance1_bind, (decodeVbi_starves m).step k hn hl]
  split
  · exact .of_incomplete (by omega) _
  rename_i hkl
  rw [Dec.bind_ok (show remaining (w.take (k - l.length)) = .ok (k - l.length, w.take (k - l.length)) by
    rw [remaining, List.length_take, Nat.min_eq_left (by omega)])]
  conv in (occs := *) List.take _ w => rw [hw]
  rw [decodeU16_starves.step (a := p.packetId) _ rfl (by rw [← hw]; omega), h2]
  split
  · exact .of_incomplete (by omega) _
  rename_i hk2
  rw [(decodeAckProperties_starves m).step (a := q) _ hx (by rw [List.length_append]; omega)]
  split
  · exact .of_incomplete (by omega) _
  rename_i hk3
  rw [cut_entries m (by omega) (by omega) _ (by rw [List.length_take]; omega)]
  split
  · exact .of_err (by omega) _ (by simp)
  cases m with
  | debug => exact .of_panic (by omega) _
  | release =>
    refine .of_other (by omega) (fun h => ?_) _
    have := congrArg UnsubAckPacket.payload h
    rw [← this] at hlen
    have : es.length = 0 := hlen
    omega

theorem cut_unsubAck3 (m : Mode) (c : UInt8) {v : ProtocolVersion} (hv : v ≠ .v5) {n : Nat} {l w : Buf}
    {p : UnsubAckPacket} (k : Nat) (hn : VbiOf n l) (hb : (Packet.unsubAck p).BodyOf v n w)
    (hl : (l ++ w).length < 2 ^ 32) (hk : k < (l ++ w).length) :
    Cut True (decodeUnsubAckV3 m ((c :: (l ++ w)).take (k + 1))) p := by
  rw [List.length_append] at hk
  rw [List.take_succ_cons, decodeUnsubAckV3, advance1_bind, (decodeVbi_starves m).step k hn hl]
  split
  · exact .of_incomplete trivial _
  rw [Packet.BodyOf, if_neg hv] at hb
  rw [Dec.bind_err (decodeU16_starves.short p.packetId w _ hb.2.1 (by omega) (by rw [List.length_append] at hl; omega))]
  exact .of_incomplete trivial _

theorem cut_disconnect (m : Mode) {c : UInt8} (hc : c &&& 0x0f = 0) {n : Nat} {l w : Buf}
    {p : DisconnectPacket} (k : Nat) (hn : VbiOf n l) (hb : (Packet.disconnect p).BodyOf .v5 n w)
    (hl : (l ++ w).length < 2 ^ 32) (hk : k < (l ++ w).length) :
    Cut (k ≠ l.length) (decodeDisconnect m ((c :: (l ++ w)).take (k + 1))) p := by
  rw [List.length_append] at hk
  have hl' : w.length < 2 ^ 32 := by rw [List.length_append] at hl; omega
  rw [List.take_succ_cons, decodeDisconnect, getU8_bind, if_neg (by simpa using hc),
    (decodeVbi_starves m).step k hn hl]
  split
  · exact .of_incomplete (by omega) _
  rename_i hkl
  rcases hb with ⟨rfl, rfl, _, _⟩ | ⟨rfl, hr, _⟩ | ⟨hn2, r, x, q, rfl, hr, hq, hx⟩
  · simp at hk; omega
  · have := ReasonOf.length hr
    rw [show k - l.length = 0 by omega]
    exact .of_panic (by omega) _
  · have hr1 := ReasonOf.length hr
    rw [List.length_append] at hl' hk
    rw [decodeDisconnectReason, if_neg (by omega),
      byte_step decodeReason_exact rfl _ hr hr1 (by rw [List.length_append]; omega)]
    split
    · exact .of_panic (by omega) _
    · rw [decodeIf, if_pos (by simpa using hn2), Dec.bind_err (Dec.bind_err
        ((decodeDisconnectProperties_starves m).short q x _ hx (by omega) (by omega)))]
      exact .of_incomplete (by omega) _

theorem cut_auth (m : Mode) {c : UInt8} (hc : c &&& 0x0f = 0) {n : Nat} {l w : Buf} {p : AuthPacket} (k : Nat)
    (hn : VbiOf n l) (hb : (Packet.auth p).BodyOf .v5 n w) (hl : (l ++ w).length < 2 ^ 32)
    (hk : k < (l ++ w).length) :
    Cut (k ≠ l.length) (decodeAuth m ((c :: (l ++ w)).take (k + 1))) p := by
  rw [List.length_append] at hk
  have hl' : w.length < 2 ^ 32 := by rw [List.length_append] at hl; omega
  rw [List.take_succ_cons, decodeAuth, getU8_bind, if_neg (by simpa using hc), (decodeVbi_starves m).step k hn hl]
  split
  · exact .of_incomplete (by omega) _
  rename_i hkl
  obtain ⟨r, x, rfl, hr, hx⟩ := hb
  have hr1 := ReasonOf.length hr
  rw [List.length_append] at hl' hk
  rw [byte_step decodeReason_exact rfl _ hr hr1 (by rw [List.length_append]; omega)]
  split
  · exact .of_panic (by omega) _
  · rw [Dec.bind_err ((decodeAuthProperties_starves m).short _ x _ hx (by omega) (by omega))]
    exact .of_incomplete (by omega) _

/-- The places where a PUBLISH is not refused. -/
theorem cut_publish (m : Mode) (c : UInt8) {t : Buf} {p : PublishPacket} (k : Nat)
    (h : decodePublish m (c :: t) = .ok (p, [])) (hl : t.length < 2 ^ 32) (hk : k < t.length) :
    ∃ n l w, t = l ++ w ∧ VbiOf n l ∧
    Cut ((p.payload.getD []).length < t.length - k ∧ (k < l.length + 2 ∨ l.length + 2 + p.topicName.length ≤ k))
      (decodePublish m ((c :: t).take (k + 1))) p := by
  rw [decodePublish, getU8_bind] at h
  obtain ⟨n, r1, h1, ha⟩ := Dec.bind_inv h
  clear h
  obtain ⟨topic, r2, h2, hb⟩ := Dec.bind_inv ha
  clear ha
  obtain ⟨i, r3, h3, hc⟩ := Dec.bind_inv hb
  clear hb
  obtain ⟨q, r4, h4, hd⟩ := Dec.bind_inv hc
  clear hc
  obtain ⟨blk, r5, h5, he⟩ := Dec.bind_inv hd
  clear hd
  obtain ⟨len, r6, h6, hf⟩ := Dec.bind_inv he
  clear he
  obtain ⟨l, rfl, w1⟩ := (decodeVbi_exact m).sound _ _ _ h1
  obtain ⟨u, rfl, w2⟩ := decodeStr_exact.sound _ _ _ h2
  obtain ⟨iw, rfl, w3⟩ := (decodePublishId_exact _).sound _ _ _ h3
  obtain ⟨x, rfl, w4⟩ := (decodePublishProperties_exact m).sound _ _ _ h4
  obtain ⟨g5, rfl⟩ := liftRes_inv h5
  obtain ⟨g6, rfl⟩ := liftRes_inv h6
  simp only [Dec.of] at hf
  split at hf
  · cases hf
  rename_i hle
  injection hf with hf
  injection hf with hp hd
  have hdl := congrArg List.length hd
  rw [List.length_drop, List.length_nil] at hdl
  have hpl : (p.payload.getD []).length = r6.length := by
    rw [← hp, Option.getD_some, List.length_take]; omega
  have ht : p.topicName = topic := by rw [← hp]
  have hu : u.length = topic.length + 2 := by rw [w2.2]; simp [field]
  have e1 : (l ++ (u ++ (iw ++ (x ++ r6)))).length = l.length + (u.length + (iw.length + (x.length + r6.length))) := by
    simp only [List.length_append]
  rw [e1] at hl hk ⊢
  refine ⟨n, l, _, rfl, w1, ?_⟩
  rw [hpl, ht]
  rw [List.take_succ_cons, decodePublish, getU8_bind, (decodeVbi_starves m).step k w1 (by rw [e1]; omega)]
  split
  · exact .of_incomplete (by omega) _
  rename_i k1
  rw [text_step _ w2 (by simp only [List.length_append]; omega)]
  split
  · exact .of_incomplete (by omega) _
  rename_i k2
  split
  · exact .of_err (by omega) _ (by simp)
  rename_i k3
  rw [(decodePublishId_starves _).step _ w3 (by simp only [List.length_append]; omega)]
  split
  · exact .of_incomplete (by omega) _
  rename_i k4
  rw [(decodePublishProperties_starves m).step _ w4 (by simp only [List.length_append]; omega)]
  split
  · exact .of_incomplete (by omega) _
  rename_i k5
  rw [g5, Dec.bind_ok (show liftRes (.ok blk) _ = .ok (blk, _) from rfl), g6,
    Dec.bind_ok (show liftRes (.ok len) _ = .ok (len, _) from rfl)]
  simp only [Dec.of]
  rw [if_pos (by rw [List.length_take]; omega)]
  exact .of_err (by omega) _ (by simp)

end Mercurio
