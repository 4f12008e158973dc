import Verif.Spec.Abort
import Verif.Lemmas.NoPanic
import Verif.Lemmas.ExactPackets

/-! # When decoders abort -/

namespace Mercurio

open Spec

theorem bind_panic {α β : Type} {d : Dec α} {f : α → Dec β} {b : Buf} :
    (d >>= f) b = .panic ↔ d b = .panic ∨ ∃ a r, d b = .ok (a, r) ∧ f a r = .panic := by
  rw [Dec.bind_apply]
  cases hd : d b with
  | err e => simp
  | panic => simp
  | ok x =>
    obtain ⟨a, r⟩ := x
    constructor
    · intro h; exact .inr ⟨a, r, rfl, h⟩
    · rintro (h | ⟨a', r', h, g⟩)
      · cases h
      · cases h; exact g

theorem bind_calm {α β : Type} {d : Dec α} {f : α → Dec β} {b : Buf} (h : d.NoPanic) :
    (d >>= f) b = .panic ↔ ∃ a r, d b = .ok (a, r) ∧ f a r = .panic := by
  rw [bind_panic]
  exact or_iff_right (h.ne b)

theorem map_panic {α β : Type} {d : Dec α} {f : α → β} {b : Buf} :
    (d >>= fun a => pure (f a)) b = .panic ↔ d b = .panic := by
  rw [bind_panic]
  constructor
  · rintro (h | ⟨a, r, _, h⟩)
    · exact h
    · cases h
  · exact .inl

/-- What a decoder accepts, as an equation for the buffer. -/
theorem Dec.Exact.ok_iff {α : Type} {d : Dec α} {W : α → Buf → Prop} (hd : d.Exact W) {b : Buf}
    (hb : b.length < 2 ^ 32) (a : α) (r : Buf) : d b = .ok (a, r) ↔ ∃ w, b = w ++ r ∧ W a w := by
  constructor
  · exact hd.sound b a r
  · rintro ⟨w, rfl, hw⟩; exact hd.complete a w r hw hb

theorem getU8_panic (b : Buf) : getU8 b = .panic ↔ b = [] := by
  cases b <;> simp [getU8]

theorem decodeReason_panic (b : Buf) : decodeReason b = .panic ↔ b = [] := by
  rw [decodeReason, bind_panic, getU8_panic]
  constructor
  · rintro (h | ⟨a, r, _, h⟩)
    · exact h
    · cases hc : ReasonCode.ofCode a <;> rw [hc] at h <;> cases h
  · exact .inl

/-- The first byte and the length have been read. -/
theorem header_panic {β : Type} {c : UInt8} {t : Buf} (ht : t.length < 2 ^ 32) {f : Nat → Dec β} :
    (decodeVbi .release >>= f) t = .panic ↔ ∃ n l body, t = l ++ body ∧ VbiOf n l ∧ f n body = .panic := by
  rw [bind_calm decodeVbi_noPanic]
  constructor
  · rintro ⟨n, r, h, g⟩
    obtain ⟨l, rfl, hl⟩ := ((decodeVbi_exact _).ok_iff ht n r).mp h
    exact ⟨n, l, r, rfl, hl, g⟩
  · rintro ⟨n, l, body, rfl, hl, g⟩
    exact ⟨n, body, ((decodeVbi_exact _).ok_iff ht n body).mpr ⟨l, rfl, hl⟩, g⟩

theorem advance1_bind {β : Type} (f : Unit → Dec β) (c : UInt8) (t : Buf) :
    (advance1 >>= f) (c :: t) = f () t := rfl

theorem getU8_bind {β : Type} (f : UInt8 → Dec β) (c : UInt8) (t : Buf) :
    (getU8 >>= f) (c :: t) = f c t := rfl

/-- Shape of the results below: after the first byte and the length comes a body with `A`. -/
def Heads (A : Nat → Buf → Prop) (t : Buf) : Prop := ∃ n l body, t = l ++ body ∧ VbiOf n l ∧ A n body

theorem Heads.congr {A B : Nat → Buf → Prop} {t : Buf}
    (h : ∀ n body, body.length ≤ t.length → n < 2 ^ 28 → (A n body ↔ B n body)) : Heads A t ↔ Heads B t := by
  constructor
  · rintro ⟨n, l, body, rfl, hl, ha⟩
    exact ⟨n, l, body, rfl, hl, (h n body (by simp) hl.lt).mp ha⟩
  · rintro ⟨n, l, body, rfl, hl, ha⟩
    exact ⟨n, l, body, rfl, hl, (h n body (by simp) hl.lt).mpr ha⟩

theorem decodeConnAckFlags_panic (b : Buf) : decodeConnAckFlags b = .panic ↔ b = [] := by
  rw [decodeConnAckFlags, bind_panic, getU8_panic]
  constructor
  · rintro (h | ⟨a, r, _, h⟩)
    · exact h
    · split at h <;> cases h
  · exact .inl

/-- CONNACK, of either version. -/
theorem flags_then_panic {β : Type} {f : Bool → Dec β} (hf : ∀ s b, f s b = .panic ↔ b = []) {b : Buf}
    (hb : b.length < 2 ^ 32) :
    (decodeConnAckFlags >>= f) b = .panic ↔ b ∈ [[], [0], [1]] := by
  rw [bind_panic, decodeConnAckFlags_panic]
  constructor
  · rintro (rfl | ⟨s, r, h, g⟩)
    · simp
    · rw [hf] at g
      subst g
      obtain ⟨w, rfl, rfl⟩ := decodeConnAckFlags_exact.sound _ _ _ h
      cases s <;> decide
  · intro h
    simp only [List.mem_cons, List.not_mem_nil, or_false] at h
    rcases h with rfl | rfl | rfl
    · exact .inl rfl
    · exact .inr ⟨false, [], rfl, (hf _ _).mpr rfl⟩
    · exact .inr ⟨true, [], rfl, (hf _ _).mpr rfl⟩

theorem decodeConnAck_panic {c : UInt8} {t : Buf} (ht : t.length < 2 ^ 32) :
    decodeConnAck .release (c :: t) = .panic ↔ Heads (fun _ body => body ∈ [[], [0], [1]]) t := by
  rw [decodeConnAck, advance1_bind, header_panic (c := c) ht]
  refine Heads.congr fun n body hb _ => flags_then_panic (fun s b => ?_) (by omega)
  rw [bind_panic, decodeReason_panic]
  constructor
  · rintro (h | ⟨a, r, _, h⟩)
    · exact h
    · exact absurd h ((Dec.NoPanic.bind (decodeBlock_noPanic _ _ _) (fun _ => Dec.NoPanic.pure _)).ne r)
  · exact .inl

theorem decodeConnAckV3_panic {c : UInt8} {t : Buf} (ht : t.length < 2 ^ 32) :
    decodeConnAckV3 .release (c :: t) = .panic ↔ Heads (fun _ body => body ∈ [[], [0], [1]]) t := by
  rw [decodeConnAckV3, advance1_bind, header_panic (c := c) ht]
  refine Heads.congr fun n body hb _ => flags_then_panic (fun s b => ?_) (by omega)
  rw [bind_panic, getU8_panic]
  constructor
  · rintro (h | ⟨a, r, _, h⟩)
    · exact h
    · cases h
  · exact .inl

theorem decodeAck_panic {c : UInt8} {t : Buf} (ht : t.length < 2 ^ 32) :
    decodeAck .release (c :: t) = .panic ↔ Heads (fun n body => body.length = 2 ∧ n ≠ 2) t := by
  rw [decodeAck, advance1_bind, header_panic (c := c) ht]
  refine Heads.congr fun n body hb _ => ?_
  rw [bind_calm decodeU16_noPanic]
  constructor
  · rintro ⟨i, r, h, g⟩
    split at g
    · cases g
    · rename_i hn
      rw [bind_panic, decodeReason_panic] at g
      rcases g with rfl | ⟨a, r, _, g⟩
      · obtain ⟨w, rfl, rfl⟩ := decodeU16_exact.sound _ _ _ h
        exact ⟨rfl, hn⟩
      · exact absurd g ((Dec.NoPanic.bind (decodeBlock_noPanic _ _ _) (fun _ => Dec.NoPanic.pure _)).ne r)
  · rintro ⟨h2, hn⟩
    rcases body with _ | ⟨x, _ | ⟨y, _ | ⟨z, body⟩⟩⟩
    · simp at h2
    · simp at h2
    · refine ⟨_, [], rfl, ?_⟩
      rw [if_neg hn, bind_panic, decodeReason_panic]
      exact .inl rfl
    · simp at h2

/-- Entries of which none is refused for want of a byte. -/
theorem payloadLoop_calm {α : Type} {d : Dec α} (hd : ∀ b, d b = .panic → b = []) (hr : d.Reads 1) (next : Nat) :
    ∀ fuel b, b.length ≤ fuel → payloadLoop d next fuel b ≠ .panic := by
  intro fuel
  induction fuel with
  | zero =>
    intro b hb h
    simp only [payloadLoop] at h
    split at h
    · omega
    · cases h
  | succ fuel ih =>
    intro b hb h
    simp only [payloadLoop] at h
    split at h
    · rename_i hlen
      split at h
      · cases h
      · rename_i hp; rw [hd _ hp] at hlen; simp at hlen
      · rename_i a rest ha
        obtain ⟨u, hu, hl⟩ := hr.h _ _ _ ha
        have hlen := congrArg List.length hu
        simp at hlen
        split at h
        · cases h
        · rename_i hp; exact ih _ (by omega) hp
        · cases h
    · cases h

theorem decodeEntries_calm {α : Type} (a b : Nat) {d : Dec α} (hd : ∀ b, d b = .panic → b = []) (hr : d.Reads 1) :
    (decodeEntries .release a b d).NoPanic := by
  rw [decodeEntries]
  refine Dec.NoPanic.bind remaining_noPanic (fun r => ?_)
  refine Dec.NoPanic.ite (Dec.NoPanic.fail _) ?_
  refine Dec.NoPanic.bind (liftRes_noPanic (usizeSub_release _ _)) (fun _ => ?_)
  exact ⟨fun b => payloadLoop_calm hd hr _ _ _ (Nat.le_refl _)⟩

theorem decodeSubAck_noPanic (c : UInt8) (b : Buf) : decodeSubAck .release (c :: b) ≠ .panic := by
  rw [decodeSubAck]
  refine advance1_cons (fun _ => ?_) c b
  refine Dec.NoPanic.bind decodeVbi_noPanic (fun _ => ?_)
  refine Dec.NoPanic.bind remaining_noPanic (fun _ => ?_)
  refine Dec.NoPanic.bind decodeU16_noPanic (fun _ => ?_)
  refine Dec.NoPanic.bind (decodeBlock_noPanic _ _ _) (fun _ => ?_)
  exact Dec.NoPanic.bind (decodeEntries_calm _ _ (fun b => (decodeReason_panic b).mp) decodeReason_reads)
    (fun _ => Dec.NoPanic.pure _)

theorem decodeSubAckV3_noPanic (c : UInt8) (b : Buf) : decodeSubAckV3 .release (c :: b) ≠ .panic := by
  rw [decodeSubAckV3]
  refine advance1_cons (fun _ => ?_) c b
  refine Dec.NoPanic.bind decodeVbi_noPanic (fun _ => ?_)
  refine Dec.NoPanic.bind remaining_noPanic (fun _ => ?_)
  refine Dec.NoPanic.bind decodeU16_noPanic (fun _ => ?_)
  refine Dec.NoPanic.bind (liftRes_noPanic (usizeSub_release _ _)) (fun _ => ?_)
  refine Dec.NoPanic.bind ⟨fun b => payloadLoop_calm (fun b h => ?_) ?_ _ _ _ (Nat.le_refl _)⟩
    (fun _ => Dec.NoPanic.pure _)
  · exact (getU8_panic b).mp (map_panic.mp h)
  · exact Dec.Reads.bind (l := 0) getU8_reads (fun _ => Dec.Reads.pure _)

theorem decodeUnsubAck_noPanic (c : UInt8) (b : Buf) : decodeUnsubAck .release (c :: b) ≠ .panic := by
  rw [decodeUnsubAck]
  refine advance1_cons (fun _ => ?_) c b
  refine Dec.NoPanic.bind decodeVbi_noPanic (fun _ => ?_)
  refine Dec.NoPanic.bind remaining_noPanic (fun _ => ?_)
  refine Dec.NoPanic.bind decodeU16_noPanic (fun _ => ?_)
  refine Dec.NoPanic.bind (decodeBlock_noPanic _ _ _) (fun _ => ?_)
  exact Dec.NoPanic.bind (decodeEntries_calm _ _ (fun b => (decodeReason_panic b).mp) decodeReason_reads)
    (fun _ => Dec.NoPanic.pure _)

theorem decodeUnsubAckV3_noPanic (c : UInt8) (b : Buf) : decodeUnsubAckV3 .release (c :: b) ≠ .panic := by
  rw [decodeUnsubAckV3]
  refine advance1_cons (fun _ => ?_) c b
  refine Dec.NoPanic.bind decodeVbi_noPanic (fun _ => ?_)
  exact Dec.NoPanic.bind decodeU16_noPanic (fun _ => Dec.NoPanic.pure _)

theorem decodeDisconnect_panic {c : UInt8} {t : Buf} (ht : t.length < 2 ^ 32) :
    decodeDisconnect .release (c :: t) = .panic ↔
      c &&& 0x0f = 0 ∧ Heads (fun n body => 1 ≤ n ∧ body = []) t := by
  rw [decodeDisconnect, getU8_bind]
  by_cases hc : c &&& 0x0f = 0
  · rw [if_neg (by simpa using hc), header_panic (c := c) ht]
    refine Iff.trans (Heads.congr fun n body hb _ => ?_) (Iff.symm (and_iff_right hc))
    rw [bind_panic]
    have tail : ∀ (a : ReasonCode) r, (decodeIf (decide (2 ≤ n)) (decodeDisconnectProperties .release) >>=
        fun properties => pure { reason := a, properties : DisconnectPacket }) r ≠ .panic :=
      fun a r => (Dec.NoPanic.bind (decodeIf_noPanic _ (decodeBlock_noPanic _ _ _))
        (fun _ => Dec.NoPanic.pure _)).ne r
    constructor
    · rintro (h | ⟨a, r, _, h⟩)
      · rw [decodeDisconnectReason] at h
        split at h
        · cases h
        · exact ⟨by omega, (decodeReason_panic _).mp h⟩
      · exact absurd h (tail a r)
    · rintro ⟨hn, rfl⟩
      left
      rw [decodeDisconnectReason, if_neg (by omega)]
      rfl
  · rw [if_pos hc]
    constructor
    · intro h; cases h
    · rintro ⟨h, _⟩; exact absurd h hc

theorem decodeAuth_panic {c : UInt8} {t : Buf} (ht : t.length < 2 ^ 32) :
    decodeAuth .release (c :: t) = .panic ↔ c &&& 0x0f = 0 ∧ Heads (fun _ body => body = []) t := by
  rw [decodeAuth, getU8_bind]
  by_cases hc : c &&& 0x0f = 0
  · rw [if_neg (by simpa using hc), header_panic (c := c) ht]
    refine Iff.trans (Heads.congr fun n body hb _ => ?_) (Iff.symm (and_iff_right hc))
    rw [bind_panic, decodeReason_panic]
    constructor
    · rintro (h | ⟨a, r, _, h⟩)
      · exact h
      · exact absurd h ((Dec.NoPanic.bind (decodeBlock_noPanic _ _ _) (fun _ => Dec.NoPanic.pure _)).ne r)
    · exact .inl
  · rw [if_pos hc]
    constructor
    · intro h; cases h
    · rintro ⟨h, _⟩; exact absurd h hc

/-! ## SUBSCRIBE -/

theorem decodeSubscribePayload_panic {b : Buf} (hb : b.length < 2 ^ 32) :
    decodeSubscribePayload b = .panic ↔ ∃ f, TextOf f b := by
  rw [decodeSubscribePayload, bind_calm decodeStr_noPanic]
  constructor
  · rintro ⟨f, r, h, g⟩
    obtain ⟨w, rfl, hw⟩ := decodeStr_exact.sound _ _ _ h
    rw [bind_panic, getU8_panic] at g
    rcases g with rfl | ⟨o, r', _, g⟩
    · rw [List.append_nil]; exact ⟨f, hw⟩
    · cases hc : SubscriptionOptions.ofByte o <;> rw [hc] at g <;> cases g
  · rintro ⟨f, hf⟩
    refine ⟨f, [], ?_, ?_⟩
    · have := decodeStr_exact.complete f b [] hf (by simpa using hb)
      simpa using this
    · rw [bind_panic, getU8_panic]; exact .inl rfl

theorem SubscribePayload.Of.pos {e : SubscribePayload} {w : Buf} (h : e.Of w) : 0 < w.length := by
  obtain ⟨b, _, rfl, _⟩ := h
  simp

theorem payloadLoop_panic (next : Nat) :
    ∀ fuel b, b.length ≤ fuel → b.length < 2 ^ 32 →
      (payloadLoop decodeSubscribePayload next fuel b = .panic ↔
        ∃ es us f t, b = us ++ t ∧ ListOf SubscribePayload.Of es us ∧ TextOf f t ∧ next < t.length) := by
  intro fuel
  induction fuel with
  | zero =>
    intro b hb _
    have : b = [] := List.eq_nil_of_length_eq_zero (by omega)
    subst this
    constructor
    · intro h; simp [payloadLoop] at h
    · rintro ⟨es, us, f, t, h, _, _, hn⟩
      have := congrArg List.length h
      simp at this
      omega
  | succ fuel ih =>
    intro b hb hl
    simp only [payloadLoop]
    by_cases hn : b.length > next
    · rw [if_pos hn]
      cases hd : decodeSubscribePayload b with
      | panic =>
        obtain ⟨f, hf⟩ := (decodeSubscribePayload_panic hl).mp hd
        exact ⟨fun _ => ⟨[], [], f, b, rfl, .nil, hf, hn⟩, fun _ => rfl⟩
      | err e =>
        constructor
        · intro h; cases h
        · rintro ⟨es, us, f, t, rfl, hes, hf, _⟩
          cases hes with
          | nil =>
            have := (decodeSubscribePayload_panic hl).mpr ⟨f, hf⟩
            rw [hd] at this; cases this
          | @cons a as u w hu hw =>
            have := decodeSubscribePayload_exact.complete a u (w ++ t) hu (by simpa using hl)
            rw [← List.append_assoc, hd] at this; cases this
      | ok x =>
        obtain ⟨a, r⟩ := x
        obtain ⟨u, rfl, hu⟩ := decodeSubscribePayload_exact.sound _ _ _ hd
        have hpos := SubscribePayload.Of.pos hu
        simp only [List.length_append] at hb hl
        have key := ih r (by omega) (by omega)
        constructor
        · intro h
          simp only at h
          have hp : payloadLoop decodeSubscribePayload next fuel r = .panic := by
            cases hq : payloadLoop decodeSubscribePayload next fuel r with
            | panic => rfl
            | err e => rw [hq] at h; cases h
            | ok y => rw [hq] at h; cases h
          obtain ⟨es, us, f, t, rfl, hes, hf, hlt⟩ := key.mp hp
          exact ⟨a :: es, u ++ us, f, t, by simp, .cons hu hes, hf, hlt⟩
        · rintro ⟨es, us, f, t, h, hes, hf, hlt⟩
          cases hes with
          | nil =>
            simp only [List.nil_append] at h
            have := (decodeSubscribePayload_panic (b := u ++ r) (by simp only [List.length_append]; omega)).mpr
              ⟨f, by rw [h]; exact hf⟩
            rw [hd] at this; cases this
          | @cons a' as u' w hu' hw =>
            have hc := decodeSubscribePayload_exact.complete a' u' (w ++ t) hu'
              (by rw [← List.append_assoc, ← h]; simp only [List.length_append]; omega)
            rw [← List.append_assoc, ← h, hd] at hc
            cases hc
            have hp := key.mpr ⟨as, w, f, t, rfl, hw, hf, hlt⟩
            simp only [hp]
    · rw [if_neg hn]
      constructor
      · intro h; cases h
      · rintro ⟨es, us, f, t, rfl, _, _, hlt⟩
        simp only [List.length_append] at hn
        omega

theorem decodeSubscribe_panic {c : UInt8} {t : Buf} (ht : t.length < 2 ^ 32) :
    decodeSubscribe .release (c :: t) = .panic ↔ Heads (fun n body =>
      ∃ i x q es us f t, body = (be16 i ++ x ++ us) ++ t ∧ i < 65536 ∧ SubscribeBlock q x ∧
        ListOf SubscribePayload.Of es us ∧ TextOf f t ∧ (be16 i ++ x ++ us).length < n ∧ n ≤ body.length) t := by
  rw [decodeSubscribe, advance1_bind, header_panic (c := c) ht]
  refine Heads.congr fun n body hb hn => ?_
  have hbl : body.length < 2 ^ 32 := by omega
  rw [bind_calm remaining_noPanic]
  have entries : ∀ r : Buf, r.length ≤ body.length →
      (decodeEntries .release body.length n decodeSubscribePayload r = .panic ↔
        ∃ es us f t, r = us ++ t ∧ ListOf SubscribePayload.Of es us ∧ TextOf f t ∧
          body.length < t.length + n ∧ n ≤ body.length) := by
    intro r hr
    rw [decodeEntries, bind_calm remaining_noPanic]
    constructor
    · rintro ⟨k, r', h, g⟩
      cases h
      split at g
      · cases g
      · rw [bind_calm (liftRes_noPanic (usizeSub_release _ _))] at g
        obtain ⟨next, r', h, g⟩ := g
        obtain ⟨h, rfl⟩ := liftRes_inv h
        obtain ⟨es, us, f, t, rfl, hes, hf, hlt⟩ := (payloadLoop_panic next _ _ (Nat.le_refl _) (by omega)).mp g
        refine ⟨es, us, f, t, rfl, hes, hf, ?_⟩
        simp only [List.length_append] at hr
        rw [usizeSub] at h
        split at h
        · cases h; omega
        · cases h; omega
    · rintro ⟨es, us, f, t, rfl, hes, hf, hlt, hle⟩
      refine ⟨_, _, rfl, ?_⟩
      have h0 : (us ++ t).length ≠ 0 := by
        obtain ⟨_, rfl⟩ := hf
        simp [field]
      rw [if_neg h0, bind_calm (liftRes_noPanic (usizeSub_release _ _))]
      refine ⟨body.length - n, us ++ t, ?_, ?_⟩
      · rw [usizeSub, if_pos hle]; rfl
      · exact (payloadLoop_panic _ _ _ (Nat.le_refl _) (by omega)).mpr ⟨es, us, f, t, rfl, hes, hf, by omega⟩
  have block : (decodeSubscribeProperties .release).NoPanic := decodeBlock_noPanic _ _ _
  constructor
  · rintro ⟨k, r, h, g⟩
    cases h
    rw [bind_calm decodeU16_noPanic] at g
    obtain ⟨i, r, h, g⟩ := g
    obtain ⟨w, hw, rfl⟩ := decodeU16_exact.sound _ _ _ h
    rw [bind_calm block] at g
    obtain ⟨q, r', h, g⟩ := g
    obtain ⟨x, rfl, hx⟩ := (decodeSubscribeProperties_exact _).sound _ _ _ h
    rw [map_panic] at g
    have hlen := congrArg List.length hw
    simp only [List.length_append] at hlen
    obtain ⟨es, us, f, t', rfl, hes, hf, h1, h2⟩ := (entries r' (by omega)).mp g
    refine ⟨i.toNat, x, q, es, us, f, t', by rw [hw]; simp, i.toNat_lt, hx, hes, hf, ?_, h2⟩
    simp only [List.length_append] at hlen ⊢
    omega
  · rintro ⟨i, x, q, es, us, f, t', hbody, hi, hx, hes, hf, h1, h2⟩
    refine ⟨_, _, rfl, ?_⟩
    rw [bind_calm decodeU16_noPanic]
    have hi' : (UInt16.ofNat i).toNat = i := by simp; omega
    have hlen := congrArg List.length hbody
    simp only [List.length_append] at hlen h1
    refine ⟨UInt16.ofNat i, x ++ (us ++ t'), ?_, ?_⟩
    · have := decodeU16_exact.complete (UInt16.ofNat i) (be16 i) (x ++ (us ++ t')) (by rw [hi'])
        (by simp only [List.length_append]; omega)
      rw [hbody]
      simpa using this
    · rw [bind_calm block]
      refine ⟨q, us ++ t', ?_, ?_⟩
      · exact (decodeSubscribeProperties_exact _).complete q x (us ++ t') hx
          (by simp only [List.length_append]; omega)
      · rw [map_panic]
        refine (entries _ (by simp only [List.length_append]; omega)).mpr ⟨es, us, f, t', rfl, hes, hf, ?_, h2⟩
        omega

/-! ## The completeness check -/

theorem vbi_length_le : ∀ (k n : Nat), n < 128 ^ (k + 1) → (vbi n).length ≤ k + 1 := by
  intro k
  induction k with
  | zero => intro n hn; rw [vbi, if_pos (by omega)]; simp
  | succ k ih =>
    intro n hn
    rw [vbi]
    split
    · simp
    · rw [List.length_cons]
      have := ih (n / 128) (by rw [Nat.div_lt_iff_lt_mul (by omega)]; rw [Nat.pow_succ] at hn; exact hn)
      omega

theorem VbiOf.vbi_le {n : Nat} {l : Buf} (h : VbiOf n l) : (vbi n).length ≤ l.length := by
  obtain ⟨pre, last, rfl, _, _, _, rfl⟩ := h
  have := vbi_length_le pre.length (base128 (pre ++ [last])) (by
    have := base128_lt (pre ++ [last])
    simpa using this)
  simpa using this

/-- The check lets a buffer through exactly if it holds a whole packet. -/
theorem check_ok_iff (m : Mode) (c : UInt8) (n : Nat) (l body : Buf) (hl : VbiOf n l)
    (hlen : (l ++ body).length < 2 ^ 32) :
    check m (c :: (l ++ body)) = .ok () ↔ Whole n (c :: (l ++ body)) := by
  have hn := hl.lt
  have hv := VbiOf.vbi_le hl
  have h1 : 1 ≤ l.length := by
    obtain ⟨pre, last, rfl, _⟩ := hl; simp
  have hc : ¬ (c :: (l ++ body)).length < 2 := by simp; omega
  have hd : decodeVbi m ((c :: (l ++ body)).drop 1) = .ok (n, body) := (decodeVbi_exact m).complete n l body hl hlen
  unfold check
  rw [if_neg hc, hd]
  simp only
  rw [vbiSize_ok hn, encodeVbi_eq_vbi (by omega)]
  simp only
  have hu : usizeSub m (c :: (l ++ body)).length ((vbi n).length + 1) =
      .ok ((c :: (l ++ body)).length - ((vbi n).length + 1)) := by
    unfold usizeSub
    rw [if_pos (by simp only [List.length_cons, List.length_append]; omega)]
  rw [hu]
  simp only [Whole, List.length_cons, List.length_append]
  split
  · exact ⟨fun _ => (by omega), fun _ => rfl⟩
  · exact ⟨fun h => (by cases h), fun h => (by omega)⟩

end Mercurio
