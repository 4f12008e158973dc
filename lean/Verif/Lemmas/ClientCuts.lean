import Verif.Lemmas.Client
import Verif.Lemmas.Cuts
import Verif.Props.Grammar

/-! # The client's parser on the beginning of a packet -/

namespace Mercurio

open Spec

/-- What a parser makes of the beginning of a packet. -/
theorem parse_cut (m : Mode) (v : ProtocolVersion) (c : UInt8) (l w : Buf) (p : Packet) (hc : p.ToClient)
    (hping : p ≠ .pingResp) (hn : VbiOf w.length l) (hl : (l ++ w).length < 2 ^ 32)
    (h : parseWithVersion m v (c :: (l ++ w)) = .ok (p, [])) (k : Nat) (hk : k < (l ++ w).length) :
    Cut (p.SafeCut v (c :: (l ++ w)) (k + 1)) (parseWithVersion m v ((c :: (l ++ w)).take (k + 1))) p := by
  obtain ⟨c', t, e, hfirst, hbody⟩ := C72_read_as_written_partial m v _ _ p h
  obtain ⟨rfl, rfl⟩ := List.cons.inj e
  have hb : p.BodyOf v w.length w := by
    rcases hbody with ⟨rfl | rfl, _⟩ | ⟨n, l', w', e', hn', hb⟩
    · cases hc
    · exact absurd rfl hping
    · rw [List.append_nil] at e'
      obtain ⟨rfl, rfl, rfl⟩ := VbiOf.unique hn hn' e' hl
      exact hb
  have low : ∀ c : UInt8, (c.toNat = 0xe0 → c &&& 0x0f = 0) ∧ (c.toNat = 0xf0 → c &&& 0x0f = 0) := by
    refine u8_forall ?_; decide +kernel
  have go : ∀ {α : Type} {d : Dec α} {C : α → Packet}, (d >>= fun a => pure (C a)) (c :: (l ++ w)) = .ok (p, []) →
      ∃ a, d (c :: (l ++ w)) = .ok (a, []) ∧ p = C a := by
    intro α d C h
    obtain ⟨a, r, h1, h2⟩ := Dec.bind_inv h
    cases h2
    exact ⟨a, h1, rfl⟩
  have hhead : headEnd (c :: (l ++ w)) = 1 + l.length := headEnd_eq hn
  have hlen : (c :: (l ++ w)).length = (l ++ w).length + 1 := rfl
  have imp : ∀ {A B : Prop} {x : Res (Packet × Buf)}, (A ↔ B) → Cut A x p → Cut B x p :=
    fun h hcut => ⟨fun hb => hcut.1 (h.mpr hb), fun hb => hcut.2 (fun ha => hb (h.mp ha))⟩
  simp only [parseWithVersion, List.take_succ_cons] at h ⊢
  generalize hcc : (c >>> 4).toNat = n at h ⊢
  simp only [← List.take_succ_cons (a := c)]
  match n, h with
  | 0, h => cases h
  | 1, h => obtain ⟨a, h1, rfl⟩ := go h; cases hc
  | 2, h =>
    by_cases hv : v = .v5
    · subst hv
      obtain ⟨a, h1, rfl⟩ := go h
      exact imp (by simp only [Packet.SafeCut, hhead]; omega)
        (Cut.map (fun _ _ e => Packet.connAck.inj e) (cut_connAck m c k hn hb hl hk))
    · have hx := not_supports hv
      rw [hx] at h ⊢
      obtain ⟨a, h1, rfl⟩ := go h
      exact imp (by simp only [Packet.SafeCut, hhead]; omega)
        (Cut.map (fun _ _ e => Packet.connAck.inj e) (cut_connAck3 m c hv k hn hb hl hk))
  | 3, h =>
    obtain ⟨a, h1, rfl⟩ := go h
    obtain ⟨n', l', w', e', hn', hcut⟩ := cut_publish m c k h1 hl hk
    obtain ⟨_, rfl, rfl⟩ := VbiOf.unique hn hn' e' hl
    exact imp (by simp only [Packet.SafeCut, hhead, hlen]; omega) (Cut.map (fun _ _ e => Packet.publish.inj e) hcut)
  | 4, h =>
    obtain ⟨a, h1, rfl⟩ := go h
    exact imp (by simp only [Packet.SafeCut, hhead]; omega)
      (Cut.map (fun _ _ e => Packet.pubAck.inj e) (cut_ack m c k hn hb hl hk))
  | 5, h =>
    obtain ⟨a, h1, rfl⟩ := go h
    exact imp (by simp only [Packet.SafeCut, hhead]; omega)
      (Cut.map (fun _ _ e => Packet.pubRec.inj e) (cut_ack m c k hn hb hl hk))
  | 6, h =>
    obtain ⟨a, h1, rfl⟩ := go h
    exact imp (by simp only [Packet.SafeCut, hhead]; omega)
      (Cut.map (fun _ _ e => Packet.pubRel.inj e) (cut_ack m c k hn hb hl hk))
  | 7, h =>
    obtain ⟨a, h1, rfl⟩ := go h
    exact imp (by simp only [Packet.SafeCut, hhead]; omega)
      (Cut.map (fun _ _ e => Packet.pubComp.inj e) (cut_ack m c k hn hb hl hk))
  | 8, h => obtain ⟨a, h1, rfl⟩ := go h; cases hc
  | 9, h =>
    by_cases hv : v = .v5
    · subst hv
      obtain ⟨a, h1, rfl⟩ := go h
      exact imp (by simp only [Packet.SafeCut, hlen]; omega)
        (Cut.map (fun _ _ e => Packet.subAck.inj e) (cut_subAck m c k hn hb hl hk))
    · have hx := not_supports hv
      rw [hx] at h ⊢
      obtain ⟨a, h1, rfl⟩ := go h
      exact imp (by simp only [Packet.SafeCut, hlen]; omega)
        (Cut.map (fun _ _ e => Packet.subAck.inj e) (cut_subAck3 m c hv k hn hb hl hk))
  | 10, h => obtain ⟨a, h1, rfl⟩ := go h; cases hc
  | 11, h =>
    by_cases hv : v = .v5
    · subst hv
      obtain ⟨a, h1, rfl⟩ := go h
      exact imp (by simp only [Packet.SafeCut, hlen, forall_const]; omega)
        (Cut.map (fun _ _ e => Packet.unsubAck.inj e) (cut_unsubAck m c k hn hb hl hk))
    · have hx := not_supports hv
      rw [hx] at h ⊢
      obtain ⟨a, h1, rfl⟩ := go h
      exact imp (by simp only [Packet.SafeCut, true_iff]; intro h; exact absurd h hv)
        (Cut.map (fun _ _ e => Packet.unsubAck.inj e) (cut_unsubAck3 m c hv k hn hb hl hk))
  | 12, h => obtain ⟨a, h1, rfl⟩ := go h; cases hc
  | 13, h => obtain ⟨a, h1, rfl⟩ := go h; exact absurd rfl hping
  | 14, h =>
    obtain ⟨a, h1, rfl⟩ := go h
    exact imp (by simp only [Packet.SafeCut, hhead]; omega)
      (Cut.map (fun _ _ e => Packet.disconnect.inj e)
        (cut_disconnect m ((low c).1 (hfirst.2 (by simp [Packet.fixedHeader])).symm) k hn hb hl hk))
  | 15, h =>
    obtain ⟨a, h1, rfl⟩ := go h
    exact imp (by simp only [Packet.SafeCut, hhead]; omega)
      (Cut.map (fun _ _ e => Packet.auth.inj e)
        (cut_auth m ((low c).2 (hfirst.2 (by simp [Packet.fixedHeader])).symm) k hn hb hl hk))
  | n + 16, h => cases h

theorem safeCut_received (v : ProtocolVersion) (p : Packet) (bytes : Buf) (k : Nat) :
    (p.receivedBy v).SafeCut v bytes k ↔ p.SafeCut v bytes k := by
  cases p with
  | connAck p => rw [Packet.receivedBy]; split <;> exact Iff.rfl
  | subAck p => rw [Packet.receivedBy]; split <;> simp [Packet.SafeCut, SubAckPacket.received]
  | unsubAck p =>
    rw [Packet.receivedBy]
    split
    · simp [Packet.SafeCut, UnsubAckPacket.received]
    · rename_i h; simp [Packet.SafeCut, h]
  | publish p => simp [Packet.receivedBy, Packet.received, Packet.SafeCut, PublishPacket.received]
  | _ => exact Iff.rfl

theorem SurvivesTo.toClient {v : ProtocolVersion} {p : Packet} (h : p.SurvivesTo v) :
    (p.receivedBy v).ToClient ∧ (p.receivedBy v = .pingResp → p = .pingResp) := by
  cases p <;> simp only [Packet.SurvivesTo] at h <;> simp only [Packet.receivedBy, Packet.received] <;>
    (try split) <;> simp [Packet.ToClient]

/-- The client's parser on the beginning of a packet. -/
theorem client_cut (m : Mode) (v : ProtocolVersion) (p : Packet) (hs : p.SurvivesTo v) {bytes : Buf}
    (he : p.encode = .ok bytes) (hf : FitsMqtt bytes) (hping : p ≠ .pingResp) (k : Nat) (hk0 : 0 < k)
    (hk : k < bytes.length) :
    Cut (p.SafeCut v bytes k) (parseWithVersion m v (bytes.take k)) (p.receivedBy v) := by
  obtain ⟨body, hb⟩ := Packet.encode_frame he
  obtain ⟨hlen, _⟩ := frame_bounds hf hb [] (by unfold FitsMqtt at hf; simp; omega)
  rw [frame, Nat.mod_eq_of_lt (by omega), encodeVbi_eq_vbi (by omega)] at hb
  obtain ⟨rest, hr, hparse⟩ := parse_for_client_exact m v p hs he hf [] (by unfold FitsMqtt at hf; simp; omega)
  have hr := hr hping
  subst hr
  rw [List.append_nil] at hparse
  obtain ⟨k, rfl⟩ : ∃ j, k = j + 1 := ⟨k - 1, by omega⟩
  subst hb
  rw [← safeCut_received]
  refine parse_cut m v _ _ _ _ (SurvivesTo.toClient hs).1 (fun h => hping ((SurvivesTo.toClient hs).2 h))
    (Spec.vbi_of hlen) ?_ hparse k ?_
  · unfold FitsMqtt at hf; rw [List.length_cons] at hf; omega
  · rw [List.length_cons] at hk; omega

theorem take_ne_nil {b : Buf} {k : Nat} (h0 : 0 < k) (h : k < b.length) : ∃ x xs, b.take k = x :: xs := by
  cases hb : b.take k with
  | nil => have := congrArg List.length hb; rw [List.length_take, List.length_nil] at this; omega
  | cons x xs => exact ⟨x, xs, rfl⟩

/-- Where some of the bytes of packets end. -/
theorem SentTo.cutAt {v : ProtocolVersion} {ps : List Packet} {b : Buf} (h : SentTo v ps b) :
    ∀ (x rest : Buf), b = x ++ rest → ∃ qs rs whole tail, ps = qs ++ rs ∧ SentTo v qs whole ∧ x = whole ++ tail ∧
      SentTo v rs (tail ++ rest) ∧ (tail = [] ∨ ∃ p rs' bytes k, rs = p :: rs' ∧ p.SurvivesTo v ∧
        p.encode = .ok bytes ∧ FitsMqtt bytes ∧ 0 < k ∧ k < bytes.length ∧ tail = bytes.take k) := by
  induction h with
  | nil =>
    intro x rest e
    obtain ⟨rfl, rfl⟩ := List.append_eq_nil_iff.mp e.symm
    exact ⟨[], [], [], [], rfl, .nil, rfl, .nil, .inl rfl⟩
  | @cons p bytes ps bs hs he hf hrest ih =>
    intro x rest e
    by_cases hx : bytes.length ≤ x.length
    · obtain ⟨y, rfl⟩ : ∃ y, x = bytes ++ y := by
        refine ⟨x.drop bytes.length, ?_⟩
        have := congrArg (List.take bytes.length) e
        rw [List.take_left, List.take_append_of_le_length hx] at this
        conv => rhs; lhs; rw [this]
        exact (List.take_append_drop _ _).symm
      rw [List.append_assoc] at e
      obtain ⟨qs, rs, whole, tail, rfl, h1, rfl, h2, h3⟩ := ih y rest (List.append_cancel_left e)
      exact ⟨p :: qs, rs, bytes ++ whole, tail, rfl, .cons hs he hf h1, by rw [List.append_assoc], h2, h3⟩
    · refine ⟨[], p :: ps, [], x, rfl, .nil, rfl, by rw [← e]; exact .cons hs he hf hrest, ?_⟩
      by_cases h0 : x = []
      · exact .inl h0
      · right
        refine ⟨p, ps, bytes, x.length, rfl, hs, he, hf, List.length_pos_iff.mpr h0, by omega, ?_⟩
        have := congrArg (List.take x.length) e
        rw [List.take_left, List.take_append_of_le_length (by omega)] at this
        exact this.symm

theorem endsWell_append {v : ProtocolVersion} {qs : List Packet} {whole : Buf} (h : SentTo v qs whole)
    (rs : List Packet) (k : Nat) : EndsWell v (qs ++ rs) (whole.length + k) ↔ EndsWell v rs k := by
  induction h with
  | nil => simp
  | @cons p bytes ps bs hs he hf hrest ih =>
    have hpos : 0 < bytes.length := List.length_pos_iff.mpr (encode_ne_nil he)
    rw [List.length_append, List.cons_append, EndsWell, ← ih]
    constructor
    · rintro (h | ⟨b, hb, h⟩)
      · omega
      · rw [he] at hb; cases hb
        rw [if_neg (by omega)] at h
        rw [show bytes.length + bs.length + k - bytes.length = bs.length + k by omega] at h
        exact h
    · intro h
      refine .inr ⟨bytes, he, ?_⟩
      rw [if_neg (by omega), show bytes.length + bs.length + k - bytes.length = bs.length + k by omega]
      exact h

end Mercurio
