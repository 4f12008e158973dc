import Verif.Lemmas.RoundTrip
import Verif.Model.Connection
import Verif.Spec.Stream

/-! # The completeness check and reading a stream in chunks -/

namespace Mercurio

open Spec

theorem encodeVbi_take_short (m : Mode) {n : Nat} (hn : n < 2 ^ 28) {j : Nat}
    (hj : j < (encodeVbi n).length) : decodeVbi m ((encodeVbi n).take j) = .err .incomplete := by
  obtain ⟨pre, last, h1, h2, h3, _, _⟩ :=
    (decodeVbi_ok_iff m (encodeVbi n) n []).mp (by simpa using decodeVbi_encode m n hn [])
  rw [h1] at hj ⊢
  have hj' : j ≤ pre.length := by simpa [Nat.lt_succ_iff] using hj
  rw [List.take_append_of_le_length hj']
  apply decodeVbi_short m
  · rw [List.length_take]; omega
  · intro b hb; exact h3 b (List.mem_of_mem_take hb)

theorem check_of_vbi (m : Mode) (h : UInt8) (n : Nat) (hn : n < 2 ^ 28) (x : Buf) :
    check m (h :: (encodeVbi n ++ x)) = if n ≤ x.length then .ok () else .err .incomplete := by
  have hp := encodeVbi_length_pos n
  have hlen : ¬ ((h :: (encodeVbi n ++ x)).length < 2) := by simp; omega
  unfold check
  rw [if_neg hlen]
  have hsub : usizeSub m (h :: (encodeVbi n ++ x)).length ((encodeVbi n).length + 1)
      = .ok x.length := by
    rw [usizeSub_ok m (by simp)]
    congr 1
    simp only [List.length_cons, List.length_append]; omega
  simp only [List.drop_succ_cons, List.drop_zero, decodeVbi_encode m n hn, vbiSize_ok hn, hsub,
    ge_iff_le]

theorem check_frame (m : Mode) (h : UInt8) (body rest : Buf) (hb : body.length < 2 ^ 28) :
    check m (frame h body.length body ++ rest) = .ok () := by
  rw [frame, Nat.mod_eq_of_lt (by omega), List.cons_append, List.append_assoc,
    check_of_vbi m h _ hb, if_pos (by simp)]

theorem check_frame_take (m : Mode) (h : UInt8) (body : Buf) (hb : body.length < 2 ^ 28) (k : Nat)
    (hk : k < (frame h body.length body).length) :
    check m ((frame h body.length body).take k) = .err .incomplete := by
  rw [frame, Nat.mod_eq_of_lt (by omega)] at hk ⊢
  match k with
  | 0 => simp [check]
  | 1 => simp [check]
  | j + 2 =>
    rw [List.take_succ_cons]
    by_cases hj : j + 1 < (encodeVbi body.length).length
    · unfold check
      rw [List.take_append_of_le_length (by omega), if_neg (by simp; omega)]
      simp only [List.drop_succ_cons, List.drop_zero, encodeVbi_take_short m hb hj]
    · rw [List.take_append, List.take_of_length_le (by omega), check_of_vbi m h _ hb, if_neg]
      simp only [List.length_cons, List.length_append] at hk
      rw [List.length_take]; omega

theorem check_unfinished (m : Mode) {t : Buf} (h : Unfinished t) : check m t = .err .incomplete := by
  obtain ⟨p, bytes, k, he, hf, hk, rfl⟩ := h
  obtain ⟨body, hb⟩ := p.encode_frame he
  subst hb
  exact check_frame_take m _ body (frame_inj_body rfl hf) k hk

theorem parsePacket_unfinished (m : Mode) {t : Buf} (h : Unfinished t) :
    parsePacket m t = .needMore := by
  simp only [parsePacket, check_unfinished m h]

theorem parsePacket_encode (m : Mode) {p : Packet} (hs : p.Survives) {bytes rest : Buf}
    (he : p.encode = .ok bytes) (hf : FitsMqtt bytes) (hr : (bytes ++ rest).length < 2 ^ 32) :
    parsePacket m (bytes ++ rest) = .packet p.received rest := by
  have hv : p.ReadAs .v5 := by cases p <;> trivial
  obtain ⟨body, hb⟩ := p.encode_frame he
  have hc : check m (bytes ++ rest) = .ok () := by
    subst hb
    exact check_frame m _ body rest (frame_inj_body rfl hf)
  simp only [parsePacket, hc, parse, parse_encode m .v5 p hs hv bytes rest he hf hr]

/-- Either the buffer holds the whole first packet or it is an unfinished piece of it. -/
theorem split_cases {bytes buf more : Buf} {x : Buf} (h : buf ++ x = bytes ++ more) :
    (∃ rest, buf = bytes ++ rest ∧ rest ++ x = more) ∨
      (buf.length < bytes.length ∧ buf = bytes.take buf.length) := by
  rcases Nat.lt_or_ge buf.length bytes.length with hl | hl
  · right
    refine ⟨hl, ?_⟩
    have : (buf ++ x).take buf.length = (bytes ++ more).take buf.length := by rw [h]
    rwa [List.take_left, List.take_append_of_le_length (by omega)] at this
  · left
    refine ⟨buf.drop bytes.length, ?_, ?_⟩
    · have : (buf ++ x).take bytes.length = (bytes ++ more).take bytes.length := by rw [h]
      rw [List.take_left, List.take_append_of_le_length hl] at this
      calc buf = buf.take bytes.length ++ buf.drop bytes.length := (List.take_append_drop _ _).symm
        _ = _ := by rw [this]
    · have : (buf ++ x).drop bytes.length = (bytes ++ more).drop bytes.length := by rw [h]
      rwa [List.drop_left, List.drop_append_of_le_length hl] at this

theorem readPacket_first (m : Mode) {p : Packet} (hs : p.Survives) {bytes : Buf}
    (he : p.encode = .ok bytes) (hf : FitsMqtt bytes) (more : Buf) :
    ∀ (cs : List Buf) (buf : Buf), Chunks cs → buf.length < 2 ^ 32 →
      buf ++ cs.flatten = bytes ++ more →
      ∃ buf' cs', readPacket m buf cs = (.packet p.received, buf', cs') ∧ Chunks cs'
        ∧ buf'.length < 2 ^ 32 ∧ buf' ++ cs'.flatten = more := by
  intro cs
  induction cs with
  | nil =>
    intro buf hcs hl h
    rcases split_cases h with ⟨rest, rfl, h2⟩ | ⟨h1, h2⟩
    · refine ⟨rest, [], ?_, hcs, by rw [List.length_append] at hl; omega, h2⟩
      unfold readPacket
      simp only [parsePacket_encode m hs he hf hl]
    · exfalso
      have := congrArg List.length h
      simp at this
      omega
  | cons c cs ih =>
    intro buf hcs hl h
    rcases split_cases h with ⟨rest, rfl, h2⟩ | ⟨h1, h2⟩
    · refine ⟨rest, c :: cs, ?_, hcs, by rw [List.length_append] at hl; omega, h2⟩
      unfold readPacket
      simp only [parsePacket_encode m hs he hf hl]
    · have hc := hcs c (by simp)
      have hu : Unfinished buf := ⟨p, bytes, buf.length, he, hf, h1, h2⟩
      obtain ⟨buf', cs', h3, h4⟩ := ih (buf ++ c) (fun d hd => hcs d (by simp [hd]))
        (by unfold FitsMqtt at hf; have := hc.2; rw [List.length_append]; omega)
        (by rw [List.append_assoc]; exact h)
      refine ⟨buf', cs', ?_, h4⟩
      rw [← h3]
      conv => lhs; unfold readPacket
      simp only [parsePacket_unfinished m hu, hc.1, if_false]

theorem readPacket_end (m : Mode) : ∀ (cs : List Buf) (buf : Buf), Chunks cs →
    (∀ k, k ≤ (buf ++ cs.flatten).length → Unfinished ((buf ++ cs.flatten).take k)) →
    (readPacket m buf cs).1 =
      if buf ++ cs.flatten = [] then .closed else .error (.mqtt .normalDisconnection) := by
  intro cs
  induction cs with
  | nil =>
    intro buf _ h
    have hu : Unfinished buf := by
      have := h buf.length (by simp)
      simpa using this
    unfold readPacket
    simp only [parsePacket_unfinished m hu]
    simp
  | cons c cs ih =>
    intro buf hcs h
    have hc := hcs c (by simp)
    have hu : Unfinished buf := by
      have := h buf.length (by simp)
      simpa using this
    unfold readPacket
    simp only [parsePacket_unfinished m hu, hc.1, if_false]
    rw [ih (buf ++ c) (fun d hd => hcs d (by simp [hd])) (by
      simp only [List.flatten_cons, List.append_assoc] at h ⊢; exact h)]
    simp [List.append_assoc]

theorem Unfinished.take {t : Buf} (h : Unfinished t) (k : Nat) : Unfinished (t.take k) := by
  obtain ⟨p, bytes, j, he, hf, hj, rfl⟩ := h
  refine ⟨p, bytes, min k j, he, hf, by omega, ?_⟩
  rw [List.take_take]

theorem readStream_sent (m : Mode) {ps : List Packet} {bs : Buf} (h : Sent ps bs) :
    ∀ (tail buf : Buf) (cs : List Buf), Unfinished tail → Chunks cs → buf.length < 2 ^ 32 →
      buf ++ cs.flatten = bs ++ tail → ∀ n, ps.length < n →
      readStream m n buf cs =
        (ps.map Packet.received,
          some (if tail = [] then .closed else .error (.mqtt .normalDisconnection))) := by
  induction h with
  | nil =>
    intro tail buf cs ht hcs hl h n hn
    obtain ⟨n, rfl⟩ : ∃ k, n = k + 1 := ⟨n - 1, by simp at hn; omega⟩
    rw [List.nil_append] at h
    have h1 := readPacket_end m cs buf hcs (by rw [h]; intro k _; exact ht.take k)
    rw [h] at h1
    unfold readStream
    rcases hR : readPacket m buf cs with ⟨o, b', c'⟩
    rw [hR] at h1
    simp only at h1
    subst h1
    by_cases h0 : tail = []
    · simp [h0]
    · simp [h0]
  | cons hs he hf _ ih =>
    intro tail buf cs ht hcs hl h n hn
    obtain ⟨n, rfl⟩ : ∃ k, n = k + 1 := ⟨n - 1, by simp at hn; omega⟩
    rw [List.append_assoc] at h
    obtain ⟨buf', cs', h1, h2, h3, h4⟩ := readPacket_first m hs he hf _ cs buf hcs hl h
    unfold readStream
    rw [h1]
    simp only
    rw [ih tail buf' cs' ht h2 h3 h4 n (by simp at hn; omega)]
    simp

theorem parsePacket_zero (m : Mode) (b : Buf) (p : Packet) (r : Buf) :
    parsePacket m (0 :: b) ≠ .packet p r := by
  intro h
  have hp : parse m (0 :: b) = .err (.mqtt .malformedPacket) := rfl
  simp only [parsePacket, hp] at h
  split at h <;> cases h

theorem parsePacket_ping (m : Mode) (rest : Buf) :
    parsePacket m (0xc0 :: 0 :: rest) = .packet .pingReq (0 :: rest) := by
  have hc := check_of_vbi m 0xc0 0 (by decide) rest
  rw [show encodeVbi 0 = [0] from by decide] at hc
  simp only [List.cons_append, List.nil_append, Nat.zero_le, if_true] at hc
  have hp : parse m (0xc0 :: 0 :: rest) = .ok (.pingReq, 0 :: rest) := rfl
  simp only [parsePacket, hc, hp]

end Mercurio
