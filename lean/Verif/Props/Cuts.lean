import Verif.Lemmas.Flow
import Verif.Lemmas.ClientCuts
import Verif.Props.Client

/-! # C58: exactly where a read of the client may end -/

namespace Mercurio

open Spec

/-- After a read that ends at a safe place the client reads on. -/
theorem client_reads_on (m : Mode) (v : ProtocolVersion) (p : Packet) (hs : p.SurvivesTo v) {bytes : Buf}
    (he : p.encode = .ok bytes) (hf : FitsMqtt bytes) (k : Nat) (hk0 : 0 < k) (hk : k < bytes.length)
    (hsafe : p.SafeCut v bytes k) (c : Buf) (hc : c ≠ []) (cs : List Buf) :
    clientReadPacket m v (bytes.take k) (c :: cs) = clientReadPacket m v (bytes.take k ++ c) cs := by
  have hping : p ≠ .pingResp := by rintro rfl; exact hsafe
  have h := (client_cut m v p hs he hf hping k hk0 hk).1 hsafe
  obtain ⟨x, xs, hx⟩ := take_ne_nil hk0 hk
  rw [hx] at h ⊢
  conv => lhs; rw [clientReadPacket]
  simp only [h, if_neg hc]

/-- After a read that ends elsewhere it does not get the packet. -/
theorem client_loses (m : Mode) (v : ProtocolVersion) (p : Packet) (hs : p.SurvivesTo v) {bytes : Buf}
    (he : p.encode = .ok bytes) (hf : FitsMqtt bytes) (k : Nat) (hk0 : 0 < k) (hk : k < bytes.length)
    (hsafe : ¬ p.SafeCut v bytes k) (cs : List Buf) :
    (clientReadPacket m v (bytes.take k) cs).1 ≠ .packet (p.receivedBy v) := by
  by_cases hping : p = .pingResp
  · subst hping
    have : bytes = [0xd0, 0] := by
      have h : Packet.pingResp.encode = .ok [0xd0, 0] := by decide
      rw [h] at he; injection he with he; exact he.symm
    subst this
    have hk1 : k = 1 := by simp at hk; omega
    subst hk1
    have h : clientReadPacket m v [0xd0] cs = (.panicked, [0xd0], cs) := by
      cases cs <;> cases v <;> rfl
    show (clientReadPacket m v [0xd0] cs).1 ≠ _
    rw [h]
    simp
  · obtain ⟨h1, h2⟩ := (client_cut m v p hs he hf hping k hk0 hk).2 hsafe
    obtain ⟨x, xs, hx⟩ := take_ne_nil hk0 hk
    rw [hx] at h1 h2 ⊢
    intro h
    cases hp : parseWithVersion m v (x :: xs) with
    | err e =>
      cases cs with
      | nil => rw [clientReadPacket] at h; rw [hp] at h1; cases e <;> simp only [hp] at h <;> simp at h h1
      | cons c cs => rw [clientReadPacket] at h; rw [hp] at h1; cases e <;> simp only [hp] at h <;> simp at h h1
    | panic => cases cs <;> rw [clientReadPacket] at h <;> simp only [hp] at h <;> simp at h
    | ok y =>
      obtain ⟨q, r⟩ := y
      have hq : q ≠ p.receivedBy v := fun e => h2 r (by rw [hp, e])
      cases cs <;> rw [clientReadPacket] at h <;> simp only [hp] at h <;> split at h <;> (try split at h) <;>
        simp at h <;> exact hq h

/-- Whole packets in front are read off. -/
theorem clientReadStream_front (m : Mode) (v : ProtocolVersion) {ps : List Packet} {b : Buf} (h : SentTo v ps b) :
    ∀ (tail : Buf) (_ : (b ++ tail).length < 2 ^ 32) (cs : List Buf) (n : Nat),
    clientReadStream m v (ps.length + n) (b ++ tail) cs =
      (ps.map (Packet.receivedBy v) ++ (clientReadStream m v n tail cs).1, (clientReadStream m v n tail cs).2) := by
  induction h with
  | nil => intro tail _ cs n; simp
  | @cons p bytes ps bs hs he hf hrest ih =>
    intro tail hb cs n
    rw [List.append_assoc] at hb ⊢
    have hb' : (bs ++ tail).length < 2 ^ 32 := by rw [List.length_append] at hb; omega
    have e : (p :: ps).length + n = (ps.length + n) + 1 := by simp; omega
    rw [e, clientReadStream, clientReadPacket_whole m v p hs he hf _ hb cs]
    simp only [ih tail hb' cs n, List.map_cons, List.cons_append]

/-- Reading with the beginning of a packet in the buffer. -/
theorem clientReadStream_cuts (m : Mode) (v : ProtocolVersion) : ∀ (cs : List Buf) (ps : List Packet) (b : Buf)
    (_ : SentTo v ps (b ++ cs.flatten)) (_ : b = [] ∨ ∃ p rs' bytes k, ps = p :: rs' ∧ p.SurvivesTo v ∧
        p.encode = .ok bytes ∧ FitsMqtt bytes ∧ 0 < k ∧ k < bytes.length ∧ b = bytes.take k ∧ p.SafeCut v bytes k)
    (_ : ∀ c ∈ cs, c ≠ [] ∧ c.length < 2 ^ 31) (n : Nat) (_ : ps.length < n),
    clientReadStream m v n b cs = (ps.map (Packet.receivedBy v), some .closed) ↔
      ∀ i, EndsWell v ps (b.length + (cs.take i).flatten.length) := by
  intro cs
  induction cs with
  | nil =>
    intro ps b hsent hb _ n hn
    rw [List.flatten_nil, List.append_nil] at hsent
    rcases hb with rfl | ⟨p, rs', bytes, k, rfl, hs, he, hf, hk0, hk, rfl, _⟩
    · have hps : ps = [] := Classical.byContradiction fun h => hsent.ne_nil h rfl
      subst hps
      obtain ⟨n, rfl⟩ : ∃ j, n = j + 1 := ⟨n - 1, by simp at hn; omega⟩
      exact iff_of_true rfl fun i => trivial
    · exfalso
      generalize hx : bytes.take k = x at hsent
      cases hsent with
      | cons hs' he' hf' hr =>
        rw [he] at he'; cases he'
        have := congrArg List.length hx
        rw [List.length_take, List.length_append] at this
        omega
  | cons c cs ih =>
    intro ps b hsent hb hcs n hn
    obtain ⟨hc, hcl⟩ := hcs c (by simp)
    have hlb : b.length < 2 ^ 31 := by
      rcases hb with rfl | ⟨p, rs', bytes, k, rfl, hs, he, hf, hk0, hk, rfl, _⟩
      · simp
      · rw [List.length_take]; unfold FitsMqtt at hf; omega
    obtain ⟨n, rfl⟩ : ∃ j, n = j + 1 := ⟨n - 1, by omega⟩
    have hread : clientReadStream m v (n + 1) b (c :: cs) = clientReadStream m v (n + 1) (b ++ c) cs := by
      rcases hb with rfl | ⟨p, rs', bytes, k, rfl, hs, he, hf, hk0, hk, rfl, hsafe⟩
      · exact clientReadStream_nil_cons m v _ c cs hc
      · rw [clientReadStream, clientReadStream, client_reads_on m v p hs he hf k hk0 hk hsafe c hc cs]
    rw [hread]
    rw [List.flatten_cons, ← List.append_assoc] at hsent
    obtain ⟨qs, rs, whole, tail, rfl, h1, hxe, h2, h3⟩ := hsent.cutAt (b ++ c) _ rfl
    have hlen : (whole ++ tail).length < 2 ^ 32 := by rw [← hxe, List.length_append]; omega
    have hlen' : b.length + c.length = whole.length + tail.length := by
      have := congrArg List.length hxe
      simpa only [List.length_append] using this
    obtain ⟨j, hj⟩ : ∃ j, n + 1 = qs.length + j := ⟨n + 1 - qs.length, by rw [List.length_append] at hn; omega⟩
    rw [hxe, hj, clientReadStream_front m v h1 tail hlen cs j]
    have hrsj : rs.length < j := by rw [List.length_append] at hn; omega
    have hpos : ∀ i, EndsWell v (qs ++ rs) (b.length + ((c :: cs).take (i + 1)).flatten.length) ↔
        EndsWell v rs (tail.length + (cs.take i).flatten.length) := by
      intro i
      rw [List.take_succ_cons, List.flatten_cons, List.length_append,
        show b.length + (c.length + (cs.take i).flatten.length) =
          whole.length + (tail.length + (cs.take i).flatten.length) by omega]
      exact endsWell_append h1 rs _
    have hzero : EndsWell v (qs ++ rs) (b.length + ((c :: cs).take 0).flatten.length) := by
      rw [List.take_zero, List.flatten_nil, List.length_nil, Nat.add_zero]
      rcases hb with rfl | ⟨p, rs', bytes, k, hp, hs, he, hf, hk0, hk, rfl, hsafe⟩
      · cases qs ++ rs with
        | nil => trivial
        | cons p ps => exact .inl rfl
      · rw [hp]
        refine .inr ⟨bytes, he, ?_⟩
        rw [List.length_take, Nat.min_eq_left (by omega), if_pos hk]
        exact hsafe
    have hall : (∀ i, EndsWell v (qs ++ rs) (b.length + ((c :: cs).take i).flatten.length)) ↔
        ∀ i, EndsWell v rs (tail.length + (cs.take i).flatten.length) := by
      constructor
      · intro h i; exact (hpos i).mp (h (i + 1))
      · intro h i
        cases i with
        | zero => exact hzero
        | succ i => exact (hpos i).mpr (h i)
    rw [hall]
    have hcancel : ((qs.map (Packet.receivedBy v) ++ (clientReadStream m v j tail cs).1,
          (clientReadStream m v j tail cs).2) = ((qs ++ rs).map (Packet.receivedBy v), some .closed)) ↔
        clientReadStream m v j tail cs = (rs.map (Packet.receivedBy v), some .closed) := by
      rw [List.map_append]
      constructor
      · intro h
        injection h with e1 e2
        exact Prod.ext (List.append_cancel_left e1) e2
      · intro h; rw [h]
    rw [hcancel]
    have hcs' : ∀ c ∈ cs, c ≠ [] ∧ c.length < 2 ^ 31 := fun x hx => hcs x (by simp [hx])
    rcases h3 with rfl | ⟨p, rs', bytes, k, rfl, hs, he, hf, hk0, hk, rfl⟩
    · exact ih rs [] h2 (.inl rfl) hcs' j hrsj
    · by_cases hsafe : p.SafeCut v bytes k
      · exact ih _ _ h2 (.inr ⟨p, rs', bytes, k, rfl, hs, he, hf, hk0, hk, rfl, hsafe⟩) hcs' j hrsj
      · refine iff_of_false (fun h => ?_) (fun h => ?_)
        · obtain ⟨j, rfl⟩ : ∃ i, j = i + 1 := ⟨j - 1, by omega⟩
          have hl := client_loses m v p hs he hf k hk0 hk hsafe cs
          rw [clientReadStream] at h
          revert h hl
          generalize clientReadPacket m v (bytes.take k) cs = out
          obtain ⟨o, b', cs'⟩ := out
          intro h hl
          cases o with
          | packet q =>
            have h := congrArg Prod.fst h
            simp only [List.map_cons] at h
            exact hl (by rw [(List.cons.inj h).1])
          | _ => have h := congrArg Prod.fst h; simp at h
        · have h := h 0
          rw [List.take_zero, List.flatten_nil, List.length_nil, Nat.add_zero, List.length_take,
            Nat.min_eq_left (by omega)] at h
          rcases h with h | ⟨b', hb', h⟩
          · omega
          · rw [he] at hb'; cases hb'
            rw [if_pos hk] at h
            exact hsafe h

/-- C58, exactly: packets that survive the wire are sent one after the other, and the client gets their bytes in
reads of any (positive) size.  It reads exactly those packets, and then sees the end of the stream, if and only
if every read ends between two packets or at a place where that packet may be cut (`Packet.SafeCut`). -/
theorem C58_reads_all_iff (m : Mode) (v : ProtocolVersion) (ps : List Packet) (cs : List Buf)
    (h : SentTo v ps cs.flatten) (hcs : ∀ c ∈ cs, c ≠ [] ∧ c.length < 2 ^ 31) (n : Nat) (hn : ps.length < n) :
    clientReadStream m v n [] cs = (ps.map (Packet.receivedBy v), some .closed) ↔
      ∀ i, EndsWell v ps (cs.take i).flatten.length := by
  have := clientReadStream_cuts m v cs ps [] h (.inl rfl) hcs n hn
  simpa using this

/-- C58: a read that ends elsewhere in a packet loses the packet, whatever arrives later. -/
theorem C58_bad_cut_loses (m : Mode) (v : ProtocolVersion) (p : Packet) (hs : p.SurvivesTo v) (bytes : Buf)
    (he : p.encode = .ok bytes) (hf : FitsMqtt bytes) (k : Nat) (hk0 : 0 < k) (hk : k < bytes.length)
    (hsafe : ¬ p.SafeCut v bytes k) (cs : List Buf) (n : Nat) :
    (clientReadStream m v n [] (bytes.take k :: cs)).1.head? ≠ some (p.receivedBy v) := by
  obtain ⟨x, xs, hx⟩ := take_ne_nil hk0 hk
  rw [clientReadStream_nil_cons m v n _ cs (by rw [hx]; simp)]
  cases n with
  | zero => simp [clientReadStream]
  | succ n =>
    have hl := client_loses m v p hs he hf k hk0 hk hsafe cs
    rw [clientReadStream]
    revert hl
    generalize clientReadPacket m v (bytes.take k) cs = out
    obtain ⟨o, b', cs'⟩ := out
    intro hl h
    cases o with
    | packet q => simp only [List.head?_cons] at h; injection h with h; exact hl (by rw [h])
    | _ => simp at h

/-- C58 is false: a SUBACK of which all but the last reason code has arrived is taken (in a release build) for one
without any reason code, and the last one for the beginning of another packet. -/
theorem C58_suback_cut_false :
    (Packet.subAck { packetId := 1, payload := [.grantedQoS1, .grantedQoS2] }).encode =
      .ok [0x90, 5, 0, 1, 0, 1, 2] ∧
    clientReadStream .release .v5 3 [] [[0x90, 5, 0, 1, 0, 1], [2]] =
      ([.subAck { packetId := 1, properties := some {}, payload := [] }],
        some (.error (.mqtt .malformedPacket))) := by
  refine ⟨by decide +kernel, by decide +kernel⟩

/-- C58 is false: a CONNACK of which the first two or three bytes have arrived stops the client. -/
theorem C58_connack_cut_false :
    (Packet.connAck {}).encode = .ok [0x20, 3, 0, 0, 0] ∧
    clientReadStream .release .v5 3 [] [[0x20, 3], [0, 0, 0]] = ([], some .panicked) ∧
    clientReadStream .release .v5 3 [] [[0x20, 3, 0], [0, 0]] = ([], some .panicked) := by
  refine ⟨by decide +kernel, by decide +kernel, by decide +kernel⟩

theorem WholePackets.sent {v : ProtocolVersion} {ps : List Packet} {cs : List Buf} (h : WholePackets v ps cs) :
    SentTo v ps cs.flatten := by
  induction h with
  | nil => exact .nil
  | cons h1 _ _ _ ih => exact h1.append ih

/-- Three packets in four reads, three of which end inside a packet. -/
example : SentTo .v5 exArrived
    [[0x32, 7, 0, 1, 97], [0, 3], [0, 7, 0xd0, 0, 0x90, 4], ([0, 1, 0, 1] : Buf)].flatten ∧
    ∀ i, EndsWell .v5 exArrived
      ([[0x32, 7, 0, 1, 97], [0, 3], [0, 7, 0xd0, 0, 0x90, 4], ([0, 1, 0, 1] : Buf)].take i).flatten.length := by
  have h : SentTo .v5 exArrived
      [[0x32, 7, 0, 1, 97], [0, 3], [0, 7, 0xd0, 0, 0x90, 4], ([0, 1, 0, 1] : Buf)].flatten :=
    exArrived_whole.sent
  exact ⟨h, (C58_reads_all_iff .debug .v5 _ _ h (by decide) 4 (by decide)).mp (by decide +kernel)⟩

/-- The same packets, the first of which is cut in its topic or in its payload. -/
example : ¬ EndsWell .v5 exArrived 4 ∧ ¬ EndsWell .v5 exArrived 8 ∧ EndsWell .v5 exArrived 5 := by
  have e : (Packet.publish { topicName := str "a", qos := .atLeastOnce, packetId := some 3, payload := some [7] }
    ).encode = .ok [0x32, 7, 0, 1, 97, 0, 3, 0, 7] := by decide +kernel
  have h : ∀ k, k < 9 → k ≠ 0 → (EndsWell .v5 exArrived k ↔ (1 < 9 - k ∧ (k < 4 ∨ 5 ≤ k))) := by
    intro k hk h0
    constructor
    · rintro (h | ⟨b, hb, h⟩)
      · exact absurd h h0
      · rw [e] at hb; cases hb
        rw [if_pos (show k < [0x32, 7, 0, 1, 97, 0, 3, 0, (7 : UInt8)].length from hk)] at h
        exact h
    · intro h
      refine .inr ⟨_, e, ?_⟩
      rw [if_pos (show k < [0x32, 7, 0, 1, 97, 0, 3, 0, (7 : UInt8)].length from hk)]
      exact h
  refine ⟨?_, ?_, ?_⟩ <;> rw [h _ (by decide) (by decide)] <;> decide

end Mercurio
