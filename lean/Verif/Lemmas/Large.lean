import Verif.Lemmas.ClientCuts
import Verif.Lemmas.Flow

/-!
# A message that one read of the client does not take in
-/

namespace Mercurio

open Spec Server

/-- The beginning of a PUBLISH is never taken for a packet. -/
theorem publish_prefix (m : Mode) (c : UInt8) {t : Buf} {p : PublishPacket} (k : Nat)
    (h : decodePublish m (c :: t) = .ok (p, [])) (hl : t.length < 2 ^ 32) (hk : k < t.length) :
    ∃ e, decodePublish m ((c :: t).take (k + 1)) = .err e ∧
      (e = .incomplete → (p.payload.getD []).length < t.length - k) := by
  rw [decodePublish, getU8_bind] at h
  obtain ⟨n, r1, h1, ha⟩ := Dec.bind_inv h
  clear h
  obtain ⟨topic, r2, h2, hb⟩ := Dec.bind_inv ha
  clear ha
  obtain ⟨i, r3, h3, hc⟩ := Dec.bind_inv hb
  clear hb
  obtain ⟨q, r4, h4, hd⟩ := Dec.bind_inv hc
  clear hc
  obtain ⟨blk, r5, h5, he⟩ := Dec.bind_inv hd
  clear hd
  obtain ⟨len, r6, h6, hf⟩ := Dec.bind_inv he
  clear he
  obtain ⟨l, rfl, w1⟩ := (decodeVbi_exact m).sound _ _ _ h1
  obtain ⟨u, rfl, w2⟩ := decodeStr_exact.sound _ _ _ h2
  obtain ⟨iw, rfl, w3⟩ := (decodePublishId_exact _).sound _ _ _ h3
  obtain ⟨x, rfl, w4⟩ := (decodePublishProperties_exact m).sound _ _ _ h4
  obtain ⟨g5, rfl⟩ := liftRes_inv h5
  obtain ⟨g6, rfl⟩ := liftRes_inv h6
  simp only [Dec.of] at hf
  split at hf
  · cases hf
  rename_i hle
  injection hf with hf
  injection hf with hp hd
  have hdl := congrArg List.length hd
  rw [List.length_drop, List.length_nil] at hdl
  have hpl : (p.payload.getD []).length = r6.length := by
    rw [← hp, Option.getD_some, List.length_take]; omega
  have hu : u.length = topic.length + 2 := by rw [w2.2]; simp [field]
  have e1 : (l ++ (u ++ (iw ++ (x ++ r6)))).length = l.length + (u.length + (iw.length + (x.length + r6.length))) := by
    simp only [List.length_append]
  rw [e1] at hl hk ⊢
  rw [hpl]
  rw [List.take_succ_cons, decodePublish, getU8_bind, (decodeVbi_starves m).step k w1 (by rw [e1]; omega)]
  split
  · exact ⟨_, rfl, fun _ => by omega⟩
  rename_i k1
  rw [text_step _ w2 (by simp only [List.length_append]; omega)]
  split
  · exact ⟨_, rfl, fun _ => by omega⟩
  rename_i k2
  split
  · exact ⟨_, rfl, fun h => by cases h⟩
  rename_i k3
  rw [(decodePublishId_starves _).step _ w3 (by simp only [List.length_append]; omega)]
  split
  · exact ⟨_, rfl, fun _ => by omega⟩
  rename_i k4
  rw [(decodePublishProperties_starves m).step _ w4 (by simp only [List.length_append]; omega)]
  split
  · exact ⟨_, rfl, fun _ => by omega⟩
  rename_i k5
  rw [g5, Dec.bind_ok (show liftRes (.ok blk) _ = .ok (blk, _) from rfl), g6,
    Dec.bind_ok (show liftRes (.ok len) _ = .ok (len, _) from rfl)]
  simp only [Dec.of]
  rw [if_pos (by rw [List.length_take]; omega)]
  exact ⟨_, rfl, fun h => by cases h⟩

/-- The client's parser on a part of a PUBLISH. -/
theorem clientParse_part (m : Mode) (v : ProtocolVersion) (p : PublishPacket) (ha : p.Admissible) {bytes : Buf}
    (he : (Packet.publish p).encode = .ok bytes) (hf : FitsMqtt bytes) (x y : Buf) (hx : bytes = x ++ y)
    (hy : y ≠ []) :
    (∀ q r, clientParse m v x ≠ .packet q r) ∧
      (x ≠ [] → clientParse m v x = .needMore → (p.payload.getD []).length < y.length) := by
  cases x with
  | nil => exact ⟨fun q r h => by simp [clientParse] at h, fun h => absurd rfl h⟩
  | cons c xs =>
  have hparse := (parse_for_client_exact m v (.publish p) ha he hf [] (by unfold FitsMqtt at hf; simp; omega))
  obtain ⟨rest, hr, hparse⟩ := hparse
  have hr := hr (by simp)
  subst hr
  rw [List.append_nil, hx] at hparse
  have hlen := congrArg List.length hx
  simp only [List.length_append, List.length_cons] at hlen
  have hyl := List.length_pos_iff.mpr hy
  have hx' : (c :: (xs ++ y)).take (xs.length + 1) = c :: xs := by simp
  have hpq : ∃ p', decodePublish m (c :: (xs ++ y)) = .ok (p', []) ∧ p'.payload.getD [] = p.payload.getD [] ∧
      parseWithVersion m v (c :: xs) = (decodePublish m >>= fun a => pure (Packet.publish a)) (c :: xs) := by
    have hparse : parseWithVersion m v (c :: (xs ++ y)) = _ := hparse
    simp only [parseWithVersion] at hparse ⊢
    generalize (c >>> 4).toNat = n at hparse ⊢
    have go : ∀ {α : Type} {d : Dec α} {C : α → Packet},
        (d >>= fun a => pure (C a)) (c :: (xs ++ y)) = .ok ((Packet.publish p).receivedBy v, []) →
        ∃ a, d (c :: (xs ++ y)) = .ok (a, []) ∧ (Packet.publish p).receivedBy v = C a := by
      intro α d C h
      obtain ⟨a, r, h1, h2⟩ := Dec.bind_inv h
      have h2 : (.ok (C a, r) : Res (Packet × Buf)) = .ok ((Packet.publish p).receivedBy v, []) := h2
      injection h2 with h2
      injection h2 with h2 h3
      exact ⟨a, by rw [h1, h3], h2.symm⟩
    match n, hparse with
    | 0, h => cases h
    | 1, h => obtain ⟨a, h1, e⟩ := go h; cases e
    | 2, h =>
      by_cases hv : v = .v5
      · subst hv; obtain ⟨a, h1, e⟩ := go h; cases e
      · rw [not_supports hv] at h; obtain ⟨a, h1, e⟩ := go h; cases e
    | 3, h =>
      obtain ⟨a, h1, e⟩ := go h
      injection e with e
      exact ⟨a, h1, by rw [← e]; simp [PublishPacket.received], rfl⟩
    | 4, h => obtain ⟨a, h1, e⟩ := go h; cases e
    | 5, h => obtain ⟨a, h1, e⟩ := go h; cases e
    | 6, h => obtain ⟨a, h1, e⟩ := go h; cases e
    | 7, h => obtain ⟨a, h1, e⟩ := go h; cases e
    | 8, h => obtain ⟨a, h1, e⟩ := go h; cases e
    | 9, h =>
      by_cases hv : v = .v5
      · subst hv; obtain ⟨a, h1, e⟩ := go h; cases e
      · rw [not_supports hv] at h; obtain ⟨a, h1, e⟩ := go h; cases e
    | 10, h => obtain ⟨a, h1, e⟩ := go h; cases e
    | 11, h =>
      by_cases hv : v = .v5
      · subst hv; obtain ⟨a, h1, e⟩ := go h; cases e
      · rw [not_supports hv] at h; obtain ⟨a, h1, e⟩ := go h; cases e
    | 12, h => obtain ⟨a, h1, e⟩ := go h; cases e
    | 13, h => obtain ⟨a, h1, e⟩ := go h; cases e
    | 14, h => obtain ⟨a, h1, e⟩ := go h; cases e
    | 15, h => obtain ⟨a, h1, e⟩ := go h; cases e
    | n + 16, h => cases h
  obtain ⟨p', h1, h2, h3⟩ := hpq
  obtain ⟨e, h4, h5⟩ := publish_prefix m c xs.length h1 (by
    unfold FitsMqtt at hf; rw [List.length_append]; omega) (by rw [List.length_append]; omega)
  rw [hx'] at h4
  have h6 : parseWithVersion m v (c :: xs) = .err e := by rw [h3]; exact Dec.bind_err h4
  rw [h2, List.length_append] at h5
  have h7 : clientParse m v (c :: xs) = if e = .incomplete then .needMore else .error e := by
    simp only [clientParse, h6]
    cases e <;> rfl
  rw [h7]
  constructor
  · intro q r; split <;> simp
  · intro _ h
    split at h
    · rename_i he; have := h5 he; omega
    · cases h

/-- A read that gives no packet tells the application nothing about messages. -/
theorem heard_lost {p : Peer} {l : Client} {r : ReadOut} {ok : Bool} (hl : p.phase = .connected l)
    (hr : ∀ q, r ≠ .packet q) : (p.act l (.read r ok)).heard = p.heard := by
  have key : ∃ X, (l.step (.read r ok)).2.event.toList ++ (l.step (.read r ok)).1.pending = l.pending ++ X ∧
      X.filterMap eventHeard = [] := by
    unfold Client.step
    rw [if_neg (by simp)]
    split
    · exact ⟨[], by simp, rfl⟩
    · split
      · cases r with
        | packet q => exact absurd rfl (hr q)
        | closed => exact ⟨[.disconnected .serverInitiated], by simp [Client.turn, Client.stop, Client.emit], rfl⟩
        | error e => exact ⟨[.disconnected .connectionLost], by simp [Client.turn, Client.stop, Client.emit], rfl⟩
        | panicked => exact ⟨[], by simp [Client.turn, Client.crash], rfl⟩
      · exact ⟨[], by simp [Client.refuse], rfl⟩
  obtain ⟨X, h1, h2⟩ := key
  rw [heard_act p l _ hl X h1, h2, List.append_nil]

/-- A large message is next for client `c`, or a part of it was read. -/
def Stuck (c : Nat) (v : ProtocolVersion) (bytes : Buf) (n : Nat) (H : List Heard) (σ : System) : Prop :=
  ∃ p w l x y, σ.peers.get c = some p ∧ σ.net.wires.get c = some w ∧ p.phase = .connected l ∧
    p.opts.protocolVersion = v ∧ bytes <+: w.sent.drop n ∧ p.heard = H ∧ bytes = x ++ y ∧ y ≠ [] ∧
    p.got.length = n + x.length ∧ p.buf = x

theorem prefix_drop {a b : Buf} (h : a <+: b) (n : Nat) : a.drop n <+: b.drop n := by
  obtain ⟨t, rfl⟩ := h
  rw [List.drop_append]
  exact List.prefix_append _ _

theorem stuck_step {m : Mode} {cfg : AuthConfig} {c : Nat} {v : ProtocolVersion} {n : Nat} {H : List Heard}
    {q : PublishPacket} (ha : q.Admissible) {bytes : Buf} (he : (Packet.publish q).encode = .ok bytes)
    (hf : FitsMqtt bytes) (hlarge : 4096 ≤ (q.payload.getD []).length) (hlt : (q.payload.getD []).length < bytes.length)
    {σ : System} (h : Stuck c v bytes n H σ) (e : SysEvent) : Stuck c v bytes n H (σ.step m cfg e) := by
  have h0 := h
  obtain ⟨p, w, l, x, y, hp, hw, hl, hv, hs, hh, hxy, hy, hg, hb⟩ := h
  have net : ∀ (ne : NetEvent) (P : Map Nat Peer), P.get c = some p → Stuck c v bytes n H ⟨σ.net.step m cfg ne, P⟩ := by
    intro ne P hP
    rcases wire_step m cfg σ.net ne c with ⟨a, _⟩ | ⟨w1, w2, a, b, hst⟩
    · rw [hw] at a; cases a
    · rw [hw] at a; cases a
      exact ⟨p, w2, l, x, y, hP, b, hl, hv, hs.trans (prefix_drop hst.sent n), hh, hxy, hy, hg, hb⟩
  have hm := moves m cfg σ e
  generalize σ.step m cfg e = σ' at hm
  have hpart := clientParse_part m v q ha he hf x y hxy hy
  cases hm with
  | idle => exact h0
  | net => exact net _ _ hp
  | @connect d o b hd _ =>
    have hdc : d ≠ c := by rintro rfl; rw [hp] at hd; cases hd
    exact net _ _ (by rw [Map.get_insert, if_neg hdc]; exact hp)
  | @peer _ d p0 p2 hd hm =>
    by_cases hdc : d = c
    case neg =>
      refine ⟨p, w, l, x, y, ?_, hw, hl, hv, hs, hh, hxy, hy, hg, hb⟩
      show (σ.peers.insert d p2).get c = _
      rw [Map.get_insert, if_neg hdc]; exact hp
    subst hdc
    rw [hp] at hd; cases hd
    have hin : (σ.put d p2).peers.get d = some p2 := by
      show (σ.peers.insert d p2).get d = _
      rw [Map.get_insert, if_pos rfl]
    cases hm with
    | @read k b hr hne hb0 hb1 hdn =>
      rw [hv, hb] at hne
      simp only [System.downstream, hw, hg] at hdn
      have hsmall : b.length < y.length := by
        by_cases hx0 : x = []
        · subst hx0
          rw [List.nil_append] at hxy
          rw [← hxy]; omega
        · have := hpart.2 hx0 hne; omega
      have hdy : y <+: w.sent.drop (n + x.length) := by
        have := prefix_drop hs x.length
        rw [hxy, List.drop_left, List.drop_drop] at this
        exact this
      obtain ⟨y', hy'⟩ : b <+: y := List.prefix_of_prefix_length_le hdn hdy (by omega)
      refine ⟨_, w, l, x ++ b, y', hin, hw, hl, hv, hs, hh, by rw [hxy, ← hy', List.append_assoc], ?_, ?_, ?_⟩
      · rintro rfl; rw [← hy', List.append_nil] at hsmall; omega
      · show (p.got ++ b).length = _
        rw [List.length_append, List.length_append, hg]; omega
      · show p.buf ++ b = _
        rw [hb]
    | turn hr hpk => rw [hv, hb] at hpk; exact absurd hpk (hpart.1 _ _)
    | @lost _ r ok hr hq =>
      have e : p.receive r ok = p.act l (.read r ok) := by simp [Peer.receive, hl]
      rw [e] at hin ⊢
      exact ⟨_, w, _, x, y, hin, hw, rfl, hv, hs, by rw [heard_lost hl hq, hh], hxy, hy, hg, hb⟩
    | timeout hc => rw [hl] at hc; cases hc
    | @app i l' hl' hi =>
      rw [hl] at hl'; cases hl'
      exact ⟨_, w, _, x, y, hin, hw, rfl, hv, hs, by rw [heard_app hl hi, hh], hxy, hy, hg, hb⟩

theorem stuck_run {m : Mode} {cfg : AuthConfig} {c : Nat} {v : ProtocolVersion} {n : Nat} {H : List Heard}
    {q : PublishPacket} (ha : q.Admissible) {bytes : Buf} (he : (Packet.publish q).encode = .ok bytes)
    (hf : FitsMqtt bytes) (hlarge : 4096 ≤ (q.payload.getD []).length) (hlt : (q.payload.getD []).length < bytes.length)
    (evs : List SysEvent) : ∀ {σ : System}, Stuck c v bytes n H σ → Stuck c v bytes n H (σ.run m cfg evs) := by
  induction evs with
  | nil => intro σ h; exact h
  | cons e evs ih => intro σ h; exact ih (stuck_step ha he hf hlarge hlt h e)

end Mercurio
