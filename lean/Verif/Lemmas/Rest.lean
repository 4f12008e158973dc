import Verif.Lemmas.SettleAll
import Verif.Spec.Rest

/-!
# The whole system: left alone, it comes to rest
-/

namespace Mercurio

open Spec Server

/-! ## What remains to be done -/

/-- Whether a packet is an acknowledgement. -/
def Packet.isAck : Packet → Bool
  | .pubAck _ => true
  | _ => false

/-- The packets, other than acknowledgements, the server has not acted on yet. -/
def nonAcks (c : Nat) (σ : System) (es : List Event) : Nat :=
  match σ.peers.get c with
  | some p => ((p.outgoing.drop (packetsOf c es).length).filter fun q => !q.isAck).length
  | none => 0

/-- The messages waiting for all subscriptions. -/
def queued (srv : Server) (c : Nat) : Nat := ((filtersOf srv c).map (waiting c srv)).sum

theorem nonAcks_le {c : Nat} {σ σ' : System} {es ex : List Event} {p p' : Peer} (hp : σ.peers.get c = some p)
    (hp' : σ'.peers.get c = some p') (hle : (packetsOf c es).length ≤ p.outgoing.length) {N : List Packet}
    (ho : p'.outgoing = p.outgoing ++ N) (hN : ∀ q ∈ N, ∃ a, q = .pubAck a) :
    nonAcks c σ' (es ++ ex) ≤ nonAcks c σ es := by
  simp only [nonAcks, hp, hp', ho]
  rw [packetsOf_append, List.length_append, ← List.drop_drop, List.drop_append_of_le_length hle]
  have h1 : ((p.outgoing.drop (packetsOf c es).length ++ N).filter fun q => !q.isAck) =
      (p.outgoing.drop (packetsOf c es).length).filter fun q => !q.isAck := by
    rw [List.filter_append]
    have : (N.filter fun q => !q.isAck) = [] := by
      rw [List.filter_eq_nil_iff]
      intro q hq
      obtain ⟨a, rfl⟩ := hN q hq
      simp [Packet.isAck]
    rw [this, List.append_nil]
  rw [← h1]
  exact ((List.drop_sublist _ _).filter _).length_le

theorem sum_erase_le {V : Type} (g : Str → Nat) (mp : Map Str V) (f : Str) :
    ((Map.erase mp f).map (fun x => g x.1)).sum ≤ (mp.map (fun x => g x.1)).sum ∧
      (f ∈ mp.map (·.1) → g f + ((Map.erase mp f).map (fun x => g x.1)).sum ≤ (mp.map (fun x => g x.1)).sum) := by
  induction mp with
  | nil => simp [Map.erase]
  | cons x mp ih =>
    obtain ⟨h1, h2⟩ := ih
    have e : Map.erase (x :: mp) f = if x.1 = f then Map.erase mp f else x :: Map.erase mp f := by
      simp only [Map.erase, List.filter_cons]
      by_cases hx : x.1 = f <;> simp [hx]
    rw [e]
    by_cases hx : x.1 = f
    · rw [if_pos hx]
      simp only [List.map_cons, List.sum_cons]
      refine ⟨by omega, fun _ => by rw [← hx]; rw [← hx] at h1; omega⟩
    · rw [if_neg hx]
      simp only [List.map_cons, List.sum_cons]
      refine ⟨by omega, fun hf => ?_⟩
      rcases List.mem_cons.mp hf with hf | hf
      · exact absurd hf.symm hx
      · have := h2 hf; omega

/-! ## One step -/

/-- Nothing has changed, except that applications may have found that there is no event for them. -/
structure System.Same (σ σ' : System) : Prop where
  server : σ'.net.server = σ.net.server
  wires : ∀ d, σ'.net.wires.get d = σ.net.wires.get d
  peers : ∀ d, σ'.peers.get d = σ.peers.get d ∨ ∃ p h, σ.peers.get d = some p ∧
    σ'.peers.get d = some { p with history := h } ∧ h.filterMap (·.2.event) = p.history.filterMap (·.2.event)

theorem System.Same.refl (σ : System) : σ.Same σ := ⟨rfl, fun _ => rfl, fun _ => Or.inl rfl⟩

theorem System.Same.trans {σ σ' σ'' : System} (h : σ.Same σ') (h' : σ'.Same σ'') : σ.Same σ'' := by
  refine ⟨h'.server.trans h.server, fun d => (h'.wires d).trans (h.wires d), fun d => ?_⟩
  rcases h'.peers d with e | ⟨p, x, e1, e2, e3⟩
  · rw [e]; exact h.peers d
  · rcases h.peers d with e' | ⟨p', x', e1', e2', e3'⟩
    · right; exact ⟨p, x, by rw [← e', e1], e2, e3⟩
    · rw [e1, Option.some.injEq] at e2'
      subst e2'
      right; exact ⟨p', x, e1', e2, e3.trans e3'⟩

theorem System.Same.passed {σ σ' : System} (h : σ.Same σ') (c : Nat) : σ'.passed c = σ.passed c := by
  unfold System.passed
  rw [h.wires c]
  rcases h.peers c with e | ⟨p, x, e1, e2, e3⟩
  · rw [e]
  · rw [e1, e2]
    cases σ.net.wires.get c <;> simp [e3]

theorem System.Same.downLeft {σ σ' : System} (h : σ.Same σ') (c : Nat) : downLeft c σ' = downLeft c σ := by
  unfold Mercurio.downLeft
  rw [h.wires c]
  rcases h.peers c with e | ⟨p, x, e1, e2, e3⟩
  · rw [e]
  · rw [e1, e2]; cases σ.net.wires.get c <;> rfl

theorem System.Same.upLeft {σ σ' : System} (h : σ.Same σ') (c : Nat) : upLeft c σ' = upLeft c σ := by
  unfold Mercurio.upLeft
  rw [h.wires c]
  rcases h.peers c with e | ⟨p, x, e1, e2, e3⟩
  · rw [e]
  · rw [e1, e2]; cases σ.net.wires.get c <;> rfl

/-- How a step on connection `c` changes what remains to be done: nothing happens; or the server acts on a packet
that is not an acknowledgement; sends a message; the client does something; or the server reads or acts on
an acknowledgement. -/
inductive Settling (c : Nat) (σ σ' : System) (es es' : List Event) : Prop
  | idle : σ.Same σ' → nonAcks c σ' es' ≤ nonAcks c σ es → Settling c σ σ' es es'
  | acts : nonAcks c σ' es' < nonAcks c σ es → Settling c σ σ' es es'
  | sends : nonAcks c σ' es' ≤ nonAcks c σ es → Touched c σ.net.server σ'.net.server →
      queued σ'.net.server c < queued σ.net.server c → Settling c σ σ' es es'
  | client : nonAcks c σ' es' ≤ nonAcks c σ es → σ'.net.server = σ.net.server → downLeft c σ' < downLeft c σ →
      Settling c σ σ' es es'
  | server : nonAcks c σ' es' ≤ nonAcks c σ es →
      (σ'.net.server = σ.net.server ∨ Touched c σ.net.server σ'.net.server ∧
        queued σ'.net.server c = queued σ.net.server c) → downLeft c σ' = downLeft c σ → upLeft c σ' < upLeft c σ →
      Settling c σ σ' es es'

theorem Settling.same {c : Nat} {σ : System} {es ex : List Event} {p : Peer} (hp : σ.peers.get c = some p)
    (hle : (packetsOf c es).length ≤ p.outgoing.length) : Settling c σ σ es (es ++ ex) :=
  .idle (.refl σ) (nonAcks_le hp hp hle (N := []) (by simp) (by simp))

/-- How much of what it read the server has acted on. -/
theorem Live.position {cfg : AuthConfig} {c : Nat} {σ : System} {es : List Event} {p : Peer} {w : Wire}
    (h : Live cfg c σ es p w) :
    ∃ done, Sent (p.outgoing.take (packetsOf c es).length) done ∧ w.rcvd = done ++ w.buf := by
  obtain ⟨fut, hf⟩ := h.inv.up c p w h.up.peer h.up.wire
  obtain ⟨k, hk, hrest⟩ := h.inv.net.read c w h.up.wire _ _ fut (h.inv.peer c p h.up.peer).sent hf
  rcases hrest h.up.server with ⟨done, h1, h2, _⟩ | ⟨hx, _⟩
  · refine ⟨done, ?_, h2⟩
    have : p.outgoing.take (packetsOf c es).length = p.outgoing.take k := by
      rw [hk, List.length_map, List.length_take]
      rcases Nat.le_total k p.outgoing.length with hle | hle
      · rw [Nat.min_eq_left hle]
      · rw [Nat.min_eq_right hle, List.take_length, List.take_of_length_le hle]
    rw [this]; exact h1
  · exact absurd (List.mem_of_mem_take hx) h.pend.1

/-- The server has acted on more packets when less of what it read is left. -/
theorem Live.further {cfg : AuthConfig} {c : Nat} {σ σ' : System} {es es' : List Event} {p : Peer} {w w' : Wire}
    (h : Live cfg c σ es p w) (h' : Live cfg c σ' es' p w') (hr : w'.rcvd = w.rcvd) (hb : w'.buf.length < w.buf.length) :
    (packetsOf c es).length < (packetsOf c es').length := by
  obtain ⟨d, h1, h2⟩ := h.position
  obtain ⟨d', h1', h2'⟩ := h'.position
  refine Classical.byContradiction fun hx => ?_
  have hle : (packetsOf c es').length ≤ (packetsOf c es).length := by omega
  obtain ⟨a, r, s1, s2, s3⟩ := h1.split (packetsOf c es').length
  rw [List.take_take, Nat.min_eq_left hle] at s1
  have := s1.unique h1'
  subst this
  have e : w.rcvd.length = d.length + w.buf.length := by rw [h2, List.length_append]
  have e' : w'.rcvd.length = a.length + w'.buf.length := by rw [h2', List.length_append]
  rw [hr] at e'
  have e3 : d.length = a.length + r.length := by rw [s3, List.length_append]
  omega

theorem nonAcks_lt {c : Nat} {σ σ' : System} {es es' : List Event} {p : Peer} (hp : σ.peers.get c = some p)
    (hp' : σ'.peers.get c = some p) (hlt : (packetsOf c es).length < (packetsOf c es').length) {q : Packet}
    (hq : p.outgoing[(packetsOf c es).length]? = some q) (ha : q.isAck = false) :
    nonAcks c σ' es' < nonAcks c σ es := by
  simp only [nonAcks, hp, hp']
  obtain ⟨hl, e⟩ := List.getElem?_eq_some_iff.mp hq
  have h1 : p.outgoing.drop (packetsOf c es).length = q :: p.outgoing.drop ((packetsOf c es).length + 1) := by
    rw [List.drop_eq_getElem_cons hl, e]
  have h2 : p.outgoing.drop (packetsOf c es').length <:+ p.outgoing.drop ((packetsOf c es).length + 1) := by
    obtain ⟨j, hj⟩ : ∃ j, (packetsOf c es').length = (packetsOf c es).length + 1 + j := ⟨_, (Nat.add_sub_of_le hlt).symm⟩
    rw [hj, ← List.drop_drop]
    exact List.drop_suffix _ _
  have h3 := (h2.sublist.filter fun q => !q.isAck).length_le
  rw [h1, List.filter_cons, ha]
  simp only [Bool.not_false, if_true, List.length_cons]
  omega

theorem passed_eq {σ σ' : System} {c : Nat} {p p' : Peer} {w w' : Wire} (hp : σ.peers.get c = some p)
    (hw : σ.net.wires.get c = some w) (hp' : σ'.peers.get c = some p') (hw' : σ'.net.wires.get c = some w') :
    σ'.passed c = σ.passed c ↔ w'.rcvd = w.rcvd ∧ w'.buf = w.buf ∧ w'.sent = w.sent ∧ p'.got = p.got ∧ p'.buf = p.buf ∧
      p'.history.filterMap (·.2.event) = p.history.filterMap (·.2.event) := by
  simp only [System.passed, hp, hw, hp', hw', Option.some.injEq, Prod.mk.injEq]

theorem put_get (σ : System) (c : Nat) (p : Peer) : (σ.put c p).peers.get c = some p := by
  show (σ.peers.insert c p).get c = _
  rw [Map.get_insert, if_pos rfl]

theorem Live.serverReads {m : Mode} {cfg : AuthConfig} {c : Nat} {σ : System} {es ex : List Event} {p : Peer} {w : Wire}
    (h : Live cfg c σ es p w) (n : Nat) :
    Settling c σ (σ.step m cfg (.serverRead c n)) es (es ++ ex) := by
  have hp := h.up.peer
  have hw := h.up.wire
  have hr := h.up.server
  have hle := h.inv.packets_le hp
  cases ht : (σ.upstream c p).take (min n (2 ^ 31)) with
  | nil =>
    have e : σ.step m cfg (.serverRead c n) = σ := by
      simp only [System.step, System.onPeer, hp, ht, up_socket h.up, Bool.not_true, Bool.and_false, Bool.false_eq_true, if_false]
    rw [e]
    exact .same hp hle
  | cons b bs =>
    cases hpp : parsePacket m w.buf with
    | needMore =>
      have e : σ.step m cfg (.serverRead c n) =
          { σ with net := ⟨σ.net.server, σ.net.wires.insert c { w with buf := w.buf ++ (b :: bs), rcvd := w.rcvd ++ (b :: bs) }⟩ } := by
        simp only [System.step, System.onPeer, hp, ht, Net.step, Net.onWire, hw, hr, if_true, hpp]
        rfl
      rw [e]
      have hlen : w.rcvd.length + (b :: bs).length ≤ p.wrote.length := by
        have := congrArg List.length ht
        simp only [System.upstream, hw] at this
        rw [List.length_take, List.length_drop] at this
        simp only [List.length_cons] at this ⊢
        omega
      refine .server (nonAcks_le hp (by exact hp) hle (N := []) (by simp) (by simp)) (Or.inl rfl) ?_ ?_
      · simp only [downLeft, hp, hw, Map.get_insert, if_true]
      · simp only [upLeft, hp, hw, Map.get_insert, if_true, List.length_append]
        simp only [List.length_cons] at hlen ⊢
        omega
    | _ =>
      have e : σ.step m cfg (.serverRead c n) = σ := by
        simp only [System.step, System.onPeer, hp, ht, Net.step, Net.onWire, hw, hr, if_true, hpp]
      rw [e]
      exact .same hp hle

theorem queued_same {c : Nat} {srv srv' : Server} {s s' : Session} (h : srv.at c = some s) (h' : srv'.at c = some s')
    (hsub : s'.subscriptions = s.subscriptions) (ht : srv'.world.broker.tree = srv.world.broker.tree) :
    queued srv' c = queued srv c := by
  have e : waiting c srv' = waiting c srv := by
    funext f
    simp only [waiting, h, h', hsub, ht]
  simp only [queued, filtersOf, h, h', hsub, e]

theorem Live.serverActs {m : Mode} {cfg : AuthConfig} {c : Nat} {σ : System} {es es' : List Event} {p p' : Peer}
    {w w' : Wire} (h : Live cfg c σ es p w) (u : Str) (b : Bool)
    (h' : Live cfg c (σ.step m cfg (.serverTurn c u b)) (es ++ es') p' w') :
    Settling c σ (σ.step m cfg (.serverTurn c u b)) es (es ++ es') := by
  have hp := h.up.peer
  have hw := h.up.wire
  have hr := h.up.server
  have hle := h.inv.packets_le hp
  obtain ⟨fut, hf⟩ := h.inv.up c p w hp hw
  obtain ⟨k, hk, hrest⟩ := h.inv.net.read c w hw _ _ fut (h.inv.peer c p hp).sent hf
  rcases next_on m (h.inv.peer c p hp).sent (hrest hr) hf with ⟨_, hn, _⟩ | ⟨q, bb, rest, hq, _, he, _, hbuf, hpq, _⟩ |
    ⟨rest, hq, _⟩ | ⟨hx, _⟩
  · have e : σ.step m cfg (.serverTurn c u b) = σ := by
      simp only [System.step, Net.step, Net.onWire, hw, hr, if_true, hn]
    rw [e]
    exact .same hp hle
  · have hlt : k < p.outgoing.length := (List.getElem?_eq_some_iff.mp hq).1
    have hlen : (packetsOf c es).length = k := by
      rw [hk, List.length_map, List.length_take]; omega
    have e : σ.step m cfg (.serverTurn c u b) =
        { σ with net := σ.net.act cfg c { w with buf := rest, begun := true } (.recv c q.received) } := by
      simp only [System.step, Net.step, Net.onWire, hw, hr, if_true, hpq, h.begun]
    rw [← hlen] at hq
    rw [e] at h' ⊢
    have hp' : p' = p := by
      have := h'.up.peer
      have this : σ.peers.get c = some p' := this
      rw [hp] at this; exact (Option.some.inj this).symm
    subst hp'
    cases hack : q.isAck with
    | false =>
      refine .acts (nonAcks_lt hp (by exact hp) (h.further h' ?_ ?_) hq hack)
      · obtain ⟨w2, a1, a2, _⟩ := act_wire cfg σ.net c { w with buf := rest, begun := true } (.recv c q.received)
        have := h'.up.wire
        rw [a1] at this
        rw [← Option.some.inj this, a2]
      · obtain ⟨w2, a1, _, a3, _⟩ := act_wire cfg σ.net c { w with buf := rest, begun := true } (.recv c q.received)
        have := h'.up.wire
        rw [a1] at this
        rw [← Option.some.inj this, a3, hbuf]
        show rest.length < _
        rw [List.length_append]
        have := List.length_pos_iff.mpr (encode_ne_nil he)
        omega
    | true =>
      obtain ⟨a, rfl⟩ : ∃ a, q = .pubAck a := by
        cases q <;> simp [Packet.isAck] at hack
        exact ⟨_, rfl⟩
      obtain ⟨s, ha⟩ := h.session
      obtain ⟨a', ha'⟩ : ∃ a', (Packet.pubAck a).received = .pubAck a' := ⟨_, rfl⟩
      obtain ⟨k2, hk2, hs, est⟩ := step_recv_ok (cfg := cfg) (p := .pubAck a') ha (by simp)
        (s' := { s with unacked := s.unacked.erase a'.packetId }) (w' := σ.net.server.world) (res := none) rfl
      have hres : decide (w.keepalive ≠ 0) = true := by
        rw [h.inv.keepalive hp hw h.begun]; simpa using h.pend.2.2
      rw [ha']
      have eact : σ.net.act cfg c { w with buf := rest, begun := true, keepalive := w.keepalive } (.recv c (.pubAck a')) =
          ⟨(σ.net.server.step cfg (.recv c (.pubAck a'))).1, σ.net.wires.insert c
            { w with buf := rest, begun := true, keepalive := w.keepalive, running := ((σ.net.server.step cfg (.recv c (.pubAck a'))).1.conns.get c).isSome }⟩ := by
        simp only [Net.act, est, Option.toList, writePackets, if_true, List.append_nil, Net.resets, hres, Bool.and_self]
      refine .server (nonAcks_le hp (by exact hp) hle (N := []) (by simp) (by simp)) (Or.inr ⟨?_, ?_⟩) ?_ ?_
      · rw [eact]
        simp only
        rw [est]
        exact ⟨k2, _, _, hk2, rfl⟩
      · rw [eact]
        simp only
        rw [est]
        exact queued_same ha (at_put_same (by exact hk2) _) rfl rfl
      · rw [eact]
        simp only [downLeft, hp, hw, Map.get_insert, if_true]
      · exact upLeft_turn hp hw (encode_ne_nil he) hbuf
  · exact absurd (List.mem_of_getElem? hq) h.pend.1
  · exact absurd (List.mem_of_mem_take hx) h.pend.1

theorem Live.serverSends {m : Mode} {cfg : AuthConfig} {c : Nat} {σ : System} {es ex : List Event} {p : Peer} {w : Wire}
    (h : Live cfg c σ es p w) (f : Str) :
    Settling c σ (σ.step m cfg (.deliver c f)) es (es ++ ex) := by
  have hp := h.up.peer
  have hw := h.up.wire
  have hr := h.up.server
  have hle := h.inv.packets_le hp
  have hna : nonAcks c (σ.step m cfg (.deliver c f)) (es ++ ex) ≤ nonAcks c σ es :=
    nonAcks_le hp (by exact hp) hle (N := []) (by simp) (by simp)
  by_cases hne : (σ.net.server.step cfg (.deliver c f)).2 = {}
  · have hsame : (σ.net.server.step cfg (.deliver c f)).1 = σ.net.server := by
      obtain ⟨s, ha⟩ := h.session
      obtain ⟨k, hk, hs, e⟩ := onConn_at ha (fun r s => σ.net.server.deliver c r s f)
      have e' : σ.net.server.step cfg (.deliver c f) = σ.net.server.deliver c k.session s f := e
      rw [e'] at hne ⊢
      unfold Server.deliver at hne ⊢
      split
      · rfl
      · rename_i hx; rw [hx] at hne; cases hne
      · rename_i hx; rw [hx] at hne; cases hne
    obtain ⟨k, hk⟩ := (h.inv.net.opened c).mpr ⟨w, hw, hr, h.begun⟩
    have estep : σ.step m cfg (.deliver c f) = { σ with net := ⟨σ.net.server, σ.net.wires.insert c w⟩ } := by
      simp only [System.step, Net.step, Net.onWire, hw, hr, if_true, h.begun, Net.act, hne, writePackets, hsame,
        List.append_nil, hk, Option.isSome_some, Net.resets, Bool.and_self]
      have hb := h.begun
      cases w
      simp only at hr hb
      subst hr hb
      rfl
    rw [estep] at hna ⊢
    have hw' : (σ.net.wires.insert c w).get c = some w := by rw [Map.get_insert, if_pos rfl]
    refine .idle ⟨rfl, fun d => ?_, fun _ => Or.inl rfl⟩ hna
    show (σ.net.wires.insert c w).get d = _
    rw [Map.get_insert]
    split
    · rename_i hx; subst hx; exact hw.symm
    · rfl
  · obtain ⟨s, st, st', u, w', b1, b2, b3, b4, b5, b6, b7, b8, _, b9⟩ := h.sends (m := m) f hne
    refine .sends hna b9 ?_
    have e1 : queued σ.net.server c = (s.subscriptions.map fun x => waiting c σ.net.server x.1).sum := by
      simp only [queued, filtersOf, b1, List.map_map]; rfl
    have e2 : queued (σ.step m cfg (.deliver c f)).net.server c =
        waiting c (σ.step m cfg (.deliver c f)).net.server f +
          ((Map.erase s.subscriptions f).map fun x => waiting c (σ.step m cfg (.deliver c f)).net.server x.1).sum := by
      simp only [queued, filtersOf, b3, List.map_map, Map.insert, List.map_cons, List.sum_cons]; rfl
    have e3 := (sum_erase_le (waiting c σ.net.server) s.subscriptions f).2 (key_mem b2)
    have e4 : ∀ l : Map Str SubStream, (l.map fun x => waiting c (σ.step m cfg (.deliver c f)).net.server x.1).sum ≤
        (l.map fun x => waiting c σ.net.server x.1).sum := by
      intro l
      induction l with
      | nil => simp
      | cons x l ih =>
        have := b7 x.1
        simp only [List.map_cons, List.sum_cons]
        omega
    have e5 := e4 (Map.erase s.subscriptions f)
    omega

theorem Live.clientReads {m : Mode} {cfg : AuthConfig} {c : Nat} {σ : System} {es ex : List Event} {p : Peer} {w : Wire}
    (h : Live cfg c σ es p w) (n : Nat) :
    Settling c σ (σ.step m cfg (.clientRead c n)) es (es ++ ex) := by
  have hp := h.up.peer
  have hw := h.up.wire
  have hle := h.inv.packets_le hp
  by_cases hc : (p.reading && clientParse m p.opts.protocolVersion p.buf == .needMore) = true
  · cases ht : (σ.downstream c p).take (min n 4096) with
    | nil =>
      have e : σ.step m cfg (.clientRead c n) = σ := by
        simp only [System.step, System.onPeer, hp, hc, if_true, ht, System.ended, hw, h.up.server, Bool.not_true,
          Bool.and_false, Bool.false_eq_true, if_false]
      rw [e]; exact .same hp hle
    | cons b bs =>
      have e : σ.step m cfg (.clientRead c n) = σ.put c { p with buf := p.buf ++ b :: bs, got := p.got ++ b :: bs } := by
        simp only [System.step, System.onPeer, hp, hc, if_true, ht]
      rw [e]
      have hg := put_get σ c { p with buf := p.buf ++ b :: bs, got := p.got ++ b :: bs }
      have hlen : p.got.length + (b :: bs).length ≤ w.sent.length := by
        have := congrArg List.length ht
        simp only [System.downstream, hw] at this
        rw [List.length_take, List.length_drop] at this
        simp only [List.length_cons] at this ⊢
        omega
      refine .client (nonAcks_le hp hg hle (N := []) (by simp [Peer.outgoing, Peer.sents]) (by simp)) rfl ?_
      have hw' : (σ.put c { p with buf := p.buf ++ b :: bs, got := p.got ++ b :: bs }).net.wires.get c = some w := hw
      simp only [downLeft, hp, hw, hg, hw', Peer.loop, List.length_append]
      simp only [List.length_cons] at hlen ⊢
      omega
  · have e : σ.step m cfg (.clientRead c n) = σ := by
      simp only [System.step, System.onPeer, hp, if_neg hc]
    rw [e]; exact .same hp hle

theorem Live.clientActs {m : Mode} {cfg : AuthConfig} {c : Nat} {σ : System} {es ex : List Event} {p : Peer} {w : Wire}
    (h : Live cfg c σ es p w) : Settling c σ (σ.step m cfg (.clientTurn c true)) es (es ++ ex) := by
  have hp := h.up.peer
  have hw := h.up.wire
  have hle := h.inv.packets_le hp
  obtain ⟨l, hl, hrl⟩ := up_phase h.up
  have hloop : p.loop = some l := by simp [Peer.loop, hl]
  by_cases hread : p.reading = true
  · have hb : ¬l.blocked := by
      simp only [Peer.reading, hl, Bool.and_eq_true, Bool.not_eq_true', decide_eq_false_iff_not] at hread
      exact hread.2
    obtain ⟨k, hd⟩ := h.down
    obtain ⟨dd, rs, whole, tail, h1, h2, hbuf, h3, h4, h5⟩ := hd.parts
    have hpl := hd.small
    rw [hbuf] at hpl
    rcases clientParse_whole m h2 h5 (by omega) with ⟨_, _, e⟩ | ⟨q, qs, rest, _, _, e, hle', bytes, hq1, hq2⟩
    · rw [← hbuf] at e
      have e : σ.step m cfg (.clientTurn c true) = σ := by
        simp only [System.step, System.onPeer, hp, hread, if_true, e]
      rw [e]; exact .same hp hle
    · rw [← hbuf] at e
      generalize hq : q.receivedBy p.opts.protocolVersion = q' at e
      have hne : 0 < bytes.length := by
        cases hq1 with
        | cons _ he _ hr => rw [List.length_append]; have := List.length_pos_iff.mpr (encode_ne_nil he); omega
      have estep : σ.step m cfg (.clientTurn c true) =
          σ.put c (({ p with buf := rest ++ tail } : Peer).act l (.read (.packet q') true)) := by
        simp only [System.step, System.onPeer, hp, hread, e, if_true]
        simp only [Peer.receive, hl]
      have ei : l.step (.read (.packet q') true) = l.incoming q' true := by
        simp [Client.step, hb, hrl, Client.turn]
      rw [estep]
      have hg := put_get σ c (({ p with buf := rest ++ tail } : Peer).act l (.read (.packet q') true))
      refine .client (nonAcks_le hp hg hle (outgoing_act _ _ _) ?_) rfl ?_
      · intro x hx
        rw [Option.mem_toList, ei] at hx
        exact (incoming_small l q').2 x hx
      · have hi := (incoming_small l q').1
        have hw' : (σ.put c (({ p with buf := rest ++ tail } : Peer).act l (.read (.packet q') true))).net.wires.get c =
          some w := hw
        have hl' : (({ p with buf := rest ++ tail } : Peer).act l (.read (.packet q') true)).loop =
            some (l.incoming q' true).1 := by
          simp only [Peer.loop, Peer.act, ei]
        simp only [downLeft, hp, hw, hg, hw', hl', hloop, Option.map_some, Option.getD_some]
        show 4 * (w.sent.length - p.got.length) + 2 * (rest ++ tail).length + _ < _
        rw [hbuf, hq2]
        simp only [List.length_append]
        omega
  · have e : σ.step m cfg (.clientTurn c true) = σ := by
      simp only [System.step, System.onPeer, hp, hread, Bool.false_eq_true, if_false]
    rw [e]; exact .same hp hle

theorem Live.takes {m : Mode} {cfg : AuthConfig} {c : Nat} {σ : System} {es ex : List Event} {p : Peer} {w : Wire}
    (h : Live cfg c σ es p w) : Settling c σ (σ.step m cfg (.app c .recv)) es (es ++ ex) := by
  have hp := h.up.peer
  have hw := h.up.wire
  have hle := h.inv.packets_le hp
  obtain ⟨l, hl, hrl⟩ := up_phase h.up
  have hloop : p.loop = some l := by simp [Peer.loop, hl]
  have estep : σ.step m cfg (.app c .recv) = σ.put c (p.act l .recv) := by
    simp only [System.step, System.onPeer, hp]
    rw [hl]
  rw [estep]
  have hg := put_get σ c (p.act l .recv)
  have hw' : (σ.put c (p.act l .recv)).net.wires.get c = some w := hw
  have ei : l.step .recv = l.take := by simp [Client.step]
  have hsent : (l.step .recv).2.sent = none := by
    rw [ei]; unfold Client.take; split <;> rfl
  have hna : nonAcks c (σ.put c (p.act l .recv)) (es ++ ex) ≤ nonAcks c σ es := by
    refine nonAcks_le hp hg hle (N := []) ?_ (by simp)
    rw [outgoing_act, hsent]; rfl
  have hl' : (p.act l .recv).loop = some l.take.1 := by simp only [Peer.loop, Peer.act, ei]
  have hwrote : (p.act l .recv).wrote = p.wrote := by
    simp only [Peer.act, hsent, List.append_nil]
  cases hq : l.pending with
  | nil =>
    have et : l.take = (l, {}) := by simp [Client.take, hq]
    refine .idle ⟨rfl, fun _ => rfl, fun d => ?_⟩ hna
    by_cases hd : d = c
    · subst hd
      right
      refine ⟨p, p.history ++ [(ClientIn.recv, (l.take).2)], hp, ?_, by simp [List.filterMap_append, et]⟩
      rw [hg]
      simp only [Peer.act, ei, et, ← hl, List.append_nil]
    · left
      show (σ.peers.insert c _).get d = _
      rw [Map.get_insert, if_neg (Ne.symm hd)]
  | cons a as =>
    refine .client hna rfl ?_
    have et : l.take = ({ l with pending := as }, { event := some a }) := by simp [Client.take, hq]
    simp only [downLeft, hp, hw, hg, hw', hl', hloop, et, Option.map_some, Option.getD_some, hq]
    show 4 * (w.sent.length - p.got.length) + 2 * p.buf.length + _ < _
    simp only [List.length_cons]
    omega

/-- Every step brings the connection nearer to rest, or does nothing. -/
theorem Live.settling {m : Mode} {cfg : AuthConfig} {c : Nat} {σ : System} {es es' : List Event} {p p' : Peer}
    {w w' : Wire} (h : Live cfg c σ es p w) {e : SysEvent} (he : e.Own c)
    (h' : Live cfg c (σ.step m cfg e) (es ++ es') p' w') :
    Settling c σ (σ.step m cfg e) es (es ++ es') := by
  cases e with
  | serverRead d n => cases he; exact h.serverReads n
  | serverTurn d u b => obtain ⟨rfl, _⟩ := he; exact h.serverActs u b h'
  | deliver d f => cases he; exact h.serverSends f
  | clientRead d n => cases he; exact h.clientReads n
  | clientTurn d ok => obtain ⟨rfl, rfl⟩ := he; exact h.clientActs
  | app d i => obtain ⟨rfl, rfl⟩ := he; exact h.takes
  | _ => exact he.elim

/-! ## All connections -/

/-- The connections of all these clients are there, with a common history. -/
def AllLive (cfg : AuthConfig) (C : List Nat) (σ : System) (es : List Event) : Prop :=
  SysInv cfg σ es ∧ ∀ c ∈ C, ∃ p w, Live cfg c σ es p w

/-- What remains to be done. -/
def remains (C : List Nat) (σ : System) (es : List Event) : Nat × Nat × Nat × Nat :=
  ((C.map fun c => nonAcks c σ es).sum, (C.map fun c => queued σ.net.server c).sum,
    (C.map fun c => downLeft c σ).sum, (C.map fun c => upLeft c σ).sum)

theorem sum_mono {C : List Nat} {f g : Nat → Nat} (h : ∀ c ∈ C, f c ≤ g c) : (C.map f).sum ≤ (C.map g).sum := by
  induction C with
  | nil => simp
  | cons c C ih =>
    have h1 := h c (by simp)
    have h2 := ih (fun x hx => h x (by simp [hx]))
    simp only [List.map_cons, List.sum_cons]
    omega

theorem sum_same {C : List Nat} {f g : Nat → Nat} (h : ∀ c ∈ C, f c = g c) : (C.map f).sum = (C.map g).sum :=
  congrArg List.sum (List.map_congr_left h)

theorem sum_less {C : List Nat} {f g : Nat → Nat} (h : ∀ c ∈ C, f c ≤ g c) {d : Nat} (hd : d ∈ C) (hl : f d < g d) :
    (C.map f).sum < (C.map g).sum := by
  induction C with
  | nil => cases hd
  | cons c C ih =>
    have h1 := h c (by simp)
    have h2 := sum_mono (fun x hx => h x (List.mem_cons_of_mem c hx))
    simp only [List.map_cons, List.sum_cons]
    rcases List.mem_cons.mp hd with rfl | hd
    · omega
    · have := ih (fun x hx => h x (by simp [hx])) hd
      omega

/-- Less remains to be done. -/
def Less : Nat × Nat × Nat × Nat → Nat × Nat × Nat × Nat → Prop :=
  Prod.Lex (· < ·) (Prod.Lex (· < ·) (Prod.Lex (· < ·) (· < ·)))

theorem less_wf : WellFounded Less :=
  (Prod.lex Nat.lt_wfRel (Prod.lex Nat.lt_wfRel (Prod.lex Nat.lt_wfRel Nat.lt_wfRel))).wf

theorem less_of {a b : Nat × Nat × Nat × Nat}
    (h : a.1 < b.1 ∨ a.1 ≤ b.1 ∧ (a.2.1 < b.2.1 ∨ a.2.1 = b.2.1 ∧ (a.2.2.1 < b.2.2.1 ∨ a.2.2.1 = b.2.2.1 ∧ a.2.2.2 < b.2.2.2))) :
    Less a b := by
  obtain ⟨a1, a2, a3, a4⟩ := a
  obtain ⟨b1, b2, b3, b4⟩ := b
  simp only at h
  rcases h with h | ⟨h0, h⟩
  · exact .left _ _ h
  · rcases Nat.lt_or_eq_of_le h0 with h0 | rfl
    · exact .left _ _ h0
    · refine .right _ ?_
      rcases h with h | ⟨rfl, h⟩
      · exact .left _ _ h
      · refine .right _ ?_
        rcases h with h | ⟨rfl, h⟩
        · exact .left _ _ h
        · exact .right _ h

theorem nonAcks_other {m : Mode} {cfg : AuthConfig} {c d : Nat} {σ : System} {es ex : List Event} {p : Peer} {w : Wire}
    (h : Live cfg d σ es p w) (hd : d ≠ c) {e : SysEvent} (he : e.Own c) :
    nonAcks d (σ.step m cfg e) (es ++ ex) ≤ nonAcks d σ es :=
  nonAcks_le h.up.peer (by rw [Own.others he hd]; exact h.up.peer) (h.inv.packets_le h.up.peer) (N := []) (by simp) (by simp)

theorem queued_other {cfg : AuthConfig} {c d : Nat} {σ : System} {srv' : Server} {es : List Event} {p : Peer} {w : Wire}
    (h : Live cfg d σ es p w) (hd : d ≠ c) (ht : Touched c σ.net.server srv') :
    queued srv' d = queued σ.net.server d := by
  have hs := h.unshared hd
  unfold queued filtersOf
  rw [ht.waiting hs, ht.other hs]

theorem downLeft_other {m : Mode} {cfg : AuthConfig} {σ : System} {c d : Nat} {e : SysEvent} (h : e.Own c) (hd : d ≠ c) :
    downLeft d (σ.step m cfg e) = downLeft d σ := by
  unfold downLeft
  rw [Own.others h hd, Own.wires h hd]

/-- Whatever happens by itself, either nothing changes or less remains to be done. -/
theorem AllLive.step {m : Mode} {cfg : AuthConfig} {C : List Nat} {σ : System} {es : List Event}
    (h : AllLive cfg C σ es) {c : Nat} (hc : c ∈ C) {e : SysEvent} (he : e.Own c) (hr : ReadOk m cfg c σ e) :
    ∃ es', AllLive cfg C (σ.step m cfg e) es' ∧
      (σ.Same (σ.step m cfg e) ∧ remains C (σ.step m cfg e) es' = remains C σ es ∨
        Less (remains C (σ.step m cfg e) es') (remains C σ es)) := by
  obtain ⟨ex, hg, h1⟩ := h.1.step (Own.ordinary he) (moves m cfg σ e)
  obtain ⟨p, w, hl⟩ := h.2 c hc
  obtain ⟨p', w', hl', _⟩ := hl.step_on he hr hg h1
  have hlive : AllLive cfg C (σ.step m cfg e) (es ++ ex) := by
    refine ⟨h1, fun d hd => ?_⟩
    by_cases hdc : d = c
    · subst hdc; exact ⟨p', w', hl'⟩
    · obtain ⟨q, v, hq⟩ := h.2 d hd
      exact ⟨q, v, hq.other_on hl hdc he hg h1⟩
  refine ⟨es ++ ex, hlive, ?_⟩
  have hA : ∀ {x y : Nat → Nat} {R : Nat → Nat → Prop}, (∀ d, d ≠ c → d ∈ C → R (x d) (y d)) → R (x c) (y c) →
      ∀ d ∈ C, R (x d) (y d) := by
    intro x y R h1 h2 d hd
    by_cases hdc : d = c
    · subst hdc; exact h2
    · exact h1 d hdc hd
  have oA : ∀ d, d ≠ c → d ∈ C → nonAcks d (σ.step m cfg e) (es ++ ex) ≤ nonAcks d σ es := by
    intro d hdc hd
    obtain ⟨q, v, hq⟩ := h.2 d hd
    exact nonAcks_other hq hdc he
  have oD : ∀ d, d ≠ c → d ∈ C → downLeft d (σ.step m cfg e) = downLeft d σ := fun d hdc _ => downLeft_other he hdc
  have oU : ∀ d, d ≠ c → d ∈ C → upLeft d (σ.step m cfg e) = upLeft d σ := fun d hdc _ => upLeft_other he hdc
  have oB : Touched c σ.net.server (σ.step m cfg e).net.server → ∀ d, d ≠ c → d ∈ C →
      queued (σ.step m cfg e).net.server d = queued σ.net.server d := by
    intro ht d hdc hd
    obtain ⟨q, v, hq⟩ := h.2 d hd
    exact queued_other hq hdc ht
  cases hl.settling he hl' with
  | idle hs ha =>
    have h2 : (C.map fun c => nonAcks c (σ.step m cfg e) (es ++ ex)).sum ≤ (C.map fun c => nonAcks c σ es).sum :=
      sum_mono (hA (R := (· ≤ ·)) oA ha)
    rcases Nat.lt_or_eq_of_le h2 with h2 | h2
    · exact Or.inr (less_of (Or.inl h2))
    · refine Or.inl ⟨hs, ?_⟩
      unfold remains
      rw [h2, hs.server, sum_same (fun d _ => hs.downLeft d), sum_same (fun d _ => hs.upLeft d)]
  | acts ha =>
    exact Or.inr (less_of (Or.inl (sum_less (hA (R := (· ≤ ·)) oA (Nat.le_of_lt ha)) hc ha)))
  | sends ha ht hb =>
    exact Or.inr (less_of (Or.inr ⟨sum_mono (hA (R := (· ≤ ·)) oA ha), Or.inl (sum_less
      (hA (R := (· ≤ ·)) (fun d h1 h2 => Nat.le_of_eq (oB ht d h1 h2)) (Nat.le_of_lt hb)) hc hb)⟩))
  | client ha hs hd =>
    exact Or.inr (less_of (Or.inr ⟨sum_mono (hA (R := (· ≤ ·)) oA ha), Or.inr ⟨by rw [remains, remains, hs], Or.inl (sum_less
      (hA (R := (· ≤ ·)) (fun d h1 h2 => Nat.le_of_eq (oD d h1 h2)) (Nat.le_of_lt hd)) hc hd)⟩⟩))
  | server ha hs hd hu =>
    refine Or.inr (less_of (Or.inr ⟨sum_mono (hA (R := (· ≤ ·)) oA ha), Or.inr ⟨?_, Or.inr ⟨?_, sum_less
      (hA (R := (· ≤ ·)) (fun d h1 h2 => Nat.le_of_eq (oU d h1 h2)) (Nat.le_of_lt hu)) hc hu⟩⟩⟩))
    · rcases hs with hs | ⟨ht, hb⟩
      · rw [remains, remains, hs]
      · exact sum_same (hA (R := (· = ·)) (oB ht) hb)
    · exact sum_same (hA (R := (· = ·)) oD hd)

theorem along_shift (m : Mode) (cfg : AuthConfig) (σ : System) (ev : Nat → SysEvent) (k n : Nat) :
    (σ.along m cfg ev k).along m cfg (fun i => ev (k + i)) n = σ.along m cfg ev (k + n) := by
  induction n with
  | zero => rfl
  | succ n ih =>
    show ((σ.along m cfg ev k).along m cfg (fun i => ev (k + i)) n).step m cfg (ev (k + n)) =
      (σ.along m cfg ev (k + n)).step m cfg (ev (k + n))
    rw [ih]

/-- After some time nothing changes any more. -/
theorem AllLive.rest {m : Mode} {cfg : AuthConfig} {C : List Nat} :
    ∀ (r : Nat × Nat × Nat × Nat) (σ : System) (es : List Event) (ev : Nat → SysEvent), remains C σ es = r →
      AllLive cfg C σ es → (∀ n, ∃ c ∈ C, (ev n).Own c ∧ ReadOk m cfg c (σ.along m cfg ev n) (ev n)) →
      ∃ N, ∀ n, N ≤ n → (∃ es', AllLive cfg C (σ.along m cfg ev n) es') ∧
        (σ.along m cfg ev N).Same (σ.along m cfg ev n) := by
  intro r
  induction r using less_wf.induction with
  | _ r ih =>
    intro σ es ev hr h hev
    have key : ∀ n, (∃ es', AllLive cfg C (σ.along m cfg ev n) es' ∧ remains C (σ.along m cfg ev n) es' = r ∧
        σ.Same (σ.along m cfg ev n)) ∨ ∃ k es', AllLive cfg C (σ.along m cfg ev k) es' ∧
          Less (remains C (σ.along m cfg ev k) es') r := by
      intro n
      induction n with
      | zero => exact Or.inl ⟨es, h, hr, .refl σ⟩
      | succ n ihn =>
        rcases ihn with ⟨es', h1, h2, h3⟩ | hx
        · obtain ⟨c, hc, ho, hrd⟩ := hev n
          obtain ⟨es2, h4, h5⟩ := h1.step hc ho hrd
          rcases h5 with ⟨h5, h6⟩ | h5
          · exact Or.inl ⟨es2, h4, h6.trans h2, h3.trans h5⟩
          · right
            refine ⟨n + 1, es2, h4, ?_⟩
            rw [h2] at h5
            exact h5
        · exact Or.inr hx
    by_cases hx : ∃ k es', AllLive cfg C (σ.along m cfg ev k) es' ∧ Less (remains C (σ.along m cfg ev k) es') r
    · obtain ⟨k, es', h1, h2⟩ := hx
      obtain ⟨N, hN⟩ := ih _ h2 (σ.along m cfg ev k) es' (fun i => ev (k + i)) rfl h1 (by
        intro n
        rw [along_shift]
        exact hev (k + n))
      refine ⟨k + N, fun n hn => ?_⟩
      have := hN (n - k) (by omega)
      rw [along_shift, along_shift, Nat.add_sub_cancel' (by omega)] at this
      exact this
    · refine ⟨0, fun n _ => ?_⟩
      rcases key n with ⟨es', h1, _, h3⟩ | hy
      · exact ⟨⟨es', h1⟩, h3⟩
      · exact absurd hy hx

/-! ## Nothing to do -/

/-- There is nothing to do for a task. -/
def TaskDone (m : Mode) (cfg : AuthConfig) (c : Nat) (srv : Server) (p : Peer) (w : Wire) : WireTask → Prop
  | .serverReads => parsePacket m w.buf = .needMore → w.rcvd = p.wrote
  | .serverActs => parsePacket m w.buf = .needMore
  | .sends f => (srv.step cfg (.deliver c f)).2 = {}
  | .clientReads => p.reading = true → clientParse m p.opts.protocolVersion p.buf = .needMore → p.got = w.sent
  | .clientActs => p.reading = true → clientParse m p.opts.protocolVersion p.buf = .needMore
  | .takes => ∀ l, p.loop = some l → l.pending = []

theorem Live.taskDone {m : Mode} {cfg : AuthConfig} {c : Nat} {σ : System} {es : List Event} {p : Peer} {w : Wire}
    (h : Live cfg c σ es p w) {t : WireTask} {e : SysEvent} (ht : e.Tries c t)
    (hs : (σ.step m cfg e).passed c = σ.passed c) : TaskDone m cfg c σ.net.server p w t := by
  have hp := h.up.peer
  have hw := h.up.wire
  have hr := h.up.server
  obtain ⟨l, hl, hrl⟩ := up_phase h.up
  have hloop : p.loop = some l := by simp [Peer.loop, hl]
  cases t with
  | serverReads =>
    obtain ⟨n, hn, rfl⟩ := ht
    intro hpp
    obtain ⟨fut, hf⟩ := h.inv.up c p w hp hw
    cases hfut : fut with
    | nil => rw [hfut, List.append_nil] at hf; exact hf
    | cons b bs =>
      exfalso
      have hup : σ.upstream c p = b :: bs := by
        simp only [System.upstream, hw]
        rw [← hf, List.drop_left, hfut]
      obtain ⟨k, hk⟩ : ∃ k, min n (2 ^ 31) = k + 1 := ⟨min n (2 ^ 31) - 1, by omega⟩
      have e : σ.step m cfg (.serverRead c n) = { σ with net := ⟨σ.net.server, σ.net.wires.insert c
          { w with buf := w.buf ++ (b :: bs.take k), rcvd := w.rcvd ++ (b :: bs.take k) }⟩ } := by
        simp only [System.step, System.onPeer, hp, hup, hk, List.take_succ_cons, Net.step, Net.onWire, hw, hr, if_true, hpp]
        rfl
      rw [e] at hs
      have := ((passed_eq hp hw (by exact hp) (show (σ.net.wires.insert c _).get c = some _ by
        rw [Map.get_insert, if_pos rfl])).mp hs).1
      simp at this
  | serverActs =>
    obtain ⟨u, b, _, rfl⟩ := ht
    show parsePacket m w.buf = .needMore
    obtain ⟨fut, hf⟩ := h.inv.up c p w hp hw
    obtain ⟨k, hk, hrest⟩ := h.inv.net.read c w hw _ _ fut (h.inv.peer c p hp).sent hf
    rcases next_on m (h.inv.peer c p hp).sent (hrest hr) hf with ⟨_, hn, _⟩ | ⟨q, bb, rest, hq, _, he, _, hbuf, hpq, _⟩ |
      ⟨rest, hq, _⟩ | ⟨hx, _⟩
    · exact hn
    · exfalso
      have e : σ.step m cfg (.serverTurn c u b) =
          { σ with net := σ.net.act cfg c { w with buf := rest, begun := true } (.recv c q.received) } := by
        simp only [System.step, Net.step, Net.onWire, hw, hr, if_true, hpq, h.begun]
      obtain ⟨w2, a1, _, a3, _⟩ := act_wire cfg σ.net c { w with buf := rest, begun := true } (.recv c q.received)
      rw [e] at hs
      have := ((passed_eq hp hw (by exact hp) (by exact a1)).mp hs).2.1
      rw [a3, hbuf] at this
      have := List.self_eq_append_left.mp this
      exact encode_ne_nil he this
    · exact absurd (List.mem_of_getElem? hq) h.pend.1
    · exact absurd (List.mem_of_mem_take hx) h.pend.1
  | sends f =>
    cases ht
    refine Classical.byContradiction fun hne => ?_
    obtain ⟨s, st, st', u, w', b1, b2, b3, b4, b5, b6, b7, b8, b9, _⟩ := h.sends (m := m) f hne
    exact b9 ((passed_eq hp hw (by exact hp) b4).mp hs).2.2.1
  | clientReads =>
    obtain ⟨n, hn, rfl⟩ := ht
    intro hread hpp
    have hgs := h.got c p w hp hw
    obtain ⟨fut, hf⟩ := hgs
    cases hfut : fut with
    | nil => rw [hfut, List.append_nil] at hf; exact hf
    | cons b bs =>
      exfalso
      have hdn : σ.downstream c p = b :: bs := by
        simp only [System.downstream, hw]
        rw [← hf, List.drop_left, hfut]
      obtain ⟨k, hk⟩ : ∃ k, min n 4096 = k + 1 := ⟨min n 4096 - 1, by omega⟩
      have e : σ.step m cfg (.clientRead c n) = σ.put c { p with buf := p.buf ++ b :: bs.take k, got := p.got ++ b :: bs.take k } := by
        simp only [System.step, System.onPeer, hp, hread, hpp, hdn, hk, List.take_succ_cons, beq_self_eq_true, Bool.and_self, if_true]
      rw [e] at hs
      have := ((passed_eq hp hw (put_get σ c _) (by exact hw)).mp hs).2.2.2.1
      simp at this
  | clientActs =>
    cases ht
    intro hread
    obtain ⟨k, hd⟩ := h.down
    obtain ⟨dd, rs, whole, tail, h1, h2, hbuf, h3, h4, h5⟩ := hd.parts
    have hpl := hd.small
    rw [hbuf] at hpl
    rcases clientParse_whole m h2 h5 (by omega) with ⟨_, _, e⟩ | ⟨q, qs, rest, _, _, e, hle', bytes, hq1, hq2⟩
    · rw [hbuf]; exact e
    · exfalso
      rw [← hbuf] at e
      have hne : 0 < bytes.length := by
        cases hq1 with
        | cons _ he _ hr => rw [List.length_append]; have := List.length_pos_iff.mpr (encode_ne_nil he); omega
      have estep : σ.step m cfg (.clientTurn c true) =
          σ.put c (({ p with buf := rest ++ tail } : Peer).act l (.read (.packet (q.receivedBy p.opts.protocolVersion)) true)) := by
        simp only [System.step, System.onPeer, hp, hread, e, if_true]
        simp only [Peer.receive, hl]
      rw [estep] at hs
      have := ((passed_eq hp hw (put_get σ c _) (by exact hw)).mp hs).2.2.2.2.1
      have := congrArg List.length this
      rw [hbuf, hq2] at this
      simp only [Peer.act, List.length_append] at this
      omega
  | takes =>
    cases ht
    intro l' hl'
    rw [hloop, Option.some.injEq] at hl'
    subst hl'
    cases hq : l.pending with
    | nil => rfl
    | cons a as =>
      exfalso
      have estep : σ.step m cfg (.app c .recv) = σ.put c (p.act l .recv) := by
        simp only [System.step, System.onPeer, hp]
        rw [hl]
      have et : l.step .recv = ({ l with pending := as }, { event := some a }) := by simp [Client.step, Client.take, hq]
      rw [estep] at hs
      have := ((passed_eq hp hw (put_get σ c _) (by exact hw)).mp hs).2.2.2.2.2
      simp [Peer.act, et] at this

theorem TaskDone.same {m : Mode} {cfg : AuthConfig} {c : Nat} {srv : Server} {p : Peer} {w : Wire} {t : WireTask}
    {x : List (ClientIn × ClientOut)} (h : TaskDone m cfg c srv { p with history := x } w t) :
    TaskDone m cfg c srv p w t := by
  cases t <;> exact h

/-- When nothing changes any more and no task is put off for ever, nothing is in transit. -/
theorem quiet_of_fair {m : Mode} {cfg : AuthConfig} {c : Nat} {σ : System} {ev : Nat → SysEvent} {N : Nat}
    (hN : ∀ n, N ≤ n → (∃ es p w, Live cfg c (σ.along m cfg ev n) es p w) ∧
      (σ.along m cfg ev N).Same (σ.along m cfg ev n)) (hf : Fair m cfg σ ev c) :
    ∀ n, N ≤ n → (σ.along m cfg ev n).Quiet m cfg c := by
  intro n hn
  obtain ⟨⟨es, p, w, h⟩, _⟩ := hN n hn
  have hsame : ∀ k, n ≤ k → ∃ es' p' x, Live cfg c (σ.along m cfg ev k) es' p' w ∧
      (p' = p ∨ p' = { p with history := x }) ∧ (σ.along m cfg ev k).net.server = (σ.along m cfg ev n).net.server := by
    intro k hk
    obtain ⟨⟨es', p', w', h'⟩, s1⟩ := hN k (by omega)
    obtain ⟨_, s2⟩ := hN n hn
    have e1 : w' = w := by
      have := (s1.wires c).trans (s2.wires c).symm
      rw [h'.up.wire, h.up.wire, Option.some.injEq] at this
      exact this
    subst e1
    have e2 : ∃ x, p' = p ∨ p' = { p with history := x } := by
      have a := s1.peers c
      have b := s2.peers c
      rw [h'.up.peer] at a
      rw [h.up.peer] at b
      rcases a with a | ⟨q, x, a1, a2, _⟩
      · rcases b with b | ⟨q', y, b1, b2, _⟩
        · rw [← a, Option.some.injEq] at b
          exact ⟨[], Or.inl b.symm⟩
        · rw [b1, Option.some.injEq] at a
          rw [Option.some.injEq] at b2
          subst a b2
          exact ⟨p'.history, Or.inr rfl⟩
      · rw [Option.some.injEq] at a2
        subst a2
        rcases b with b | ⟨q', y, b1, b2, _⟩
        · rw [a1, Option.some.injEq] at b
          subst b
          exact ⟨x, Or.inr rfl⟩
        · rw [b1, Option.some.injEq] at a1
          rw [Option.some.injEq] at b2
          subst a1 b2
          exact ⟨x, Or.inr rfl⟩
    obtain ⟨x, e2⟩ := e2
    exact ⟨es', p', x, h', e2, s1.server.trans s2.server.symm⟩
  have done : ∀ t, TaskDone m cfg c (σ.along m cfg ev n).net.server p w t := by
    intro t
    obtain ⟨k, hk, ht⟩ := hf t n
    obtain ⟨es', p', x, h', hp', hsrv⟩ := hsame k hk
    have : TaskDone m cfg c (σ.along m cfg ev k).net.server p' w t := by
      rcases ht with ht | ht
      · refine h'.taskDone ht ?_
        obtain ⟨_, s1⟩ := hN k (by omega)
        obtain ⟨_, s2⟩ := hN (k + 1) (by omega)
        exact (s2.passed c).trans (s1.passed c).symm
      · obtain ⟨e, he⟩ : ∃ e : SysEvent, e.Tries c t := by
          cases t with
          | serverReads => exact ⟨_, 1, by omega, rfl⟩
          | serverActs => exact ⟨_, [], true, textField_nil, rfl⟩
          | sends f => exact ⟨_, rfl⟩
          | clientReads => exact ⟨_, 1, by omega, rfl⟩
          | clientActs => exact ⟨_, rfl⟩
          | takes => exact ⟨_, rfl⟩
        exact h'.taskDone he (ht e he)
    rw [hsrv] at this
    rcases hp' with rfl | rfl
    · exact this
    · exact this.same
  have hn1 : parsePacket m w.buf = .needMore := done .serverActs
  have hrw : w.rcvd = p.wrote := done .serverReads hn1
  have hbuf : w.buf = [] := h.inv.empty h.up.peer h.up.wire h.up.server h.pend.1 hrw hn1
  obtain ⟨l, hl, hrl⟩ := up_phase h.up
  have hpend : l.pending = [] := done .takes l (by simp [Peer.loop, hl])
  have hread : p.reading = true := by
    simp [Peer.reading, hl, hrl, Client.blocked, hpend]
  have hn2 : clientParse m p.opts.protocolVersion p.buf = .needMore := done .clientActs hread
  exact ⟨⟨p, w, h.up, hrw, hbuf⟩, p, w, h.up, fun f => done (.sends f), done .clientReads hread hn2, hn2⟩

end Mercurio
