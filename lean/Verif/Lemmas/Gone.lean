import Verif.Lemmas.Alive

/-!
# The whole system: connections that end after everything was said
-/

namespace Mercurio

open Spec Server

/-! ## The client -/

/-- What an application that publishes to valid topics makes its client send: packets that do not end
the connection, and DISCONNECT, after which the client is done. -/
theorem step_parting {l : Client} {i : ClientIn} (hi : InOrd i) (hk : ∀ ok, i ≠ .tick ok)
    (ht : ∀ t pl q r ok, i = .publish t pl q r ok → ValidTopic t) {q : Packet}
    (h : (l.step i).2.sent = some q) :
    Fine q ∨ (∃ x, q = .disconnect x) ∧ (l.step i).1.running = false := by
  by_cases hd : ∃ ok, i = .disconnect ok
  · obtain ⟨ok, rfl⟩ := hd
    unfold Client.step at h ⊢
    rw [if_neg (by simp)] at h ⊢
    split at h
    · cases h
    split at h
    · rename_i hb hr
      rw [if_neg hb, if_pos hr]
      simp only [Client.turn, Client.doDisconnect] at h ⊢
      exact Or.inr ⟨⟨_, call_sent h⟩, trivial⟩
    · cases h
  · refine Or.inl (step_fine hi ?_ h)
    cases i <;> first | trivial | exact fun _ => ht _ _ _ _ _ rfl | exact absurd ⟨_, rfl⟩ hd | exact absurd rfl (hk _)

/-- A client that is done sends nothing. -/
theorem step_silent {l : Client} (h : l.running = false) (i : ClientIn) :
    (l.step i).2.sent = none ∧ (l.step i).1.running = false := by
  unfold Client.step
  split
  · unfold Client.take; split <;> exact ⟨rfl, h⟩
  split
  · exact ⟨rfl, h⟩
  rw [if_neg (by simp [h])]
  cases i <;> exact ⟨rfl, h⟩

/-- What an event does to the packets a client has sent. -/
structure Says (p p' : Peer) : Prop where
  more : ∃ N, p'.outgoing = p.outgoing ++ N ∧
    ((∀ q ∈ N, Fine q) ∨ (∃ x, N = [.disconnect x]) ∧ p'.socketOpen = false) ∧
    (p.socketOpen = false → N = [])
  done : p.socketOpen = false → p'.socketOpen = false

theorem Says.refl (p : Peer) : Says p p :=
  ⟨⟨[], by simp, Or.inl (by simp), fun _ => rfl⟩, id⟩

theorem act_says {p : Peer} {l : Client} {i : ClientIn} (hl : p.phase = .connected l) (hi : InOrd i)
    (hk : ∀ ok, i ≠ .tick ok) (ht : ∀ t pl q r ok, i = .publish t pl q r ok → ValidTopic t) : Says p (p.act l i) := by
  have ho : (p.act l i).outgoing = p.outgoing ++ ((l.step i).2.sent).toList := by
    have e1 : (p.act l i).opts = p.opts := rfl
    have e2 : (p.act l i).history = p.history ++ [(i, (l.step i).2)] := rfl
    unfold Peer.outgoing Peer.sents
    rw [e1, e2, List.filterMap_append]
    cases hs : (l.step i).2.sent <;> simp [hs]
  have hso : (p.act l i).socketOpen = (l.step i).1.running := rfl
  have hs0 : p.socketOpen = l.running := by simp [Peer.socketOpen, hl]
  refine ⟨⟨_, ho, ?_, ?_⟩, ?_⟩
  · cases hs : (l.step i).2.sent with
    | none => exact Or.inl (by simp)
    | some q =>
      rcases step_parting hi hk ht hs with h | ⟨⟨x, rfl⟩, h⟩
      · exact Or.inl (by simpa using h)
      · exact Or.inr ⟨⟨x, rfl⟩, by rw [hso]; exact h⟩
  · intro h
    rw [(step_silent (by rw [← hs0]; exact h) i).1]; rfl
  · intro h
    rw [hso]; exact (step_silent (by rw [← hs0]; exact h) i).2

theorem move_says {m : Mode} {σ : System} {c : Nat} {p p' : Peer} {e : SysEvent} (h : PeerMove m σ c p e p')
    (he : e.Ordinary) (hk : e.Kept c) : Says p p' := by
  have recv : ∀ (p0 : Peer) (r : ReadOut) (ok : Bool), p0.phase = p.phase → p0.history = p.history → p0.opts = p.opts →
      p.reading = true → Says p (p0.receive r ok) := by
    intro p0 r ok h1 h2 h3 hr
    have hso : p0.socketOpen = p.socketOpen := by unfold Peer.socketOpen; rw [h1]
    have hout : p0.outgoing = p.outgoing := by unfold Peer.outgoing Peer.sents; rw [h2, h3]
    unfold Peer.receive
    split
    · rename_i hc
      refine ⟨⟨[], ?_, Or.inl (by simp), fun _ => rfl⟩, fun h => ?_⟩
      · rw [List.append_nil, ← hout]; rfl
      · rw [← hso] at h; simp [Peer.socketOpen, hc] at h
    · rename_i l hc
      obtain ⟨a, b⟩ := act_says (i := .read r ok) hc trivial (by simp) (by simp)
      rw [hout, hso] at a
      rw [hso] at b
      exact ⟨a, b⟩
    · rename_i hc
      rw [h1] at hc
      simp [Peer.reading, hc] at hr
  cases h with
  | read => exact ⟨⟨[], by simp [Peer.outgoing, Peer.sents], Or.inl (by simp), fun _ => rfl⟩, id⟩
  | turn hr _ => exact recv _ _ _ rfl rfl rfl hr
  | lost hr _ => exact recv _ _ _ rfl rfl rfl hr
  | timeout => exact ⟨⟨[], by simp [Peer.outgoing, Peer.sents], Or.inl (by simp), fun _ => rfl⟩, fun _ => rfl⟩
  | app hl hi =>
    refine act_says hl (inOrd_app he) ?_ ?_
    · rintro ok rfl
      exact hk rfl
    rintro t pl q r ok rfl
    exact hk rfl

/-! ## The server -/

/-- The client has not pinged, and the packets the server has not acted on yet do not end the connection, except
for a last DISCONNECT; the keep-alive is not 0. -/
def Parting (c : Nat) (p : Peer) (es : List Event) : Prop :=
  Packet.pingReq ∉ p.outgoing ∧ p.opts.keepAlive ≠ 0 ∧ ∃ F D, p.outgoing.drop (packetsOf c es).length = F ++ D ∧ (∀ q ∈ F, Fine q) ∧
    (D = [] ∨ (∃ x, D = [.disconnect x]) ∧ p.socketOpen = false)

theorem Parting.grow {c : Nat} {p p' : Peer} {es ex : List Event} (h : Parting c p es) (hs : Says p p')
    (hle : (packetsOf c es).length ≤ p.outgoing.length) : Parting c p' (es ++ ex) := by
  obtain ⟨hnp, hka, F, D, e, hF, hD⟩ := h
  obtain ⟨⟨N, hN, hN1, hN2⟩, hd⟩ := hs
  refine ⟨fun hx => ?_, by rw [outgoing_keepAlive hN]; exact hka, ?_⟩
  · rw [hN] at hx
    rcases List.mem_append.mp hx with hx | hx
    · exact hnp hx
    · rcases hN1 with h | ⟨⟨x, rfl⟩, _⟩
      · exact h _ hx
      · simp at hx
  have e1 : p'.outgoing.drop (packetsOf c (es ++ ex)).length = (F ++ D ++ N).drop (packetsOf c ex).length := by
    rw [hN, packetsOf_append, List.length_append, ← List.drop_drop, List.drop_append_of_le_length hle, e]
  rw [e1]
  have cut : ∀ (A B : List Packet) (k : Nat), (∀ q ∈ A, Fine q) →
      (B = [] ∨ (∃ x, B = [.disconnect x]) ∧ p'.socketOpen = false) →
      ∃ F D, (A ++ B).drop k = F ++ D ∧ (∀ q ∈ F, Fine q) ∧
        (D = [] ∨ (∃ x, D = [.disconnect x]) ∧ p'.socketOpen = false) := by
    intro A B k hA hB
    refine ⟨A.drop k, B.drop (k - A.length), List.drop_append, fun q hq => hA q (List.mem_of_mem_drop hq), ?_⟩
    rcases hB with rfl | ⟨⟨x, rfl⟩, h⟩
    · exact Or.inl (by simp)
    · cases hj : k - A.length with
      | zero => exact Or.inr ⟨⟨x, rfl⟩, h⟩
      | succ j => exact Or.inl (by simp)
  rcases hD with rfl | ⟨hx, hc⟩
  · rw [List.append_nil]
    rcases hN1 with hN1 | hN1
    · have := cut (F ++ N) [] (packetsOf c ex).length
        (fun q hq => (List.mem_append.mp hq).elim (hF q) (hN1 q)) (Or.inl rfl)
      rwa [List.append_nil] at this
    · exact cut F N _ hF (Or.inr hN1)
  · rw [hN2 hc, List.append_nil]
    exact cut F D _ hF (Or.inr ⟨hx, hd hc⟩)

/-- If the server has acted on everything but a DISCONNECT, the broker has everything. -/
theorem SysInv.all_heard {cfg : AuthConfig} {σ : System} {es : List Event} (h : SysInv cfg σ es) {c : Nat} {p : Peer}
    {w : Wire} (hp : σ.peers.get c = some p) (hw : σ.net.wires.get c = some w) (hr : w.running = true)
    (hb : w.begun = true) (hrest : (p.outgoing.drop (packetsOf c es).length).filterMap pubOf = []) :
    byClient c (callsPub (Server.run cfg Server.init es).world.log) = p.published := by
  have ho : (Server.run cfg Server.init es).isOpen c := by
    rw [← h.net.server]; exact (h.net.opened c).mpr ⟨w, hw, hr, hb⟩
  obtain ⟨k, hk⟩ := h.packets hp
  have hlen : p.outgoing.take k = p.outgoing.take (packetsOf c es).length := by
    rw [hk, List.length_map, List.length_take, ← List.take_take, List.take_length]
  rw [(h.log c).2 ho, ← outgoing_published (h.peer c p hp), hk, filterMap_pubOf, hlen]
  conv => rhs; rw [← List.take_append_drop (packetsOf c es).length p.outgoing, List.filterMap_append, hrest]
  rw [List.append_nil]

/-- Why the server ends a connection. -/
theorem quits {m : Mode} {cfg : AuthConfig} {σ : System} {es : List Event} (h : SysInv cfg σ es) {c : Nat}
    {p : Peer} {w w' : Wire} (hp : σ.peers.get c = some p) (hw : σ.net.wires.get c = some w)
    (hr : w.running = true) (hb : w.begun = true) (hpart : Parting c p es) {e : SysEvent}
    (hk : e.Kept c) (hw' : (σ.step m cfg e).net.wires.get c = some w') (hr' : w'.running = false) :
    (p.outgoing.drop (packetsOf c es).length).filterMap pubOf = [] ∧ p.socketOpen = false := by
  have same : (σ.step m cfg e).net.wires.get c = σ.net.wires.get c → False := by
    intro h; rw [hw', hw] at h; cases h; rw [hr] at hr'; cases hr'
  have runs : (∃ w', (σ.step m cfg e).net.wires.get c = some w' ∧ w'.running = true) → False := by
    rintro ⟨w2, h, h2⟩; rw [hw'] at h; cases h; rw [h2] at hr'; cases hr'
  have onPeer : ∀ d f, (∀ p, (f p).net = σ.net) → (System.onPeer σ d f).net = σ.net := by
    intro d f hf; unfold System.onPeer; split
    · rfl
    · exact hf _
  cases e with
  | connect d o =>
    refine (same ?_).elim
    simp only [System.step]
    split
    · rename_i b h1 h2
      have hd : d ≠ c := by rintro rfl; rw [hp] at h1; cases h1
      exact net_other hd
    · rfl
  | serverRead d n =>
    by_cases hd : d = c
    · subst hd
      simp only [System.step, System.onPeer, hp] at same runs
      cases hbs : (σ.upstream d p).take (min n (2 ^ 31)) with
      | nil =>
        rw [hbs] at same runs
        cases hx : (σ.upstream d p).isEmpty && !p.socketOpen with
        | false => rw [hx] at same; exact (same rfl).elim
        | true =>
          rw [Bool.and_eq_true, Bool.not_eq_true'] at hx
          have hu : σ.upstream d p = [] := List.isEmpty_iff.mp hx.1
          have hrc : w.rcvd = p.wrote := by
            obtain ⟨t, ht⟩ := h.up d p w hp hw
            simp only [System.upstream, hw, ← ht, List.drop_left] at hu
            rw [← ht, hu, List.append_nil]
          cases hn : parsePacket m w.buf with
          | needMore =>
            have := (h.quiet hp hw hr hrc (h.empty hp hw hr hpart.1 hrc hn)).1
            rw [this, List.length_map, List.drop_length]
            exact ⟨rfl, hx.2⟩
          | _ =>
            rw [if_pos (by rw [Bool.and_eq_true, Bool.not_eq_true']; exact hx)] at same
            exact (same (by simp only [Net.step, Net.onWire, hw, hr, if_true, hn])).elim
      | cons b bs =>
        rw [hbs] at runs
        refine (runs ?_).elim
        simp only [Net.step, Net.onWire, hw, hr, if_true]
        split
        · exact ⟨{ w with buf := w.buf ++ b :: bs, rcvd := w.rcvd ++ b :: bs }, by
            simp [Map.get_insert, hr], hr⟩
        · exact ⟨w, hw, hr⟩
    · refine (same ?_).elim
      simp only [System.step, System.onPeer]
      repeat' split
      all_goals first
        | rfl
        | exact net_other hd
  | serverTurn d u b =>
    by_cases hd : d = c
    · subst hd
      obtain ⟨hnp, hka, F, D, hdrop, hF, hD⟩ := hpart
      have hnext : p.outgoing[(packetsOf d es).length]? = (F ++ D)[0]? := by
        rw [← hdrop, List.getElem?_drop, Nat.add_zero]
      cases F with
      | cons q F =>
        refine (runs ?_).elim
        obtain ⟨w2, a, b, _⟩ := turn_runs (m := m) h hp hw hr hb (fun hx => hnp (List.mem_of_mem_take hx)) (by
          intro x hx
          rw [hnext] at hx
          simp only [List.cons_append, List.getElem?_cons_zero, Option.some.injEq] at hx
          subst hx
          exact hF q (by simp)) hka u b
        exact ⟨w2, a, b⟩
      | nil =>
        rcases hD with rfl | ⟨⟨x, rfl⟩, hc⟩
        · refine (runs ?_).elim
          obtain ⟨w2, a, b, _⟩ := turn_runs (m := m) h hp hw hr hb (fun hx => hnp (List.mem_of_mem_take hx)) (by
            intro x hx
            rw [hnext] at hx
            cases hx) hka u b
          exact ⟨w2, a, b⟩
        · rw [hdrop]
          exact ⟨rfl, hc⟩
    · exact (same (net_other hd)).elim
  | deliver d f =>
    by_cases hd : d = c
    · subst hd
      refine (runs ?_).elim
      have ho : σ.net.server.isOpen d := (h.net.opened d).mpr ⟨w, hw, hr, hb⟩
      have hreach : Server.Reachable cfg σ.net.server := ⟨es, h.net.server⟩
      have e : σ.net.step m cfg (.deliver d f) = σ.net.act cfg d w (.deliver d f) := by
        simp only [Net.step, Net.onWire, hw, hr, if_true, hb]
      obtain ⟨w', a, b, _⟩ := act_runs (cfg := cfg) (n := σ.net) (c := d) (w := w) (deliver_stays hreach h.tame f ho)
        (fun x hx => (deliver_out cfg hreach h.tame d f .v5 x hx).2) rfl
      refine ⟨w', ?_, b⟩
      show (σ.net.step m cfg (.deliver d f)).wires.get d = _
      rw [e]; exact a
    · exact (same (net_other hd)).elim
  | serverClose d => exact (same (net_other hk)).elim
  | clientRead d n =>
    refine (same ?_).elim
    simp only [System.step]
    rw [onPeer]
    intro p
    repeat' split
    all_goals rfl
  | clientTurn d ok =>
    refine (same ?_).elim
    simp only [System.step]
    rw [onPeer]
    intro p
    repeat' split
    all_goals rfl
  | clientError d =>
    refine (same ?_).elim
    simp only [System.step]
    rw [onPeer]
    intro p
    repeat' split
    all_goals rfl
  | timeout d =>
    refine (same ?_).elim
    simp only [System.step]
    rw [onPeer]
    intro p
    repeat' split
    all_goals rfl
  | app d i =>
    refine (same ?_).elim
    simp only [System.step]
    rw [onPeer]
    intro p
    repeat' split
    all_goals rfl

/-! ## One event, and all of them -/

/-- The server listens to client `c`, or it is done with it and got everything. -/
def Heeded (cfg : AuthConfig) (c : Nat) (σ : System) (es : List Event) : Prop :=
  ∃ p w, σ.peers.get c = some p ∧ σ.net.wires.get c = some w ∧ w.begun = true ∧
    ((w.running = true ∧ Parting c p es) ∨ (w.running = false ∧ p.socketOpen = false ∧
      byClient c (callsPub (Server.run cfg Server.init es).world.log) = p.published))

theorem step_says {m : Mode} {cfg : AuthConfig} {σ : System} {e : SysEvent} {c : Nat} {p p' : Peer}
    (he : e.Ordinary) (hk : e.Kept c) (hp : σ.peers.get c = some p) (hp' : (σ.step m cfg e).peers.get c = some p') :
    Says p p' := by
  have hm := moves m cfg σ e
  generalize σ.step m cfg e = σ' at *
  cases hm with
  | idle => rw [hp] at hp'; cases hp'; exact .refl p
  | net => rw [hp] at hp'; cases hp'; exact .refl p
  | @connect d o b hd _ =>
    have hdc : d ≠ c := by rintro rfl; rw [hp] at hd; cases hd
    simp only [Map.get_insert, if_neg hdc] at hp'
    rw [hp] at hp'; cases hp'; exact .refl p
  | @peer _ d p0 p2 hd hm =>
    have e2 : (σ.peers.insert d p2).get c = some p' := hp'
    by_cases hdc : d = c
    · subst hdc
      rw [hp] at hd; cases hd
      rw [Map.get_insert, if_pos rfl] at e2; cases e2
      exact move_says hm he hk
    · rw [Map.get_insert, if_neg hdc, hp] at e2; cases e2; exact .refl p

theorem act_noPing {p : Peer} {l : Client} {i : ClientIn} (hi : ∀ ok, i ≠ .tick ok)
    (hn : Packet.pingReq ∉ p.outgoing) : Packet.pingReq ∉ (p.act l i).outgoing := by
  have e1 : (p.act l i).opts = p.opts := rfl
  have e2 : (p.act l i).history = p.history ++ [(i, (l.step i).2)] := rfl
  unfold Peer.outgoing Peer.sents at hn ⊢
  rw [e1, e2, List.filterMap_append]
  intro hx
  simp only [List.mem_cons, List.mem_append] at hx hn
  rcases hx with hx | hx | hx
  · exact hn (Or.inl hx)
  · exact hn (Or.inr hx)
  · cases hs : (l.step i).2.sent with
    | none => simp [hs] at hx
    | some q =>
      simp only [List.filterMap_cons, hs, List.filterMap_nil, List.mem_singleton] at hx
      subst hx
      obtain ⟨ok, e⟩ := step_ping hs
      exact hi ok e

/-- A client whose ping timer does not tick does not ping. -/
theorem step_noPing {m : Mode} {cfg : AuthConfig} {σ : System} {e : SysEvent} {c : Nat} {p p' : Peer}
    (he : ∀ ok, e ≠ .app c (.tick ok)) (hp : σ.peers.get c = some p) (hp' : (σ.step m cfg e).peers.get c = some p')
    (hn : Packet.pingReq ∉ p.outgoing) : Packet.pingReq ∉ p'.outgoing := by
  have hm := moves m cfg σ e
  generalize σ.step m cfg e = σ' at *
  cases hm with
  | idle => rw [hp] at hp'; cases hp'; exact hn
  | net => rw [hp] at hp'; cases hp'; exact hn
  | @connect d o b hd _ =>
    have hdc : d ≠ c := by rintro rfl; rw [hp] at hd; cases hd
    simp only [Map.get_insert, if_neg hdc] at hp'
    rw [hp] at hp'; cases hp'; exact hn
  | @peer _ d p0 p2 hd hm =>
    have e2 : (σ.peers.insert d p2).get c = some p' := hp'
    by_cases hdc : d = c
    · subst hdc
      rw [hp] at hd; cases hd
      rw [Map.get_insert, if_pos rfl] at e2; cases e2
      have recv : ∀ (p0 : Peer) (r : ReadOut) (ok : Bool), Packet.pingReq ∉ p0.outgoing →
          Packet.pingReq ∉ (p0.receive r ok).outgoing := by
        intro p0 r ok h
        unfold Peer.receive
        split
        · exact h
        · exact act_noPing (by simp) h
        · exact h
      cases hm with
      | read => exact hn
      | turn => exact recv _ _ _ hn
      | lost => exact recv _ _ _ hn
      | timeout => exact hn
      | app =>
        refine act_noPing ?_ hn
        rintro ok rfl
        exact he ok rfl
    · rw [Map.get_insert, if_neg hdc, hp] at e2; cases e2; exact hn

theorem heeded_step {m : Mode} {cfg : AuthConfig} {σ : System} {es : List Event} (h : SysInv cfg σ es) {c : Nat}
    {e : SysEvent} (he : e.Ordinary) (hk : e.Kept c) {ex : List Event} (hg : Grows m cfg σ (σ.step m cfg e) ex)
    (h1 : SysInv cfg (σ.step m cfg e) (es ++ ex)) (hh : Heeded cfg c σ es) :
    Heeded cfg c (σ.step m cfg e) (es ++ ex) := by
  obtain ⟨p, w, hp, hw, hb, hcase⟩ := hh
  obtain ⟨p', w', hp', hw', hev⟩ := step_evolved (moves m cfg σ e) hg hp hw
  have hs := step_says he hk hp hp'
  refine ⟨p', w', hp', hw', hev.begun hb, ?_⟩
  -- what the broker has got is all there is
  have all : byClient c (callsPub (Server.run cfg Server.init es).world.log) = p.published → p.socketOpen = false →
      p'.socketOpen = false ∧
        byClient c (callsPub (Server.run cfg Server.init (es ++ ex)).world.log) = p'.published := by
    intro a b
    obtain ⟨⟨N, hN, _, hN2⟩, hd⟩ := hs
    have hpub : p'.published = p.published := by
      rw [← outgoing_published (h1.peer c p' hp'), hN, hN2 b, List.append_nil, outgoing_published (h.peer c p hp)]
    refine ⟨hd b, ?_⟩
    have hle := h1.logged hp'
    obtain ⟨cs, hcs⟩ := log_run cfg (Server.run cfg Server.init es) ex
    have erun : Server.run cfg Server.init (es ++ ex) = (Server.run cfg Server.init es).run cfg ex := by
      simp [Server.run]
    rw [← erun] at hcs
    rw [hcs, callsPub_append, byClient_append, a, hpub] at hle ⊢
    have := hle.length_le
    rw [List.length_append] at this
    rw [List.eq_nil_of_length_eq_zero (Nat.le_zero.mp (Nat.le_of_add_le_add_left (a := p.published.length) this)),
      List.append_nil]
  rcases hcase with ⟨hr, hpart⟩ | ⟨hr, hc, ha⟩
  · cases hr' : w'.running with
    | true => exact Or.inl ⟨rfl, hpart.grow hs (h.packets_le hp)⟩
    | false =>
      obtain ⟨q1, q2⟩ := quits h hp hw hr hb hpart hk hw' hr'
      exact Or.inr ⟨rfl, all (h.all_heard hp hw hr hb q1) q2⟩
  · refine Or.inr ⟨?_, all ha hc⟩
    rcases hg with ⟨_, hn⟩ | ⟨ne, _, hn⟩
    · rw [hn, hw] at hw'; cases hw'; exact hr
    · rw [hn] at hw'
      rcases wire_step m cfg σ.net ne c with ⟨a, _⟩ | ⟨w1, w2, a, b, hs⟩
      · rw [hw] at a; cases a
      · rw [hw] at a; cases a
        rw [hw'] at b; cases b
        cases hr' : w'.running with
        | false => rfl
        | true => rw [hs.running hr'] at hr; cases hr

theorem heeded_run {m : Mode} {cfg : AuthConfig} {c : Nat} (evs : List SysEvent) (hord : ∀ e ∈ evs, e.Ordinary)
    (hk : ∀ e ∈ evs, e.Kept c) : ∀ {σ : System} {es : List Event}, SysInv cfg σ es → Heeded cfg c σ es →
      ∃ ext, SysInv cfg (σ.run m cfg evs) (es ++ ext) ∧ Heeded cfg c (σ.run m cfg evs) (es ++ ext) := by
  induction evs with
  | nil => intro σ es h hh; exact ⟨[], by rw [List.append_nil]; exact h, by rw [List.append_nil]; exact hh⟩
  | cons e evs ih =>
    intro σ es h hh
    obtain ⟨ex, hg, h1⟩ := h.step (hord e (by simp)) (moves m cfg σ e)
    obtain ⟨ext, a, b⟩ := ih (fun x hx => hord x (by simp [hx])) (fun x hx => hk x (by simp [hx])) h1
      (heeded_step h (hord e (by simp)) (hk e (by simp)) hg h1 hh)
    exact ⟨ex ++ ext, by rw [← List.append_assoc]; exact a, by rw [← List.append_assoc]; exact b⟩

/-- Once the server is done with a client, or has acted on everything it wrote, the broker has everything its
application published. -/
theorem Heeded.all {cfg : AuthConfig} {σ : System} {es : List Event} (h : SysInv cfg σ es) {c : Nat}
    (hh : Heeded cfg c σ es) {p : Peer} {w : Wire} (hp : σ.peers.get c = some p) (hw : σ.net.wires.get c = some w)
    (hq : w.running = false ∨ w.rcvd = p.wrote ∧ w.buf = []) :
    byClient c (callsPub (Server.run cfg Server.init es).world.log) = p.published := by
  obtain ⟨p0, w0, hp0, hw0, hb, hcase⟩ := hh
  rw [hp] at hp0; cases hp0
  rw [hw] at hw0; cases hw0
  rcases hcase with ⟨hr, hpart⟩ | ⟨_, _, ha⟩
  · rcases hq with hq | ⟨q1, q2⟩
    · rw [hr] at hq; cases hq
    · refine h.all_heard hp hw hr hb ?_
      rw [(h.quiet hp hw hr q1 q2).1, List.length_map, List.drop_length]; rfl
  · exact ha

end Mercurio
