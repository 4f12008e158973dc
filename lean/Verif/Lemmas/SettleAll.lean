import Verif.Lemmas.Settle

/-!
# The whole system: everything in transit can arrive, on several connections
-/

namespace Mercurio

open Spec Server

/-! ## Steps on one connection leave the others alone -/

theorem onWire_other {n : Net} {c d : Nat} (hd : d ≠ c) {f : Wire → Net}
    (h : ∀ w, (f w).wires.get d = n.wires.get d) : (n.onWire c f).wires.get d = n.wires.get d := by
  unfold Net.onWire
  split
  · rfl
  · split
    · exact h _
    · rfl

theorem act_wire_other {cfg : AuthConfig} {n : Net} {c d : Nat} (hd : d ≠ c) (w : Wire) (e : Event) :
    (n.act cfg c w e).wires.get d = n.wires.get d := by
  simp only [Net.act, Map.get_insert, if_neg (Ne.symm hd)]

theorem data_other {m : Mode} {cfg : AuthConfig} {n : Net} {c d : Nat} (hd : d ≠ c) (b : Buf) :
    (n.step m cfg (.data c b)).wires.get d = n.wires.get d := by
  simp only [Net.step]
  refine onWire_other hd fun w => ?_
  split
  · split
    · exact act_wire_other hd _ _
    · simp only [Map.get_insert, if_neg (Ne.symm hd)]
  · rfl

theorem turn_other {m : Mode} {cfg : AuthConfig} {n : Net} {c d : Nat} (hd : d ≠ c) (u : Str) (b : Bool) :
    (n.step m cfg (.turn c u b)).wires.get d = n.wires.get d := by
  simp only [Net.step]
  refine onWire_other hd fun w => ?_
  split <;> first | rfl | exact act_wire_other hd _ _

theorem Own.wires {m : Mode} {cfg : AuthConfig} {σ : System} {c : Nat} {e : SysEvent} (h : e.Own c) {d : Nat}
    (hd : d ≠ c) : (σ.step m cfg e).net.wires.get d = σ.net.wires.get d := by
  cases e with
  | serverRead x n =>
    cases h
    simp only [System.step, System.onPeer]
    repeat' split
    all_goals first | rfl | exact data_other hd _
  | serverTurn x u b =>
    obtain ⟨rfl, _⟩ := h
    exact turn_other hd u b
  | deliver x f =>
    cases h
    simp only [System.step, Net.step]
    refine onWire_other hd fun w => ?_
    split
    · exact act_wire_other hd _ _
    · rfl
  | clientRead x n =>
    simp only [System.step, System.onPeer]
    repeat' split
    all_goals rfl
  | clientTurn x ok =>
    simp only [System.step, System.onPeer]
    repeat' split
    all_goals rfl
  | app x i =>
    simp only [System.step, System.onPeer]
    repeat' split
    all_goals rfl
  | _ => exact h.elim

theorem Own.harmless_all {c d : Nat} {e : SysEvent} (h : e.Own c) : e.Harmless d := by
  cases e with
  | app x i => obtain ⟨_, rfl⟩ := h; trivial
  | connect => exact h.elim
  | serverClose => exact h.elim
  | clientError => exact h.elim
  | _ => trivial

theorem Own.readOk {m : Mode} {cfg : AuthConfig} {σ : System} {c : Nat} {e : SysEvent} (h : e.Own c) {d : Nat}
    (hd : d ≠ c) : ReadOk m cfg d σ e := by
  refine readOk_other ?_
  rintro n rfl
  exact hd h

theorem Own.ok_all {c d : Nat} {e : SysEvent} (h : e.Own c) : e ≠ .clientTurn d false := by
  rintro rfl; cases h.2

/-- Nothing changes for a client when something happens on the connection of another. -/
theorem Live.other_on {m : Mode} {cfg : AuthConfig} {c d : Nat} {σ : System} {es es' : List Event} {p p' : Peer}
    {w w' : Wire} (h : Live cfg d σ es p w) (hc : Live cfg c σ es' p' w') (hd : d ≠ c) {e : SysEvent}
    (he : e.Own c) {ex : List Event} (hg : Grows m cfg σ (σ.step m cfg e) ex)
    (h1 : SysInv cfg (σ.step m cfg e) (es ++ ex)) : Live cfg d (σ.step m cfg e) (es ++ ex) p w := by
  have hm := moves m cfg σ e
  obtain ⟨k, hdn⟩ := h.down
  obtain ⟨p1, w1, N, u1, u2, u3, u4⟩ :=
    up_step (m := m) h.inv h.up h.begun h.pend hdn (Own.ordinary he) (Own.ok_all he) (Own.harmless_all he)
  have ep := u1.peer
  rw [Own.others he hd, h.up.peer, Option.some.injEq] at ep
  have ew := u1.wire
  rw [Own.wires he hd, h.up.wire, Option.some.injEq] at ew
  subst ep ew
  refine ⟨h1, u1, u2, h.pend.grow (h.inv.packets_le h.up.peer) N u3 u4,
    tracked_step h.inv h1 hm rfl hg (Own.readOk he hd) (Own.ok_all he) (Or.inl rfl) h.tracked, ?_,
    gotSent_step h.inv h.got e⟩
  intro x q hx hq hcid
  by_cases hxc : x = c
  · subst hxc
    obtain ⟨p2, w2, a, _, hev⟩ := step_evolved hm hg hc.up.peer hc.up.wire
    rw [hq, Option.some.injEq] at a
    subst a
    have := h.apart x p' hx hc.up.peer (by unfold Peer.clientId at hcid ⊢; rw [hev.opts] at hcid; exact hcid)
    rw [hev.opts]; exact this
  · rw [Own.others he hxc] at hq
    exact h.apart x q hx hq hcid

theorem Live.other {m : Mode} {cfg : AuthConfig} {c d : Nat} {σ : System} {es es' : List Event} {p p' : Peer}
    {w w' : Wire} (h : Live cfg d σ es p w) (hc : Live cfg c σ es' p' w') (hd : d ≠ c) {e : SysEvent}
    (he : e.Own c) : ∃ ex, Live cfg d (σ.step m cfg e) (es ++ ex) p w := by
  obtain ⟨ex, hg, h1⟩ := h.inv.step (Own.ordinary he) (moves m cfg σ e)
  exact ⟨ex, h.other_on hc hd he hg h1⟩

theorem Live.unshared {cfg : AuthConfig} {c d : Nat} {σ : System} {es : List Event} {p : Peer} {w : Wire}
    (h : Live cfg d σ es p w) (hd : d ≠ c) : ¬ σ.net.server.shares d c := by
  have e : σ.net.server = Server.run cfg Server.init es := h.inv.net.server
  rw [e]
  exact (h.inv.solo h.up.peer h.apart).apart es (Ne.symm hd)

theorem Touched.tree {c : Nat} {srv srv' : Server} (h : Touched c srv srv') :
    srv'.world.broker.tree = srv.world.broker.tree := by
  obtain ⟨k, s, g, _, rfl⟩ := h
  rfl

theorem Touched.other {c d : Nat} {srv srv' : Server} (h : Touched c srv srv') (hs : ¬ srv.shares d c) :
    srv'.at d = srv.at d := by
  obtain ⟨k, s, g, hk, rfl⟩ := h
  unfold Server.at
  show (match srv.conns.get d with | some k' => (srv.heap.insert k.session s).get k'.session | none => none) = _
  cases hd : srv.conns.get d with
  | none => rfl
  | some k' =>
    simp only [Map.get_insert]
    rw [if_neg]
    intro e
    exact hs ⟨k', k, hd, hk, e.symm⟩

theorem Touched.waiting {c d : Nat} {srv srv' : Server} (h : Touched c srv srv') (hs : ¬ srv.shares d c) :
    Mercurio.waiting d srv' = Mercurio.waiting d srv := by
  funext f
  unfold Mercurio.waiting
  rw [h.other hs, h.tree]

theorem Live.session {cfg : AuthConfig} {c : Nat} {σ : System} {es : List Event} {p : Peer} {w : Wire}
    (h : Live cfg c σ es p w) : ∃ s, σ.net.server.at c = some s :=
  at_of_isOpen (show Server.Reachable cfg σ.net.server from ⟨es, h.inv.net.server⟩).inv
    ((h.inv.net.opened c).mpr ⟨w, h.up.wire, h.up.server, h.begun⟩)

/-! ## Step by step -/

/-- Getting there step by step, on all connections of `C`. -/
theorem progressAll {m : Mode} {cfg : AuthConfig} (C : List Nat)
    (X : Nat → System → List Event → Peer → Wire → Prop) (Done : Nat → System → Prop) (μ : Nat → System → Nat)
    (Kind : Nat → System → System → Prop)
    (own : ∀ c ∈ C, ∀ σ es p w, Live cfg c σ es p w → X c σ es p w → Done c σ ∨
      ∃ e : SysEvent, e.Own c ∧ ReadOk m cfg c σ e ∧ (∃ es' p' w', Live cfg c (σ.step m cfg e) es' p' w' ∧
        X c (σ.step m cfg e) es' p' w') ∧ μ c (σ.step m cfg e) < μ c σ ∧ Kind c σ (σ.step m cfg e))
    (other : ∀ c d, d ∈ C → d ≠ c → ∀ (e : SysEvent) σ es ex p w, e.Own c → Live cfg d σ es p w →
      X d σ es p w → Kind c σ (σ.step m cfg e) → Live cfg d (σ.step m cfg e) (es ++ ex) p w →
      X d (σ.step m cfg e) (es ++ ex) p w ∧ μ d (σ.step m cfg e) = μ d σ)
    (σ : System) (h : ∀ c ∈ C, ∃ es p w, Live cfg c σ es p w ∧ X c σ es p w) :
    ∃ evs : List SysEvent, (∀ e ∈ evs, ∃ c ∈ C, e.Own c) ∧ (∀ c ∈ C, ReadsWell m cfg c σ evs) ∧
      ∀ c ∈ C, (∃ es p w, Live cfg c (σ.run m cfg evs) es p w ∧ X c (σ.run m cfg evs) es p w) ∧
        Done c (σ.run m cfg evs) := by
  generalize hn : (C.map (fun c => μ c σ)).sum = n
  induction n using Nat.strongRecOn generalizing σ with
  | ind n ih =>
    by_cases hall : ∀ c ∈ C, Done c σ
    · exact ⟨[], by simp, fun _ _ => trivial, fun c hc => ⟨h c hc, hall c hc⟩⟩
    obtain ⟨c, hnot⟩ := Classical.not_forall.mp hall
    obtain ⟨hc, hnd⟩ := Classical.not_imp.mp hnot
    obtain ⟨es, p, w, hl, hx⟩ := h c hc
    rcases own c hc σ es p w hl hx with hd | ⟨e, h1, h2, h3, h4, h5⟩
    · exact absurd hd hnd
    have hoth : ∀ d ∈ C, d ≠ c → (∃ es p w, Live cfg d (σ.step m cfg e) es p w ∧ X d (σ.step m cfg e) es p w) ∧
        μ d (σ.step m cfg e) = μ d σ := by
      intro d hd hdc
      obtain ⟨esd, pd, wd, hld, hxd⟩ := h d hd
      obtain ⟨ex, hl'⟩ := hld.other (m := m) hl hdc h1
      obtain ⟨a, b⟩ := other c d hd hdc e σ esd ex pd wd h1 hld hxd h5 hl'
      exact ⟨⟨_, pd, wd, hl', a⟩, b⟩
    obtain ⟨evs, a, b, c'⟩ := ih _ (by
      rw [← hn]
      refine sum_lt (a := fun d => μ d (σ.step m cfg e)) (b := fun d => μ d σ) (fun d hd => ?_) hc h4
      by_cases hdc : d = c
      · subst hdc; exact Nat.le_of_lt h4
      · exact Nat.le_of_eq (hoth d hd hdc).2) (σ.step m cfg e) (by
      intro d hd
      by_cases hdc : d = c
      · subst hdc; exact h3
      · exact (hoth d hd hdc).1) rfl
    refine ⟨e :: evs, ?_, ?_, c'⟩
    · intro x hx
      rcases List.mem_cons.mp hx with rfl | hx
      · exact ⟨c, hc, h1⟩
      · exact a x hx
    · intro d hd
      refine ⟨?_, Own.ok_all h1, b d hd⟩
      by_cases hdc : d = c
      · subst hdc; exact h2
      · exact Own.readOk h1 hdc

/-! ## The server reads and acts on everything -/

theorem upLeft_other {m : Mode} {cfg : AuthConfig} {σ : System} {c d : Nat} {e : SysEvent} (h : e.Own c) (hd : d ≠ c) :
    upLeft d (σ.step m cfg e) = upLeft d σ := by
  unfold upLeft
  rw [Own.others h hd, Own.wires h hd]

theorem settleAll_up (m : Mode) (cfg : AuthConfig) (C : List Nat) (σ : System)
    (h : ∀ c ∈ C, ∃ es p w, Live cfg c σ es p w) :
    ∃ evs : List SysEvent, (∀ e ∈ evs, ∃ c ∈ C, e.Own c) ∧ (∀ c ∈ C, ReadsWell m cfg c σ evs) ∧
      ∀ c ∈ C, ∃ es p w, Live cfg c (σ.run m cfg evs) es p w ∧ w.rcvd = p.wrote ∧ w.buf = [] := by
  refine Exists.imp ?_ (progressAll (m := m) (cfg := cfg) C (fun _ _ _ _ _ => True)
    (fun c σ => ∀ p w, σ.Up c p w → w.rcvd = p.wrote ∧ w.buf = []) upLeft (fun _ _ _ => True) ?_
    (fun c d _ hdc e σ es ex p w he _ _ _ _ => ⟨trivial, upLeft_other he hdc⟩) σ
    (fun c hc => by obtain ⟨es, p, w, hl⟩ := h c hc; exact ⟨es, p, w, hl, trivial⟩))
  · rintro evs ⟨a, b, g⟩
    refine ⟨a, b, fun c hc => ?_⟩
    obtain ⟨⟨es, p, w, hl, _⟩, hd⟩ := g c hc
    exact ⟨es, p, w, hl, hd p w hl.up⟩
  intro c hc σ es p w h _
  rcases h.upward (m := m) with hd | ⟨b, _, ht, e⟩ | ⟨q, b, rest, _, hb, hbuf, e⟩
  · left
    intro p' w' hu
    have e1 := hu.peer; rw [h.up.peer, Option.some.injEq] at e1
    have e2 := hu.wire; rw [h.up.wire, Option.some.injEq] at e2
    subst e1 e2
    exact hd
  · refine Or.inr ⟨.serverRead c 1, rfl, readOk_other (by simp), ?_, ?_, trivial⟩
    · obtain ⟨ex, p', w', hl, _⟩ := h.step (m := m) (e := .serverRead c 1) rfl (readOk_other (by simp))
      exact ⟨_, p', w', hl, trivial⟩
    · rw [e]; exact upLeft_read h.up.peer h.up.wire ht
  · have ho : (SysEvent.serverTurn c [] true).Own c := ⟨rfl, textField_nil⟩
    refine Or.inr ⟨.serverTurn c [] true, ho, readOk_other (by simp), ?_, ?_, trivial⟩
    · obtain ⟨ex, p', w', hl, _⟩ := h.step (m := m) ho (readOk_other (by simp))
      exact ⟨_, p', w', hl, trivial⟩
    · rw [e]; exact upLeft_turn h.up.peer h.up.wire hb hbuf

/-! ## The server sends what is waiting -/

/-- The filters a connection is subscribed to. -/
def filtersOf (srv : Server) (c : Nat) : List Str :=
  match srv.at c with
  | none => []
  | some s => s.subscriptions.map (·.1)

theorem settleAll_server (m : Mode) (cfg : AuthConfig) (C : List Nat) (σ : System)
    (h : ∀ c ∈ C, ∃ es p w, Live cfg c σ es p w ∧ w.rcvd = p.wrote ∧ w.buf = []) :
    ∃ evs : List SysEvent, (∀ e ∈ evs, ∃ c ∈ C, e.Own c) ∧ (∀ c ∈ C, ReadsWell m cfg c σ evs) ∧
      ∀ c ∈ C, (∃ es p w, Live cfg c (σ.run m cfg evs) es p w ∧ w.rcvd = p.wrote ∧ w.buf = []) ∧
        ∀ f, ((σ.run m cfg evs).net.server.step cfg (.deliver c f)).2 = {} := by
  refine Exists.imp ?_ (progressAll (m := m) (cfg := cfg) C
    (fun c τ _ p w => (w.rcvd = p.wrote ∧ w.buf = []) ∧
      ∀ s, τ.net.server.at c = some s → ∀ f st, s.subscriptions.get f = some st → f ∈ filtersOf σ.net.server c)
    (fun c τ => ∀ f, (τ.net.server.step cfg (.deliver c f)).2 = {})
    (fun c τ => ((filtersOf σ.net.server c).map (waiting c τ.net.server)).sum)
    (fun c τ τ' => Touched c τ.net.server τ'.net.server) ?_ ?_ σ ?_)
  · rintro evs ⟨a, b, g⟩
    refine ⟨a, b, fun c hc => ?_⟩
    obtain ⟨⟨es, p, w, hl, hx, _⟩, hd⟩ := g c hc
    exact ⟨⟨es, p, w, hl, hx⟩, hd⟩
  · rintro c hc τ es p w h ⟨⟨h1, h2⟩, hks⟩
    by_cases hg : ∀ f, (τ.net.server.step cfg (.deliver c f)).2 = {}
    · exact Or.inl hg
    right
    obtain ⟨f, hf⟩ := Classical.not_forall.mp hg
    obtain ⟨s, st, st', u, w', b1, b2, b3, b4, b5, b6, b7, b8, _, b9⟩ := h.sends (m := m) f hf
    refine ⟨.deliver c f, rfl, readOk_other (by simp), ?_, sum_lt (fun g _ => b7 g) (hks s b1 f st b2) b8, b9⟩
    obtain ⟨ex, p1, w1, hl, _⟩ := h.step (m := m) (e := .deliver c f) rfl (readOk_other (by simp))
    have e1 := hl.up.peer
    have e1' : (τ.step m cfg (.deliver c f)).peers.get c = some p := h.up.peer
    rw [e1'] at e1; cases e1
    have e2 := hl.up.wire
    rw [b4] at e2; cases e2
    refine ⟨_, p, w', hl, ⟨by rw [b5]; exact h1, by rw [b6]; exact h2⟩, ?_⟩
    intro s2 hs2 g stg hg
    rw [b3] at hs2; cases hs2
    simp only [Map.get_insert] at hg
    split at hg
    · rename_i hfg; subst hfg; exact hks s b1 f st b2
    · exact hks s b1 g stg hg
  · rintro c d hd hdc e τ es ex p w he h ⟨hx, hks⟩ ht _
    have hsh := h.unshared hdc
    refine ⟨⟨hx, ?_⟩, ?_⟩
    · rw [ht.other hsh]; exact hks
    · rw [ht.waiting hsh]
  · intro c hc
    obtain ⟨es, p, w, hl, hx⟩ := h c hc
    refine ⟨es, p, w, hl, hx, ?_⟩
    intro s hs f st hst
    unfold filtersOf
    rw [hs]
    exact key_mem hst

/-! ## The clients read and act on what the server wrote -/

theorem settleAll_client (m : Mode) (cfg : AuthConfig) (C : List Nat) (σ : System)
    (h : ∀ c ∈ C, ∃ es p w, Live cfg c σ es p w ∧ SmallPackets p.opts.protocolVersion w.sent ∧ PendingAcks c p es)
    (hid : ∀ c ∈ C, ∀ f, (σ.net.server.step cfg (.deliver c f)).2 = {}) :
    ∃ evs : List SysEvent, (∀ e ∈ evs, ∃ c ∈ C, e.Own c) ∧ (∀ c ∈ C, ReadsWell m cfg c σ evs) ∧
      ∀ c ∈ C, (∃ es p w, Live cfg c (σ.run m cfg evs) es p w ∧ PendingAcks c p es ∧ p.got = w.sent ∧
        clientParse m p.opts.protocolVersion p.buf = .needMore) ∧
        ∀ f, ((σ.run m cfg evs).net.server.step cfg (.deliver c f)).2 = {} := by
  refine Exists.imp ?_ (progressAll (m := m) (cfg := cfg) C
    (fun c τ es p w => τ.net = σ.net ∧ SmallPackets p.opts.protocolVersion w.sent ∧ PendingAcks c p es)
    (fun c τ => ∀ p w, τ.Up c p w → p.got = w.sent ∧ clientParse m p.opts.protocolVersion p.buf = .needMore)
    downLeft (fun _ τ τ' => τ'.net = τ.net) ?_ ?_ σ ?_)
  · rintro evs ⟨a, b, g⟩
    refine ⟨a, b, fun c hc => ?_⟩
    obtain ⟨⟨es, p, w, hl, hn, _, hpa⟩, hd⟩ := g c hc
    exact ⟨⟨es, p, w, hl, hpa, hd p w hl.up⟩, by rw [hn]; exact hid c hc⟩
  · rintro c hc τ es p w h ⟨hn, hs, hpa⟩
    rcases h.downward (m := m) hs with hd | ⟨e, p', N, h1, h2, h3, h4, h5, h6, _⟩
    · left
      intro p' w' hu
      have e1 := hu.peer; rw [h.up.peer, Option.some.injEq] at e1
      have e2 := hu.wire; rw [h.up.wire, Option.some.injEq] at e2
      subst e1 e2
      exact hd
    · right
      obtain ⟨ex, p1, w1, hl, hopts⟩ := h.step (m := m) h1 h2
      refine ⟨e, h1, h2, ⟨es ++ ex, p1, w1, hl, ?_, ?_, ?_⟩, by rw [h3]; exact h6, by rw [h3]; rfl⟩
      · rw [h3]; exact hn
      · have := hl.up.wire
        rw [h3] at this
        have this : τ.net.wires.get c = some w1 := this
        rw [h.up.wire] at this; cases this
        rw [hopts]; exact hs
      · have hpe : p1 = p' := by
          have := hl.up.peer
          rw [h3] at this
          have this : (τ.peers.insert c p').get c = some p1 := this
          rw [Map.get_insert, if_pos rfl] at this
          exact (Option.some.inj this).symm
        subst hpe
        exact hpa.grow (h.inv.packets_le h.up.peer) N h4 h5
  · rintro c d hd hdc e τ es ex p w he h ⟨hn, hs, hpa⟩ hk _
    refine ⟨⟨hk.trans hn, hs, hpa.grow (h.inv.packets_le h.up.peer) [] (by simp) (by simp)⟩, ?_⟩
    unfold downLeft
    rw [Own.others he hdc, Own.wires he hdc]
  · intro c hc
    obtain ⟨es, p, w, hl, hx⟩ := h c hc
    exact ⟨es, p, w, hl, rfl, hx⟩

/-! ## The server acts on the acknowledgements -/

theorem settleAll_acks (m : Mode) (cfg : AuthConfig) (C : List Nat) (σ : System)
    (h : ∀ c ∈ C, (∃ es p w, Live cfg c σ es p w ∧ PendingAcks c p es ∧ p.got = w.sent ∧
        clientParse m p.opts.protocolVersion p.buf = .needMore) ∧
        ∀ f, (σ.net.server.step cfg (.deliver c f)).2 = {}) :
    ∃ evs : List SysEvent, (∀ e ∈ evs, ∃ c ∈ C, e.Own c) ∧ (∀ c ∈ C, ReadsWell m cfg c σ evs) ∧
      ∀ c ∈ C, (∃ es p w, Live cfg c (σ.run m cfg evs) es p w) ∧ (σ.run m cfg evs).Quiet m cfg c ∧
        (σ.run m cfg evs).ServerDone cfg c := by
  refine Exists.imp ?_ (progressAll (m := m) (cfg := cfg) C
    (fun c τ es p w => (PendingAcks c p es ∧ p.got = w.sent ∧
        clientParse m p.opts.protocolVersion p.buf = .needMore) ∧
      ∀ f, (τ.net.server.step cfg (.deliver c f)).2 = {})
    (fun c τ => ∀ p w, τ.Up c p w → w.rcvd = p.wrote ∧ w.buf = []) upLeft
    (fun c τ τ' => τ'.net.server = τ.net.server ∨ Touched c τ.net.server τ'.net.server) ?_ ?_ σ ?_)
  · rintro evs ⟨a, b, g⟩
    refine ⟨a, b, fun c hc => ?_⟩
    obtain ⟨⟨es, p, w, hl, ⟨_, d2, d3⟩, d4⟩, hd⟩ := g c hc
    obtain ⟨x, y⟩ := hd p w hl.up
    exact ⟨⟨es, p, w, hl⟩, ⟨⟨p, w, hl.up, x, y⟩, p, w, hl.up, d4, d2, d3⟩, ⟨p, w, hl.up, x, y⟩, d4⟩
  · rintro c hc τ es p w h ⟨⟨hpa, hg, hn⟩, hid⟩
    rcases h.acked (m := m) hpa hid with hd | ⟨e, ex, w', h1, h2, h3, h4, h5, h6, h7, h8⟩
    · left
      intro p' w' hu
      have e1 := hu.peer; rw [h.up.peer, Option.some.injEq] at e1
      have e2 := hu.wire; rw [h.up.wire, Option.some.injEq] at e2
      subst e1 e2
      exact hd
    · exact Or.inr ⟨e, h1, readOk_other h2, ⟨_, p, w', h3, ⟨h4, by rw [h5]; exact hg, hn⟩, h6⟩, h7, h8⟩
  · rintro c d hd hdc e τ es ex p w he h ⟨⟨hpa, hg, hn⟩, hid⟩ hk _
    refine ⟨⟨⟨hpa.grow (h.inv.packets_le h.up.peer) [] (by simp) (by simp), hg, hn⟩, ?_⟩, upLeft_other he hdc⟩
    rcases hk with hk | hk
    · rw [hk]; exact hid
    · obtain ⟨s, hs⟩ := h.session
      intro f
      exact idle_of hs ((hk.other (h.unshared hdc)).trans hs) rfl hk.tree (hid f)
  · intro c hc
    obtain ⟨⟨es, p, w, hl, hx⟩, hid⟩ := h c hc
    exact ⟨es, p, w, hl, hx, hid⟩

end Mercurio
