import Verif.Lemmas.Alive
import Verif.Spec.Settle

/-!
# The whole system: everything in transit can arrive
-/

namespace Mercurio

open Spec Server

/-! ## Steps on one connection -/

/-- What a client has got is a first part of what the server sent. -/
def System.GotSent (σ : System) : Prop :=
  ∀ c p w, σ.peers.get c = some p → σ.net.wires.get c = some w → p.got <+: w.sent

theorem keeps_got {m : Mode} {σ : System} {c : Nat} {p p' : Peer} {e : SysEvent} (h : PeerMove m σ c p e p') :
    p'.got = p.got ∨ ∃ b, b <+: σ.downstream c p ∧ p'.got = p.got ++ b := by
  have rec_ : ∀ (p : Peer) r ok, (p.receive r ok).got = p.got := by
    intro p r ok
    unfold Peer.receive
    split <;> rfl
  cases h with
  | @read n b _ _ _ _ h => exact Or.inr ⟨b, h, rfl⟩
  | turn => exact Or.inl (rec_ _ _ _)
  | lost => exact Or.inl (rec_ _ _ _)
  | timeout => exact Or.inl rfl
  | app => exact Or.inl rfl

theorem gotSent_step {m : Mode} {cfg : AuthConfig} {σ : System} {es : List Event} (h : SysInv cfg σ es)
    (hg : σ.GotSent) (e : SysEvent) : (σ.step m cfg e).GotSent := by
  have net : ∀ (ne : NetEvent) c p w, σ.peers.get c = some p → (σ.net.step m cfg ne).wires.get c = some w →
      p.got <+: w.sent := by
    intro ne c p w hp hw
    rcases wire_step m cfg σ.net ne c with ⟨a, _⟩ | ⟨w1, w2, a, b, hs⟩
    · have := (h.ends c).mpr (by rw [hp]; rfl)
      rw [a] at this; cases this
    · rw [hw] at b; cases b
      exact (hg c p w1 hp a).trans hs.sent
  intro c p w hp hw
  have hm := moves m cfg σ e
  generalize σ.step m cfg e = σ' at hm hp hw
  cases hm with
  | idle => exact hg c p w hp hw
  | net => exact net _ c p w hp hw
  | @connect d o b hd _ =>
    by_cases hdc : d = c
    · subst hdc
      simp only [Map.get_insert, if_true, Option.some.injEq] at hp
      subst hp
      exact List.nil_prefix
    · simp only [Map.get_insert, if_neg hdc] at hp
      exact net _ c p w hp hw
  | @peer _ d p0 p2 hd hm =>
    have hp : (σ.peers.insert d p2).get c = some p := hp
    replace hw : σ.net.wires.get c = some w := hw
    by_cases hdc : d = c
    · subst hdc
      rw [Map.get_insert, if_pos rfl] at hp
      cases hp
      have h0 := hg d p0 w hd hw
      rcases keeps_got hm with e | ⟨b, hb, e⟩
      · rw [e]; exact h0
      · rw [e]
        simp only [System.downstream, hw] at hb
        obtain ⟨t, ht⟩ := h0
        rw [← ht, List.drop_left] at hb
        rw [← ht]
        exact (List.prefix_append_right_inj _).mpr hb
    · rw [Map.get_insert, if_neg hdc] at hp
      exact hg c p w hp hw

theorem gotSent_run {m : Mode} {cfg : AuthConfig} (evs : List SysEvent) (hord : ∀ e ∈ evs, e.Ordinary) :
    ∀ {σ : System} {es : List Event}, SysInv cfg σ es → σ.GotSent → (σ.run m cfg evs).GotSent := by
  induction evs with
  | nil => intro σ es _ h; exact h
  | cons e evs ih =>
    intro σ es h hg
    obtain ⟨ex, _, h1⟩ := h.step (hord e (by simp)) (moves m cfg σ e)
    exact ih (fun x hx => hord x (by simp [hx])) h1 (gotSent_step h hg e)

theorem Own.ordinary {c : Nat} {e : SysEvent} (h : e.Own c) : e.Ordinary := by
  cases e with
  | serverTurn d u b => exact h.2
  | app d i => obtain ⟨_, rfl⟩ := h; trivial
  | connect => exact h.elim
  | _ => trivial

theorem Own.harmless {c : Nat} {e : SysEvent} (h : e.Own c) : e.Harmless c := by
  cases e with
  | app d i => obtain ⟨_, rfl⟩ := h; trivial
  | connect => exact h.elim
  | serverClose => exact h.elim
  | clientError => exact h.elim
  | _ => trivial

theorem Own.ok {c : Nat} {e : SysEvent} (h : e.Own c) : e ≠ .clientTurn c false := by
  rintro rfl; cases h.2

/-- Others are left alone. -/
theorem Own.others {m : Mode} {cfg : AuthConfig} {σ : System} {c : Nat} {e : SysEvent} (h : e.Own c) {d : Nat}
    (hd : d ≠ c) : (σ.step m cfg e).peers.get d = σ.peers.get d := by
  have put : ∀ p, (σ.put c p).peers.get d = σ.peers.get d := by
    intro p
    show (σ.peers.insert c p).get d = _
    rw [Map.get_insert, if_neg (Ne.symm hd)]
  cases e with
  | serverRead x n =>
    simp only [System.step, System.onPeer]
    repeat' split
    all_goals rfl
  | serverTurn => rfl
  | deliver => rfl
  | clientRead x n =>
    cases h
    simp only [System.step, System.onPeer]
    repeat' split
    all_goals first | rfl | exact put _
  | clientTurn x ok =>
    obtain ⟨rfl, _⟩ := h
    simp only [System.step, System.onPeer]
    repeat' split
    all_goals first | rfl | exact put _
  | app x i =>
    obtain ⟨rfl, _⟩ := h
    simp only [System.step, System.onPeer]
    repeat' split
    all_goals first | rfl | exact put _
  | _ => exact h.elim

/-- Client `c` is connected, and all goes well. -/
structure Live (cfg : AuthConfig) (c : Nat) (σ : System) (es : List Event) (p : Peer) (w : Wire) : Prop where
  inv : SysInv cfg σ es
  up : σ.Up c p w
  begun : w.begun = true
  pend : Pending c p es
  tracked : Tracked cfg c 0 σ es
  apart : σ.Apart c p
  got : σ.GotSent

/-- The condition of `ReadsWell` on one event. -/
def ReadOk (m : Mode) (cfg : AuthConfig) (c : Nat) (σ : System) (e : SysEvent) : Prop :=
  ∀ n, e = .clientRead c n → ∀ p w, (σ.step m cfg e).peers.get c = some p →
      (σ.step m cfg e).net.wires.get c = some w → GotWell p.opts.protocolVersion w.sent p.got

theorem Live.down {cfg : AuthConfig} {c : Nat} {σ : System} {es : List Event} {p : Peer} {w : Wire}
    (h : Live cfg c σ es p w) : ∃ k, Down p.opts.protocolVersion (Server.init.sentTo cfg c es) p k := by
  obtain ⟨k, _, hd⟩ := h.tracked p w h.up.peer h.up.wire h.up.server (up_socket h.up) (h.inv.solo h.up.peer h.apart)
  exact ⟨k, hd⟩

theorem Live.step_on {m : Mode} {cfg : AuthConfig} {c : Nat} {σ : System} {es : List Event} {p : Peer} {w : Wire}
    (h : Live cfg c σ es p w) {e : SysEvent} (he : e.Own c) (hr : ReadOk m cfg c σ e) {ex : List Event}
    (hg : Grows m cfg σ (σ.step m cfg e) ex) (h1 : SysInv cfg (σ.step m cfg e) (es ++ ex)) :
    ∃ p' w', Live cfg c (σ.step m cfg e) (es ++ ex) p' w' ∧ p'.opts = p.opts := by
  have hm := moves m cfg σ e
  obtain ⟨k, hd⟩ := h.down
  obtain ⟨p1, w1, N, u1, u2, u3, u4⟩ :=
    up_step (m := m) h.inv h.up h.begun h.pend hd (Own.ordinary he) (Own.ok he) (Own.harmless he)
  have hid : p1.opts = p.opts := by
    obtain ⟨p2, w2, a, _, hev⟩ := step_evolved hm hg h.up.peer h.up.wire
    rw [u1.peer] at a; cases a
    exact hev.opts
  refine ⟨p1, w1, ⟨h1, u1, u2, h.pend.grow (h.inv.packets_le h.up.peer) N u3 u4,
    tracked_step h.inv h1 hm rfl hg hr (Own.ok he) (Or.inl rfl) h.tracked, ?_, gotSent_step h.inv h.got e⟩, hid⟩
  intro d q hdc hq hcid
  rw [Own.others he hdc] at hq
  have := h.apart d q hdc hq (by unfold Peer.clientId at hcid ⊢; rw [hid] at hcid; exact hcid)
  rw [hid]; exact this

theorem Live.step {m : Mode} {cfg : AuthConfig} {c : Nat} {σ : System} {es : List Event} {p : Peer} {w : Wire}
    (h : Live cfg c σ es p w) {e : SysEvent} (he : e.Own c) (hr : ReadOk m cfg c σ e) :
    ∃ ex p' w', Live cfg c (σ.step m cfg e) (es ++ ex) p' w' ∧ p'.opts = p.opts := by
  obtain ⟨ex, hg, h1⟩ := h.inv.step (Own.ordinary he) (moves m cfg σ e)
  exact ⟨ex, h.step_on he hr hg h1⟩

/-- Getting there step by step. -/
theorem progress {m : Mode} {cfg : AuthConfig} {c : Nat} (I G : System → Prop) (μ : System → Nat)
    (step : ∀ σ, I σ → G σ ∨ ∃ e : SysEvent, e.Own c ∧ ReadOk m cfg c σ e ∧ I (σ.step m cfg e) ∧
      μ (σ.step m cfg e) < μ σ) (σ : System) (h : I σ) :
    ∃ evs : List SysEvent, (∀ e ∈ evs, e.Own c) ∧ ReadsWell m cfg c σ evs ∧ I (σ.run m cfg evs) ∧
      G (σ.run m cfg evs) := by
  generalize hn : μ σ = n
  induction n using Nat.strongRecOn generalizing σ with
  | ind n ih =>
    rcases step σ h with hg | ⟨e, h1, h2, h3, h4⟩
    · exact ⟨[], by simp, trivial, h, hg⟩
    · obtain ⟨evs, a, b, c', d⟩ := ih _ (by rw [← hn]; exact h4) _ h3 rfl
      exact ⟨e :: evs, by simpa using ⟨h1, a⟩, ⟨h2, Own.ok h1, b⟩, c', d⟩

/-! ## The server reads and acts on what the client wrote -/

/-- What is left to do for the server. -/
def upLeft (c : Nat) (σ : System) : Nat :=
  match σ.peers.get c, σ.net.wires.get c with
  | some p, some w => 2 * (p.wrote.length - w.rcvd.length) + w.buf.length
  | _, _ => 0

/-- The server reads a byte, acts on a packet, or is done. -/
theorem Live.upward {m : Mode} {cfg : AuthConfig} {c : Nat} {σ : System} {es : List Event} {p : Peer} {w : Wire}
    (h : Live cfg c σ es p w) :
    (w.rcvd = p.wrote ∧ w.buf = []) ∨
    (∃ b, parsePacket m w.buf = .needMore ∧ (σ.upstream c p).take 1 = [b] ∧ σ.step m cfg (.serverRead c 1) =
      { σ with net := ⟨σ.net.server, σ.net.wires.insert c { w with buf := w.buf ++ [b], rcvd := w.rcvd ++ [b] }⟩ }) ∨
    ∃ q b rest, p.outgoing[(packetsOf c es).length]? = some q ∧ b ≠ [] ∧ w.buf = b ++ rest ∧
      σ.step m cfg (.serverTurn c [] true) =
        { σ with net := σ.net.act cfg c { w with buf := rest, begun := true } (.recv c q.received) } := by
  have hp := h.up.peer
  have hw := h.up.wire
  have hr := h.up.server
  obtain ⟨fut, hf⟩ := h.inv.up c p w hp hw
  obtain ⟨k, hk, hrest⟩ := h.inv.net.read c w hw _ _ fut (h.inv.peer c p hp).sent hf
  rcases next_on m (h.inv.peer c p hp).sent (hrest hr) hf with ⟨_, hn, _⟩ | ⟨q, bb, rest, hq, _, he, _, hbuf, hpq, _⟩ |
    ⟨rest, hq, _⟩ | ⟨hx, _⟩
  · cases fut with
    | nil =>
      rw [List.append_nil] at hf
      exact Or.inl ⟨hf, h.inv.empty hp hw hr h.pend.1 hf hn⟩
    | cons b fut =>
      have ht : (σ.upstream c p).take 1 = [b] := by
        simp only [System.upstream, hw]
        rw [← hf, List.drop_left]; rfl
      refine Or.inr (Or.inl ⟨b, hn, ht, ?_⟩)
      have ht' : (σ.upstream c p).take (min 1 (2 ^ 31)) = [b] := ht
      simp only [System.step, System.onPeer, hp, ht', Net.step, Net.onWire, hw, hr, if_true, hn]
      rfl
  · have hlt : k < p.outgoing.length := (List.getElem?_eq_some_iff.mp hq).1
    have hlen : (packetsOf c es).length = k := by
      rw [hk, List.length_map, List.length_take]; omega
    refine Or.inr (Or.inr ⟨q, bb, rest, by rw [hlen]; exact hq, encode_ne_nil he, hbuf, ?_⟩)
    simp only [System.step, Net.step, Net.onWire, hw, hr, if_true, hpq, h.begun]
  · exact absurd (List.mem_of_getElem? hq) h.pend.1
  · exact absurd (List.mem_of_mem_take hx) h.pend.1

theorem textField_nil : TextField [] := ⟨⟨[], rfl⟩, by decide⟩

theorem readOk_other {m : Mode} {cfg : AuthConfig} {c : Nat} {σ : System} {e : SysEvent}
    (h : ∀ n, e ≠ .clientRead c n) : ReadOk m cfg c σ e := fun n he => absurd he (h n)

theorem upLeft_read {c : Nat} {σ : System} {p : Peer} {w : Wire} {b : UInt8} {srv : Server}
    (hp : σ.peers.get c = some p) (hw : σ.net.wires.get c = some w) (ht : (σ.upstream c p).take 1 = [b]) :
    upLeft c { σ with net := ⟨srv, σ.net.wires.insert c { w with buf := w.buf ++ [b], rcvd := w.rcvd ++ [b] }⟩ } <
      upLeft c σ := by
  have hlt : w.rcvd.length < p.wrote.length := by
    simp only [System.upstream, hw] at ht
    have := congrArg List.length ht
    rw [List.length_take, List.length_drop] at this
    simp at this
    omega
  simp only [upLeft, hp, hw, Map.get_insert, if_true, List.length_append, List.length_singleton]
  omega

theorem act_wire (cfg : AuthConfig) (n : Net) (c : Nat) (w : Wire) (e : Event) :
    ∃ w', (n.act cfg c w e).wires.get c = some w' ∧ w'.rcvd = w.rcvd ∧ w'.buf = w.buf ∧ w'.begun = w.begun := by
  simp only [Net.act, Map.get_insert, if_true]
  exact ⟨_, rfl, rfl, rfl, rfl⟩

theorem upLeft_turn {cfg : AuthConfig} {c : Nat} {σ : System} {p : Peer} {w : Wire} {b rest : Buf} {e : Event}
    (hp : σ.peers.get c = some p) (hw : σ.net.wires.get c = some w) (hb : b ≠ []) (hbuf : w.buf = b ++ rest) :
    upLeft c { σ with net := σ.net.act cfg c { w with buf := rest, begun := true } e } < upLeft c σ := by
  obtain ⟨w', h1, h2, h3, _⟩ := act_wire cfg σ.net c { w with buf := rest, begun := true } e
  have hpos := List.length_pos_iff.mpr hb
  simp only [upLeft, hp, hw, h1, h2, h3]
  rw [hbuf, List.length_append]
  omega

theorem settle_up (m : Mode) (cfg : AuthConfig) (c : Nat) (σ : System) (h : ∃ es p w, Live cfg c σ es p w) :
    ∃ evs : List SysEvent, (∀ e ∈ evs, e.Own c) ∧ ReadsWell m cfg c σ evs ∧
      (∃ es p w, Live cfg c (σ.run m cfg evs) es p w) ∧
      ∃ p w, (σ.run m cfg evs).Up c p w ∧ w.rcvd = p.wrote ∧ w.buf = [] := by
  refine progress (fun σ => ∃ es p w, Live cfg c σ es p w)
    (fun σ => ∃ p w, σ.Up c p w ∧ w.rcvd = p.wrote ∧ w.buf = []) (upLeft c) ?_ σ h
  rintro σ ⟨es, p, w, h⟩
  rcases h.upward (m := m) with hd | ⟨b, _, ht, e⟩ | ⟨q, b, rest, _, hb, hbuf, e⟩
  · exact Or.inl ⟨p, w, h.up, hd⟩
  · refine Or.inr ⟨.serverRead c 1, rfl, readOk_other (by simp), ?_, ?_⟩
    · obtain ⟨ex, p', w', hl, _⟩ := h.step (m := m) (e := .serverRead c 1) rfl (readOk_other (by simp))
      exact ⟨_, p', w', hl⟩
    · rw [e]; exact upLeft_read h.up.peer h.up.wire ht
  · have ho : (SysEvent.serverTurn c [] true).Own c := ⟨rfl, textField_nil⟩
    refine Or.inr ⟨.serverTurn c [] true, ho, readOk_other (by simp), ?_, ?_⟩
    · obtain ⟨ex, p', w', hl, _⟩ := h.step (m := m) ho (readOk_other (by simp))
      exact ⟨_, p', w', hl⟩
    · rw [e]; exact upLeft_turn h.up.peer h.up.wire hb hbuf

/-! ## The server sends what is waiting -/

/-- The number of messages waiting for a subscription. -/
def waiting (c : Nat) (srv : Server) (f : Str) : Nat :=
  match srv.at c with
  | none => 0
  | some s => match s.subscriptions.get f with
    | none => 0
    | some st => match TopicNode.sentAt srv.world.broker.tree st.rx.path with
      | none => 0
      | some sent => (st.ahead sent).length

theorem sum_lt {α : Type} {a b : α → Nat} {ks : List α} (h : ∀ g ∈ ks, a g ≤ b g) {f : α} (hf : f ∈ ks)
    (hlt : a f < b f) : (ks.map a).sum < (ks.map b).sum := by
  have le : ∀ ks : List α, (∀ g ∈ ks, a g ≤ b g) → (ks.map a).sum ≤ (ks.map b).sum := by
    intro ks
    induction ks with
    | nil => intro _; simp
    | cons x ks ih =>
      intro h
      have h1 := h x (by simp)
      have h2 := ih fun g hg => h g (by simp [hg])
      simp only [List.map_cons, List.sum_cons]; omega
  induction ks with
  | nil => cases hf
  | cons x ks ih =>
    have h1 := h x (by simp)
    have h2 := le ks fun g hg => h g (by simp [hg])
    simp only [List.map_cons, List.sum_cons]
    rcases List.mem_cons.mp hf with rfl | hf
    · omega
    · have := ih (fun g hg => h g (by simp [hg])) hf; omega

/-- Only the session of connection `c` and the storage differ. -/
def Touched (c : Nat) (srv srv' : Server) : Prop :=
  ∃ k s g, srv.conns.get c = some k ∧ srv' = (srv.mapStore g).put k.session s

/-- The server sends a message, or there is none. -/
theorem Live.sends {m : Mode} {cfg : AuthConfig} {c : Nat} {σ : System} {es : List Event} {p : Peer} {w : Wire}
    (h : Live cfg c σ es p w) (f : Str) (hne : (σ.net.server.step cfg (.deliver c f)).2 ≠ {}) :
    ∃ s st st' u w', σ.net.server.at c = some s ∧ s.subscriptions.get f = some st ∧
      (σ.step m cfg (.deliver c f)).net.server.at c = some { s with subscriptions := s.subscriptions.insert f st', unacked := u } ∧
      (σ.step m cfg (.deliver c f)).net.wires.get c = some w' ∧ w'.rcvd = w.rcvd ∧ w'.buf = w.buf ∧
      (∀ g, waiting c (σ.step m cfg (.deliver c f)).net.server g ≤ waiting c σ.net.server g) ∧
      waiting c (σ.step m cfg (.deliver c f)).net.server f < waiting c σ.net.server f ∧
      w'.sent ≠ w.sent ∧ Touched c σ.net.server (σ.step m cfg (.deliver c f)).net.server := by
  have hw := h.up.wire
  have hr := h.up.server
  have ho : σ.net.server.isOpen c := (h.inv.net.opened c).mpr ⟨w, hw, hr, h.begun⟩
  have hreach : Server.Reachable cfg σ.net.server := ⟨es, h.inv.net.server⟩
  obtain ⟨s, ha⟩ := at_of_isOpen hreach.inv ho
  obtain ⟨k, hk, hs, e⟩ := onConn_at ha (fun r s => σ.net.server.deliver c r s f)
  have e' : σ.net.server.step cfg (.deliver c f) = σ.net.server.deliver c k.session s f := e
  have hstay := deliver_stays (cfg := cfg) hreach h.inv.tame f ho
  have hfits : ∀ q ∈ (σ.net.server.step cfg (.deliver c f)).2.sent, Fits q :=
    fun x hx => (deliver_out cfg hreach h.inv.tame c f .v5 x hx).2
  have estep : σ.step m cfg (.deliver c f) = { σ with net := σ.net.act cfg c w (.deliver c f) } := by
    simp only [System.step, Net.step, Net.onWire, hw, hr, if_true, h.begun]
  have esrv : (σ.step m cfg (.deliver c f)).net.server = (σ.net.server.step cfg (.deliver c f)).1 := by
    rw [estep]
    simp only [Net.act, writes_ok hfits, if_true, Net.resets, Bool.and_self]
  obtain ⟨w', a1, a2, a3, _⟩ := act_wire cfg σ.net c w (.deliver c f)
  have hsent : w'.sent = w.sent ++ (writePackets (σ.net.server.step cfg (.deliver c f)).2.sent).1 := by
    simp only [Net.act, Map.get_insert, if_true, Option.some.injEq] at a1
    rw [← a1]
  rw [esrv, estep]
  rw [e'] at hne hstay hsent hfits ⊢
  unfold Server.deliver at hne hstay hsent hfits ⊢
  rcases processOutgoing_cases s σ.net.server.world.broker.tree f with
    ⟨h1, _⟩ | ⟨st, mm, st', hst, hp, ⟨u, _, h1⟩ | ⟨h0, h1⟩⟩
  · rw [h1] at hne; exact absurd rfl hne
  · rw [h1]
    have hat : ∀ (st : MemoryStore → MemoryStore) (s' : Session),
        ((σ.net.server.mapStore st).put k.session s').at c = some s' := fun st s' => at_put_same (by exact hk) s'
    have hg := hreach.sound.streams _ _ hs f st hst
    obtain ⟨sent, g1, g2⟩ := hg.channel
    obtain ⟨q1, _, _, _, q5, _⟩ := poll_some (by rw [hg.path]; exact g1) g2 hp
    have hlen := q5.length_le
    have hgrow : w'.sent ≠ w.sent := by
      rw [h1] at hsent hfits
      obtain ⟨b, hb, _⟩ := hfits (.publish (Session.outgoingPacket f mm)) (by simp)
      intro hx
      rw [hsent] at hx
      simp only [writePackets, hb, List.append_nil] at hx
      have hx := List.append_right_eq_self.mp hx
      exact encode_ne_nil hb hx
    refine ⟨s, st, st', u, w', ha, hst, hat _ _, a1, a2, a3, ?_, ?_, hgrow, ⟨k, _, _, hk, rfl⟩⟩
    · intro g
      simp only [waiting, hat, ha, Map.get_insert]
      by_cases hfg : f = g
      · subst hfg
        simp only [if_true, hst]
        show (match TopicNode.sentAt σ.net.server.world.broker.tree st'.rx.path with | none => 0 | some sent => _) ≤ _
        rw [q1, hg.path, g1]
        simp only [List.length_cons] at hlen ⊢
        omega
      · simp only [if_neg hfg]
        exact Nat.le_refl _
    · simp only [waiting, hat, ha, Map.get_insert, if_true, hst]
      show (match TopicNode.sentAt σ.net.server.world.broker.tree st'.rx.path with | none => 0 | some sent => _) < _
      rw [q1, hg.path, g1]
      simp only [List.length_cons] at hlen ⊢
      omega
  · rw [h1] at hstay
    obtain ⟨k', hk'⟩ := hstay
    simp [Server.put, Map.get_erase] at hk'

theorem key_mem {K V : Type} [DecidableEq K] {mp : Map K V} {k : K} {v : V} (h : mp.get k = some v) :
    k ∈ mp.map (·.1) := by
  induction mp with
  | nil => cases h
  | cons x mp ih =>
    obtain ⟨k', v'⟩ := x
    simp only [Map.get] at h
    split at h
    · rename_i e; simp [e]
    · exact List.mem_cons_of_mem _ (ih h)

theorem settle_server (m : Mode) (cfg : AuthConfig) (c : Nat) (σ : System)
    (h : ∃ es p w, Live cfg c σ es p w ∧ w.rcvd = p.wrote ∧ w.buf = []) :
    ∃ evs : List SysEvent, (∀ e ∈ evs, e.Own c) ∧ ReadsWell m cfg c σ evs ∧
      (∃ es p w, Live cfg c (σ.run m cfg evs) es p w ∧ w.rcvd = p.wrote ∧ w.buf = []) ∧
      ∀ f, ((σ.run m cfg evs).net.server.step cfg (.deliver c f)).2 = {} := by
  obtain ⟨ks, hks⟩ : ∃ ks : List Str, ∀ s, σ.net.server.at c = some s → ∀ f st, s.subscriptions.get f = some st → f ∈ ks := by
    cases ha : σ.net.server.at c with
    | none => exact ⟨[], by simp⟩
    | some s =>
      refine ⟨s.subscriptions.map (·.1), ?_⟩
      rintro s' e f st hst
      cases e
      exact key_mem hst
  refine Exists.imp ?_ (progress (m := m) (cfg := cfg) (c := c)
    (fun σ => (∃ es p w, Live cfg c σ es p w ∧ w.rcvd = p.wrote ∧ w.buf = []) ∧
      ∀ s, σ.net.server.at c = some s → ∀ f st, s.subscriptions.get f = some st → f ∈ ks)
    (fun σ => ∀ f, (σ.net.server.step cfg (.deliver c f)).2 = {})
    (fun σ => (ks.map (waiting c σ.net.server)).sum) ?_ σ ⟨h, hks⟩)
  · rintro evs ⟨a, b, ⟨d1, _⟩, g⟩
    exact ⟨a, b, d1, g⟩
  rintro σ ⟨⟨es, p, w, h, h1, h2⟩, hks⟩
  by_cases hg : ∀ f, (σ.net.server.step cfg (.deliver c f)).2 = {}
  · exact Or.inl hg
  right
  obtain ⟨f, hf⟩ := Classical.not_forall.mp hg
  obtain ⟨s, st, st', u, w', b1, b2, b3, b4, b5, b6, b7, b8, _, _⟩ := h.sends (m := m) f hf
  refine ⟨.deliver c f, rfl, readOk_other (by simp), ⟨?_, ?_⟩, sum_lt (fun g _ => b7 g) (hks s b1 f st b2) b8⟩
  · obtain ⟨ex, p1, w1, hl, _⟩ := h.step (m := m) (e := .deliver c f) rfl (readOk_other (by simp))
    have e1 := hl.up.peer
    have e1' : (σ.step m cfg (.deliver c f)).peers.get c = some p := h.up.peer
    rw [e1'] at e1; cases e1
    have e2 := hl.up.wire
    rw [b4] at e2; cases e2
    exact ⟨_, p, w', hl, by rw [b5]; exact h1, by rw [b6]; exact h2⟩
  · intro s2 hs2 g stg hg
    rw [b3] at hs2; cases hs2
    simp only [Map.get_insert] at hg
    split at hg
    · rename_i hfg; subst hfg; exact hks s b1 f st b2
    · exact hks s b1 g stg hg

/-! ## The client reads and acts on what the server wrote -/

/-- All packets that a stream consists of are small if it consists of small packets. -/
theorem small_of {v : ProtocolVersion} {qs : List Packet} {b : Buf} (h : SentTo v qs b) :
    (∀ q ∈ qs, ∀ b, q.encode = .ok b → b.length ≤ 4096) → ∀ {S : List Packet}, SentTo v S b →
      ∀ q ∈ S, ∀ b, q.encode = .ok b → b.length ≤ 4096 := by
  induction h with
  | nil => intro _ S hS; rw [hS.nil_inv]; simp
  | @cons q bytes qs bs hs he hf hr ih =>
    intro hsm S hS
    have h1 : SentTo v [q] bytes := by
      have := SentTo.cons hs he hf SentTo.nil
      rwa [List.append_nil] at this
    obtain ⟨q', S', rfl, e1, e2⟩ := h1.first hS
    intro x hx b hb
    rcases List.mem_cons.mp hx with rfl | hx
    · cases e1 with
      | cons _ he' _ hr' =>
        cases hr'
        rw [hb] at he'; cases he'
        rw [List.append_nil] at he
        exact hsm q (by simp) _ he
    · exact ih (fun y hy => hsm y (by simp [hy])) e2 x hx b hb

/-- The packets the server has not acted on yet are acknowledgements. -/
def PendingAcks (c : Nat) (p : Peer) (es : List Event) : Prop :=
  ∀ q ∈ p.outgoing.drop (packetsOf c es).length, ∃ a, q = .pubAck a

theorem PendingAcks.grow {c : Nat} {p p' : Peer} {es ex : List Event} (h : PendingAcks c p es)
    (hle : (packetsOf c es).length ≤ p.outgoing.length) (N : List Packet) (ho : p'.outgoing = p.outgoing ++ N)
    (hN : ∀ q ∈ N, ∃ a, q = .pubAck a) : PendingAcks c p' (es ++ ex) := by
  intro q hq
  rw [ho, packetsOf_append, List.length_append, ← List.drop_drop, List.drop_append_of_le_length hle] at hq
  rcases List.mem_append.mp (List.mem_of_mem_drop hq) with hq | hq
  · exact h q hq
  · exact hN q hq

theorem outgoing_act (p : Peer) (l : Client) (i : ClientIn) :
    (p.act l i).outgoing = p.outgoing ++ ((l.step i).2.sent).toList := by
  have e1 : (p.act l i).opts = p.opts := rfl
  have e2 : (p.act l i).history = p.history ++ [(i, (l.step i).2)] := rfl
  unfold Peer.outgoing Peer.sents
  rw [e1, e2, List.filterMap_append]
  cases hs : (l.step i).2.sent <;> simp [hs]

/-- What is left to do for the client. -/
def downLeft (c : Nat) (σ : System) : Nat :=
  match σ.peers.get c, σ.net.wires.get c with
  | some p, some w => 4 * (w.sent.length - p.got.length) + 2 * p.buf.length + ((p.loop.map Client.pending).getD []).length
  | _, _ => 0

/-- A packet puts at most one event into the queue, and is answered by an acknowledgement at most. -/
theorem incoming_small (l : Client) (q : Packet) :
    (l.incoming q true).1.pending.length ≤ l.pending.length + 1 ∧
      ∀ x, (l.incoming q true).2.sent = some x → ∃ a, x = .pubAck a := by
  cases q with
  | publish q =>
    simp only [Client.incoming]
    split
    · rename_i id _ _
      have hw : Client.write (.pubAck { packetId := id, reason := .success, properties := none }) true = .ok true := rfl
      rw [hw]
      refine ⟨by simp [Client.emit], ?_⟩
      rintro x ⟨⟩
      exact ⟨_, rfl⟩
    · exact ⟨by simp [Client.emit], by simp⟩
  | disconnect d => exact ⟨by simp [Client.incoming, Client.emit], by simp [Client.incoming]⟩
  | _ => exact ⟨by simp [Client.incoming], by simp [Client.incoming]⟩

/-- The client takes a step, or is done. -/
theorem Live.downward {m : Mode} {cfg : AuthConfig} {c : Nat} {σ : System} {es : List Event} {p : Peer} {w : Wire}
    (h : Live cfg c σ es p w) (hsm : SmallPackets p.opts.protocolVersion w.sent) :
    (p.got = w.sent ∧ clientParse m p.opts.protocolVersion p.buf = .needMore) ∨
    ∃ (e : SysEvent) (p' : Peer) (N : List Packet), e.Own c ∧ ReadOk m cfg c σ e ∧ σ.step m cfg e = σ.put c p' ∧
      p'.outgoing = p.outgoing ++ N ∧ (∀ q ∈ N, ∃ a, q = .pubAck a) ∧
      downLeft c (σ.put c p') < downLeft c σ ∧
      (p'.got ≠ p.got ∨ p'.buf ≠ p.buf ∨ p'.history.filterMap (·.2.event) ≠ p.history.filterMap (·.2.event)) := by
  have hp := h.up.peer
  have hw := h.up.wire
  have hr := h.up.server
  obtain ⟨l, hl, hrl⟩ := up_phase h.up
  have hloop : p.loop = some l := by simp [Peer.loop, hl]
  have hleft : downLeft c σ = 4 * (w.sent.length - p.got.length) + 2 * p.buf.length + l.pending.length := by
    simp [downLeft, hp, hw, hloop]
  have hleft' : ∀ p' l', p'.phase = .connected l' → downLeft c (σ.put c p') =
      4 * (w.sent.length - p'.got.length) + 2 * p'.buf.length + l'.pending.length := by
    intro p' l' hl'
    have e1 : (σ.put c p').peers.get c = some p' := by
      show (σ.peers.insert c p').get c = _
      rw [Map.get_insert, if_pos rfl]
    have e2 : (σ.put c p').net.wires.get c = some w := hw
    simp [downLeft, e1, e2, Peer.loop, hl']
  by_cases hb : l.blocked
  · -- the application takes an event
    right
    have hpend : l.pending ≠ [] := by
      intro hx; simp [Client.blocked, hx, eventCapacity] at hb
    refine ⟨.app c .recv, p.act l .recv, [], ⟨rfl, rfl⟩, readOk_other (by simp), ?_, ?_, by simp, ?_, Or.inr (Or.inr ?_)⟩
    · simp only [System.step, System.onPeer, hp]
      rw [hl]
    · rw [outgoing_act]
      have : (l.step .recv).2.sent = none := by
        simp only [Client.step, if_true, Client.take]
        split <;> rfl
      rw [this]; rfl
    · rw [hleft, hleft' _ (l.step .recv).1 rfl]
      show 4 * (w.sent.length - p.got.length) + 2 * p.buf.length + (l.step .recv).1.pending.length < _
      have : (l.step .recv).1.pending.length + 1 = l.pending.length := by
        simp only [Client.step, if_true, Client.take]
        cases hq : l.pending with
        | nil => exact absurd hq hpend
        | cons a as => simp
      omega
    · show (p.history ++ [(ClientIn.recv, (l.step .recv).2)]).filterMap _ ≠ _
      cases hq : l.pending with
      | nil => exact absurd hq hpend
      | cons a as =>
        intro hx
        have := congrArg List.length hx
        simp [Client.step, Client.take, hq] at this
  have hread : p.reading = true := by simp [Peer.reading, hl, hrl, hb]
  obtain ⟨k, hd⟩ := h.down
  have hsolo := h.inv.solo hp h.apart
  have hS := h.inv.sentTo hsolo hw hr
  generalize Server.init.sentTo cfg c es = S at hd hS
  have hsmall : ∀ q ∈ S, ∀ b, q.encode = .ok b → b.length ≤ 4096 := by
    obtain ⟨qs, a, b⟩ := hsm
    exact small_of a b hS
  obtain ⟨dd, rs, whole, tail, h1, h2, hbuf, h3, h4, h5⟩ := hd.parts
  have hpl := hd.small
  rw [hbuf] at hpl
  rcases clientParse_whole m h2 h5 (by omega) with ⟨hrs, hwh, e⟩ | ⟨q, qs, rest, _, _, e, hle, bytes, hq1, hq2⟩
  · -- nothing to act on
    rw [← hbuf] at e
    subst hrs hwh
    rw [List.nil_append] at hbuf
    subst hbuf
    simp only [List.length_nil, Nat.add_zero] at h5
    obtain ⟨fut, hf⟩ := h.got c p w hp hw
    cases hfut : fut with
    | nil => rw [hfut, List.append_nil] at hf; exact Or.inl ⟨hf, e⟩
    | cons x fut' =>
      right
      obtain ⟨d', r, s1, s2, s3⟩ := hS.split k
      have := s1.unique h1
      subst this
      have hr' : p.buf ++ fut = r := by
        rw [s3, h4, List.append_assoc] at hf
        exact List.append_cancel_left hf
      -- the next packet
      have hlt : k < S.length := by
        refine Classical.byContradiction fun hx => ?_
        rw [List.drop_eq_nil_iff.mpr (by omega)] at s2
        cases s2
        have := (List.append_eq_nil_iff.mp hr').2
        rw [hfut] at this; cases this
      have hdrop : S.drop k = S[k] :: S.drop (k + 1) := List.drop_eq_getElem_cons hlt
      rw [hdrop] at s2 h5
      cases s2 with
      | @cons _ bytes _ bs hs he hft hrest =>
        have hpos : 0 < bytes.length := List.length_pos_iff.mpr (encode_ne_nil he)
        have h4096 := hsmall S[k] (List.getElem_mem hlt) bytes he
        have hone : SentTo p.opts.protocolVersion [S[k]] bytes := by
          have := SentTo.cons hs he hft SentTo.nil
          rwa [List.append_nil] at this
        have htl : p.buf.length < bytes.length := by
          rcases h5 with h5 | ⟨q, T', b', e1, e2, e3, _⟩
          · rw [h5]; exact hpos
          · cases e1
            rw [hone.unique e2]; exact e3
        obtain ⟨more, hmore⟩ : ∃ more, bytes = p.buf ++ more := by
          rcases List.append_eq_append_iff.mp hr' with ⟨x, a1, _⟩ | ⟨x, a1, _⟩
          · exact ⟨x, a1⟩
          · have := congrArg List.length a1
            rw [List.length_append] at this; omega
        have hfm : fut = more ++ bs := by
          rw [hmore, List.append_assoc] at hr'
          exact List.append_cancel_left hr'
        have hml : more.length + p.buf.length = bytes.length := by rw [hmore, List.length_append]; omega
        have hmpos : 0 < more.length := by omega
        have hdn : σ.downstream c p = more ++ bs := by
          simp only [System.downstream, hw]
          rw [← hf, List.drop_left, hfm]
        have htake : (σ.downstream c p).take (min more.length 4096) = more := by
          rw [hdn, Nat.min_eq_left (by omega), List.take_left]
        have estep : σ.step m cfg (.clientRead c more.length) =
            σ.put c { p with buf := p.buf ++ more, got := p.got ++ more } := by
          simp only [System.step, System.onPeer, hp, hread, e, htake, Bool.true_and, beq_self_eq_true, if_true]
          cases more with
          | nil => simp at hmpos
          | cons a as => rfl
        refine ⟨.clientRead c more.length, { p with buf := p.buf ++ more, got := p.got ++ more }, [], rfl, ?_, estep,
          by simp [Peer.outgoing, Peer.sents], by simp, ?_, Or.inl ?_⟩
        · intro n _ p' w' hp' hw'
          rw [estep] at hp' hw'
          have hp' : (σ.peers.insert c { p with buf := p.buf ++ more, got := p.got ++ more }).get c = some p' := hp'
          rw [Map.get_insert, if_pos rfl] at hp'
          cases hp'
          have hw' : σ.net.wires.get c = some w' := hw'
          rw [hw] at hw'; cases hw'
          have hall : p.got ++ more = d' ++ bytes := by rw [h4, hmore, List.append_assoc]
          have hpk : SentTo p.opts.protocolVersion (S.take k ++ [S[k]]) (d' ++ bytes) := h1.append hone
          refine ⟨S.take k ++ [S[k]], d' ++ bytes, hpk, ?_, ?_, ?_⟩
          · rw [s3, ← List.append_assoc]; exact List.prefix_append _ _
          · show p.got ++ more <+: _
            rw [hall]; exact List.prefix_refl _
          · show EndsWell _ _ (p.got ++ more).length
            rw [hall]
            have := (endsWell_append hpk [] 0).mpr trivial
            rwa [List.append_nil, Nat.add_zero] at this
        · rw [hleft, hleft' { p with buf := p.buf ++ more, got := p.got ++ more } l hl]
          have : w.sent.length = p.got.length + more.length + bs.length := by
            rw [← hf, hfm]; simp only [List.length_append]; omega
          simp only [List.length_append]
          omega
        · intro hx
          have := congrArg List.length hx
          simp only [List.length_append] at this
          omega
  · -- a packet
    right
    rw [← hbuf] at e
    generalize hq : q.receivedBy p.opts.protocolVersion = q' at e
    have hne : 0 < bytes.length := by
      cases hq1 with
      | cons _ he _ hr => rw [List.length_append]; have := List.length_pos_iff.mpr (encode_ne_nil he); omega
    refine ⟨.clientTurn c true, ({ p with buf := rest ++ tail } : Peer).act l (.read (.packet q') true), _, ⟨rfl, rfl⟩,
      readOk_other (by simp), ?_, outgoing_act _ _ _, ?_, ?_, Or.inr (Or.inl ?_)⟩
    · simp only [System.step, System.onPeer, hp, hread, e, if_true]
      simp only [Peer.receive, hl]
    · intro x hx
      rw [Option.mem_toList] at hx
      have e : l.step (.read (.packet q') true) = l.incoming q' true := by
        simp [Client.step, hb, hrl, Client.turn]
      rw [e] at hx
      exact (incoming_small l q').2 x hx
    · have e : l.step (.read (.packet q') true) = l.incoming q' true := by
        simp [Client.step, hb, hrl, Client.turn]
      have hi := (incoming_small l q').1
      rw [hleft, hleft' _ (l.step (.read (.packet q') true)).1 rfl, e]
      show 4 * (w.sent.length - p.got.length) + 2 * (rest ++ tail).length + _ < _
      rw [hbuf, hq2]
      simp only [List.length_append]
      omega
    · intro hx
      have hx : rest ++ tail = p.buf := hx
      rw [hbuf, hq2] at hx
      have := congrArg List.length hx
      simp only [List.length_append] at this
      omega

theorem settle_client (m : Mode) (cfg : AuthConfig) (c : Nat) (σ : System)
    (h : ∃ es p w, Live cfg c σ es p w ∧ SmallPackets p.opts.protocolVersion w.sent ∧ PendingAcks c p es) :
    ∃ evs : List SysEvent, (∀ e ∈ evs, e.Own c) ∧ ReadsWell m cfg c σ evs ∧
      (σ.run m cfg evs).net = σ.net ∧
      ∃ es p w, Live cfg c (σ.run m cfg evs) es p w ∧ PendingAcks c p es ∧ p.got = w.sent ∧
        clientParse m p.opts.protocolVersion p.buf = .needMore := by
  refine Exists.imp ?_ (progress (m := m) (cfg := cfg) (c := c)
    (fun τ => τ.net = σ.net ∧
      ∃ es p w, Live cfg c τ es p w ∧ SmallPackets p.opts.protocolVersion w.sent ∧ PendingAcks c p es)
    (fun τ => ∀ p w, τ.Up c p w → p.got = w.sent ∧ clientParse m p.opts.protocolVersion p.buf = .needMore)
    (downLeft c) ?_ σ ⟨rfl, h⟩)
  · rintro evs ⟨a, b, ⟨d1, es, p, w, d2, _, d3⟩, g⟩
    exact ⟨a, b, d1, es, p, w, d2, d3, g p w d2.up⟩
  rintro τ ⟨hn, es, p, w, h, hs, hpa⟩
  rcases h.downward (m := m) hs with hd | ⟨e, p', N, h1, h2, h3, h4, h5, h6, _⟩
  · left
    intro p' w' hu
    have := hu.peer; rw [h.up.peer] at this; cases this
    have := hu.wire; rw [h.up.wire] at this; cases this
    exact hd
  · right
    obtain ⟨ex, p1, w1, hl, hopts⟩ := h.step (m := m) h1 h2
    refine ⟨e, h1, h2, ⟨?_, es ++ ex, p1, w1, hl, ?_, ?_⟩, by rw [h3]; exact h6⟩
    · rw [h3]; exact hn
    · have := hl.up.wire
      rw [h3] at this
      have this : τ.net.wires.get c = some w1 := this
      rw [h.up.wire] at this; cases this
      rw [hopts]; exact hs
    · have hpe : p1 = p' := by
        have := hl.up.peer
        rw [h3] at this
        have this : (τ.peers.insert c p').get c = some p1 := this
        rw [Map.get_insert, if_pos rfl] at this
        exact (Option.some.inj this).symm
      subst hpe
      exact hpa.grow (h.inv.packets_le h.up.peer) N h4 h5

/-! ## The server acts on acknowledgements -/

/-- Whether there is something to send depends on the subscriptions and the tree only. -/
theorem idle_of {cfg : AuthConfig} {srv srv' : Server} {c : Nat} {s s' : Session} (ha : srv.at c = some s)
    (ha' : srv'.at c = some s') (hsub : s'.subscriptions = s.subscriptions)
    (htree : srv'.world.broker.tree = srv.world.broker.tree) {f : Str} (h : (srv.step cfg (.deliver c f)).2 = {}) :
    (srv'.step cfg (.deliver c f)).2 = {} := by
  obtain ⟨k, hk, hs, e⟩ := onConn_at ha (fun r s => srv.deliver c r s f)
  obtain ⟨k', hk', hs', e'⟩ := onConn_at ha' (fun r s => srv'.deliver c r s f)
  have e1 : srv.step cfg (.deliver c f) = srv.deliver c k.session s f := e
  have e1' : srv'.step cfg (.deliver c f) = srv'.deliver c k'.session s' f := e'
  rw [e1] at h
  rw [e1']
  unfold Server.deliver at h ⊢
  rw [htree]
  rcases processOutgoing_cases s srv.world.broker.tree f with
    ⟨h1, hx⟩ | ⟨st, mm, st', hst, hp, ⟨u, _, h1⟩ | ⟨h0, h1⟩⟩
  · rcases processOutgoing_cases s' srv.world.broker.tree f with
      ⟨h1', _⟩ | ⟨st, mm, st', hst, hp, _⟩
    · rw [h1']
    · rw [hsub] at hst
      rcases hx with hx | ⟨st2, hx, hx2⟩
      · rw [hx] at hst; cases hst
      · rw [hx] at hst; cases hst
        rw [hx2] at hp; cases hp
  · rw [h1] at h; cases h
  · rw [h1] at h; cases h

/-- The server acts on an acknowledgement, or has acted on everything. -/
theorem Live.acked {m : Mode} {cfg : AuthConfig} {c : Nat} {σ : System} {es : List Event} {p : Peer} {w : Wire}
    (h : Live cfg c σ es p w) (hpa : PendingAcks c p es) (hid : ∀ f, (σ.net.server.step cfg (.deliver c f)).2 = {}) :
    (w.rcvd = p.wrote ∧ w.buf = []) ∨
    ∃ (e : SysEvent) (ex : List Event) (w' : Wire), e.Own c ∧ (∀ n, e ≠ .clientRead c n) ∧ Live cfg c (σ.step m cfg e) (es ++ ex) p w' ∧
      PendingAcks c p (es ++ ex) ∧ w'.sent = w.sent ∧ (∀ f, ((σ.step m cfg e).net.server.step cfg (.deliver c f)).2 = {}) ∧
      upLeft c (σ.step m cfg e) < upLeft c σ ∧
      ((σ.step m cfg e).net.server = σ.net.server ∨ Touched c σ.net.server (σ.step m cfg e).net.server) := by
  have hp := h.up.peer
  have hw := h.up.wire
  rcases h.upward (m := m) with hd | ⟨b, _, ht, e⟩ | ⟨q, b, rest, hq, hb, hbuf, e⟩
  · exact Or.inl hd
  · obtain ⟨ex, p', w', hl, _⟩ := h.step (m := m) (e := .serverRead c 1) rfl (readOk_other (by simp))
    have e1 := hl.up.peer
    have e2 := hl.up.wire
    rw [e] at e1 e2
    have e1 : σ.peers.get c = some p' := e1
    rw [hp] at e1; cases e1
    simp only [Map.get_insert, if_true, Option.some.injEq] at e2
    subst e2
    refine Or.inr ⟨.serverRead c 1, ex, _, rfl, by simp, hl, hpa.grow (h.inv.packets_le hp) [] (by simp) (by simp), rfl, ?_, ?_, ?_⟩
    · rw [e]; exact hid
    · rw [e]; exact upLeft_read hp hw ht
    · rw [e]; exact Or.inl rfl
  · have ho : (SysEvent.serverTurn c [] true).Own c := ⟨rfl, textField_nil⟩
    -- it is an acknowledgement
    have hmem : q ∈ p.outgoing.drop (packetsOf c es).length := by
      refine List.mem_of_getElem? (i := 0) ?_
      rw [List.getElem?_drop]; simpa using hq
    obtain ⟨a, rfl⟩ := hpa q hmem
    have hopen : σ.net.server.isOpen c := (h.inv.net.opened c).mpr ⟨w, hw, h.up.server, h.begun⟩
    have hreach : Server.Reachable cfg σ.net.server := ⟨es, h.inv.net.server⟩
    obtain ⟨s, ha⟩ := at_of_isOpen hreach.inv hopen
    obtain ⟨a', ha'⟩ : ∃ a', (Packet.pubAck a).received = .pubAck a' := ⟨_, rfl⟩
    obtain ⟨k, hk, hs, est⟩ := step_recv_ok (cfg := cfg) (p := .pubAck a') ha (by simp)
      (s' := { s with unacked := s.unacked.erase a'.packetId }) (w' := σ.net.server.world) (res := none) rfl
    have esrv : (σ.step m cfg (.serverTurn c [] true)).net.server = (σ.net.server.step cfg (.recv c (.pubAck a'))).1 ∧
        ∃ w', (σ.step m cfg (.serverTurn c [] true)).net.wires.get c = some w' ∧ w'.sent = w.sent := by
      have hres : decide (w.keepalive ≠ 0) = true := by
        rw [h.inv.keepalive hp hw h.begun]; simpa using h.pend.2.2
      rw [e, ha']
      simp only [Net.act, est, Option.toList, writePackets, if_true, Map.get_insert, List.append_nil, Net.resets, hres,
        Bool.and_self]
      exact ⟨trivial, _, rfl, rfl⟩
    obtain ⟨es1, w', es2, es3⟩ := esrv
    obtain ⟨ex, p1, w1, hl, _⟩ := h.step (m := m) ho (readOk_other (by simp))
    have e1 : (σ.step m cfg (.serverTurn c [] true)).peers.get c = some p := hp
    rw [hl.up.peer] at e1; cases e1
    have e2 := hl.up.wire
    rw [es2] at e2; injection e2 with e2; subst e2
    refine Or.inr ⟨.serverTurn c [] true, ex, _, ho, by simp, hl, hpa.grow (h.inv.packets_le hp) [] (by simp) (by simp),
      es3, ?_, ?_, ?_⟩
    · intro f
      rw [es1]
      refine idle_of (s' := { s with unacked := s.unacked.erase a'.packetId }) ha ?_ rfl ?_ (hid f)
      · rw [est]; exact at_put_same (by exact hk) _
      · rw [est]; rfl
    · rw [e]; exact upLeft_turn hp hw hb hbuf
    · rw [es1, est]; exact Or.inr ⟨k, _, _, hk, rfl⟩

theorem settle_acks (m : Mode) (cfg : AuthConfig) (c : Nat) (σ : System)
    (h : ∃ es p w, Live cfg c σ es p w ∧ PendingAcks c p es ∧ p.got = w.sent ∧
        clientParse m p.opts.protocolVersion p.buf = .needMore)
    (hid : ∀ f, (σ.net.server.step cfg (.deliver c f)).2 = {}) :
    ∃ evs : List SysEvent, (∀ e ∈ evs, e.Own c) ∧ ReadsWell m cfg c σ evs ∧
      (∃ es p w, Live cfg c (σ.run m cfg evs) es p w) ∧ (σ.run m cfg evs).Quiet m cfg c := by
  refine Exists.imp ?_ (progress (m := m) (cfg := cfg) (c := c)
    (fun τ => (∃ es p w, Live cfg c τ es p w ∧ PendingAcks c p es ∧ p.got = w.sent ∧
        clientParse m p.opts.protocolVersion p.buf = .needMore) ∧
      ∀ f, (τ.net.server.step cfg (.deliver c f)).2 = {})
    (fun τ => ∃ p w, τ.Up c p w ∧ w.rcvd = p.wrote ∧ w.buf = []) (upLeft c) ?_ σ ⟨h, hid⟩)
  · rintro evs ⟨a, b, ⟨⟨es, p, w, d1, _, d2, d3⟩, d4⟩, g⟩
    exact ⟨a, b, ⟨es, p, w, d1⟩, g, p, w, d1.up, d4, d2, d3⟩
  rintro τ ⟨⟨es, p, w, h, hpa, hg, hn⟩, hid⟩
  rcases h.acked (m := m) hpa hid with hd | ⟨e, ex, w', h1, h2, h3, h4, h5, h6, h7, _⟩
  · exact Or.inl ⟨p, w, h.up, hd⟩
  · exact Or.inr ⟨e, h1, readOk_other h2, ⟨⟨_, p, w', h3, h4, by rw [h5]; exact hg, hn⟩, h6⟩, h7⟩

end Mercurio
