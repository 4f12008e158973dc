import Verif.Lemmas.Solo

/-! # The whole system: invariant -/

namespace Mercurio

open Spec Server

/-! ## Connections of the server -/

/-- What an event can do to a connection of the server. -/
structure WireStep (ne : NetEvent) (c : Nat) (w w' : Wire) : Prop where
  running : w'.running = true → w.running = true
  begun : w.begun = true → w'.begun = true
  sent : w.sent <+: w'.sent
  rcvd : w'.rcvd = w.rcvd ∨ ∃ b, ne = .data c b ∧ w'.rcvd = w.rcvd ++ b

theorem WireStep.refl (ne : NetEvent) (c : Nat) (w : Wire) : WireStep ne c w w :=
  ⟨id, id, List.prefix_refl _, Or.inl rfl⟩

theorem wire_step (m : Mode) (cfg : AuthConfig) (n : Net) (ne : NetEvent) (c : Nat) :
    (n.wires.get c = none ∧ ((n.step m cfg ne).wires.get c = none ∨
      ne = .accept c ∧ (n.step m cfg ne).wires.get c = some {})) ∨
    ∃ w w', n.wires.get c = some w ∧ (n.step m cfg ne).wires.get c = some w' ∧ WireStep ne c w w' := by
  have same : (n.step m cfg ne).wires.get c = n.wires.get c →
      (n.wires.get c = none ∧ ((n.step m cfg ne).wires.get c = none ∨
        ne = .accept c ∧ (n.step m cfg ne).wires.get c = some {})) ∨
      ∃ w w', n.wires.get c = some w ∧ (n.step m cfg ne).wires.get c = some w' ∧ WireStep ne c w w' := by
    intro h
    cases hw : n.wires.get c with
    | none => exact Or.inl ⟨rfl, Or.inl (h.trans hw)⟩
    | some w => exact Or.inr ⟨w, w, rfl, h.trans hw, .refl _ _ _⟩
  have change : ∀ {d : Nat} {w w' : Wire}, n.wires.get d = some w → WireStep ne d w w' →
      (n.step m cfg ne).wires = n.wires.insert d w' →
      (n.wires.get c = none ∧ ((n.step m cfg ne).wires.get c = none ∨
        ne = .accept c ∧ (n.step m cfg ne).wires.get c = some {})) ∨
      ∃ w w', n.wires.get c = some w ∧ (n.step m cfg ne).wires.get c = some w' ∧ WireStep ne c w w' := by
    intro d w w' hw hs he
    by_cases hd : d = c
    · subst hd
      exact Or.inr ⟨w, w', hw, by rw [he, Map.get_insert, if_pos rfl], hs⟩
    · exact same (by rw [he, Map.get_insert, if_neg hd])
  have act : ∀ {d : Nat} {w0 w : Wire} (x : Event), n.wires.get d = some w0 → w0.running = true →
      (w0.begun = true → w.begun = true) → w.sent = w0.sent → w.rcvd = w0.rcvd →
      n.step m cfg ne = n.act cfg d w x →
      (n.wires.get c = none ∧ ((n.step m cfg ne).wires.get c = none ∨
        ne = .accept c ∧ (n.step m cfg ne).wires.get c = some {})) ∨
      ∃ w w', n.wires.get c = some w ∧ (n.step m cfg ne).wires.get c = some w' ∧ WireStep ne c w w' := by
    intro d w0 w x hw hr hb hs hv he
    refine change hw ⟨fun _ => hr, ?_, ?_, Or.inl ?_⟩ (by rw [he]; rfl)
    · exact hb
    · rw [← hs]; exact List.prefix_append _ _
    · exact hv
  cases ne with
  | accept d =>
    cases hw : n.wires.get d with
    | some w => exact same (by simp only [Net.step, hw])
    | none =>
      by_cases hd : d = c
      · subst hd
        exact Or.inl ⟨hw, Or.inr ⟨rfl, by simp [Net.step, hw, Map.get_insert]⟩⟩
      · exact same (by simp only [Net.step, hw, Map.get_insert, if_neg hd])
  | data d b =>
    cases hw : n.wires.get d with
    | none => exact same (by simp only [Net.step, Net.onWire, hw])
    | some w =>
      cases hr : w.running with
      | false => exact same (by simp [Net.step, Net.onWire, hw, hr])
      | true =>
        cases hp : parsePacket m w.buf with
        | needMore =>
          by_cases hb : b = []
          · exact act (.close d) hw hr id rfl rfl (by simp [Net.step, Net.onWire, hw, hr, hp, hb])
          · exact change (w' := { w with buf := w.buf ++ b, rcvd := w.rcvd ++ b }) hw
              ⟨fun _ => hr, id, List.prefix_refl _, Or.inr ⟨b, rfl, rfl⟩⟩
              (by simp [Net.step, Net.onWire, hw, hr, hp, hb])
        | _ => exact same (by simp [Net.step, Net.onWire, hw, hr, hp])
  | turn d u wr =>
    cases hw : n.wires.get d with
    | none => exact same (by simp only [Net.step, Net.onWire, hw])
    | some w =>
      cases hr : w.running with
      | false => exact same (by simp [Net.step, Net.onWire, hw, hr])
      | true =>
        cases hp : parsePacket m w.buf with
        | needMore => exact same (by simp [Net.step, Net.onWire, hw, hr, hp])
        | packet p rest =>
          exact act (w := { w with buf := rest, begun := true, keepalive := if w.begun then w.keepalive else Net.keepaliveOf p })
            (if w.begun then .recv d p else .first d p u wr) hw hr (fun _ => rfl) rfl rfl
            (by simp [Net.step, Net.onWire, hw, hr, hp])
        | error e => exact act (.close d) hw hr id rfl rfl (by simp [Net.step, Net.onWire, hw, hr, hp])
        | panicked => exact act (.abort d) hw hr id rfl rfl (by simp [Net.step, Net.onWire, hw, hr, hp])
  | deliver d f =>
    cases hw : n.wires.get d with
    | none => exact same (by simp only [Net.step, Net.onWire, hw])
    | some w =>
      cases hr : w.running with
      | false => exact same (by simp [Net.step, Net.onWire, hw, hr])
      | true =>
        cases hb : w.begun with
        | false => exact same (by simp [Net.step, Net.onWire, hw, hr, hb])
        | true => exact act (.deliver d f) hw hr id rfl rfl (by simp [Net.step, Net.onWire, hw, hr, hb])
  | close d =>
    cases hw : n.wires.get d with
    | none => exact same (by simp only [Net.step, Net.onWire, hw])
    | some w =>
      cases hr : w.running with
      | false => exact same (by simp [Net.step, Net.onWire, hw, hr])
      | true => exact act (.close d) hw hr id rfl rfl (by simp [Net.step, Net.onWire, hw, hr])

/-! ## What an event does -/

/-- What an event does to client `c`. -/
inductive PeerMove (m : Mode) (σ : System) (c : Nat) (p : Peer) : SysEvent → Peer → Prop
  | read {n : Nat} {b : Buf} : p.reading = true → clientParse m p.opts.protocolVersion p.buf = .needMore →
      b ≠ [] → b.length ≤ 4096 → b <+: σ.downstream c p →
      PeerMove m σ c p (.clientRead c n) { p with buf := p.buf ++ b, got := p.got ++ b }
  | turn {ok : Bool} {q : Packet} {rest : Buf} : p.reading = true →
      clientParse m p.opts.protocolVersion p.buf = .packet q rest →
      PeerMove m σ c p (.clientTurn c ok) ({ p with buf := rest }.receive (.packet q) ok)
  | lost {e : SysEvent} {r : ReadOut} {ok : Bool} : p.reading = true → (∀ q, r ≠ .packet q) →
      PeerMove m σ c p e (p.receive r ok)
  | timeout {e : SysEvent} : p.phase = .connecting →
      PeerMove m σ c p e { p with phase := .failed (some .timeout) }
  | app {i : ClientIn} {l : Client} : p.phase = .connected l → (∀ r ok, i ≠ .read r ok) →
      PeerMove m σ c p (.app c i) (p.act l i)

/-- What an event does to the system. -/
inductive Moves (m : Mode) (cfg : AuthConfig) (σ : System) : SysEvent → System → Prop
  | idle {e : SysEvent} : Moves m cfg σ e σ
  | net {e : SysEvent} {ne : NetEvent} : (∀ c, ne ≠ .accept c) →
      (∀ c b, ne = .data c b → b.length ≤ 2 ^ 31 ∧ ∃ p, σ.peers.get c = some p ∧ b <+: σ.upstream c p) →
      (∀ c u w, ne = .turn c u w → e = .serverTurn c u w) →
      Moves m cfg σ e { σ with net := σ.net.step m cfg ne }
  | connect {c : Nat} {o : ConnectOptions} {b : Buf} : σ.peers.get c = none →
      (Packet.connect (buildConnect o)).encode = .ok b →
      Moves m cfg σ (.connect c o) ⟨σ.net.step m cfg (.accept c), σ.peers.insert c { opts := o, wrote := b }⟩
  | peer {e : SysEvent} {c : Nat} {p p' : Peer} : σ.peers.get c = some p → PeerMove m σ c p e p' →
      Moves m cfg σ e (σ.put c p')

theorem moves (m : Mode) (cfg : AuthConfig) (σ : System) (e : SysEvent) : Moves m cfg σ e (σ.step m cfg e) := by
  cases e with
  | connect c o =>
    simp only [System.step]
    split
    · rename_i b h1 h2; exact .connect h1 h2
    · exact .idle
  | serverRead c n =>
    simp only [System.step, System.onPeer]
    split
    · exact .idle
    · rename_i p hp
      split
      · split
        · refine .net (by simp) ?_ (by simp)
          intro c' b h; cases h
          exact ⟨by simp, p, hp, List.nil_prefix⟩
        · exact .idle
      · rename_i b bs hb
        refine .net (by simp) ?_ (by simp)
        intro c' b' h; cases h
        rw [← hb]
        exact ⟨by rw [List.length_take]; omega, p, hp, List.take_prefix _ _⟩
  | serverTurn c u w =>
    refine .net (by simp) (by simp) ?_
    intro c' u' w' h; cases h; rfl
  | deliver c f => exact .net (by simp) (by simp) (by simp)
  | serverClose c => exact .net (by simp) (by simp) (by simp)
  | clientRead c n =>
    simp only [System.step, System.onPeer]
    split
    · exact .idle
    · rename_i p hp
      split
      · rename_i hr
        simp only [Bool.and_eq_true, beq_iff_eq] at hr
        split
        · split
          · exact .peer hp (.lost hr.1 (by simp))
          · exact .idle
        · rename_i b bs hb
          refine .peer hp (.read hr.1 hr.2 (by simp) ?_ ?_)
          · rw [← hb, List.length_take]; omega
          · rw [← hb]; exact List.take_prefix _ _
      · exact .idle
  | clientTurn c ok =>
    simp only [System.step, System.onPeer]
    split
    · exact .idle
    · rename_i p hp
      split
      · rename_i hr
        split
        · exact .idle
        · rename_i q rest hq; exact .peer hp (.turn hr hq)
        · exact .peer hp (.lost hr (by simp))
        · exact .peer hp (.lost hr (by simp))
      · exact .idle
  | clientError c =>
    simp only [System.step, System.onPeer]
    split
    · exact .idle
    · rename_i p hp
      split
      · rename_i hr; exact .peer hp (.lost hr (by simp))
      · exact .idle
  | timeout c =>
    simp only [System.step, System.onPeer]
    split
    · exact .idle
    · rename_i p hp
      split
      · rename_i hr; exact .peer hp (.timeout hr)
      · exact .idle
  | app c i =>
    simp only [System.step, System.onPeer]
    split
    · exact .idle
    · rename_i p hp
      split
      · exact .idle
      · rename_i l hl hi
        refine .peer hp (.app hl ?_)
        rintro r ok rfl
        exact hi r ok rfl
      · exact .idle

/-! ## What a client keeps -/

theorem act_wrote (p : Peer) (l : Client) (i : ClientIn) : p.wrote <+: (p.act l i).wrote :=
  List.prefix_append _ _

theorem receive_keeps (p : Peer) (r : ReadOut) (ok : Bool) :
    (p.receive r ok).opts = p.opts ∧ p.wrote <+: (p.receive r ok).wrote ∧
    ((p.receive r ok).history = p.history ∨ ∃ o, (p.receive r ok).history = p.history ++ [(.read r ok, o)]) := by
  unfold Peer.receive
  split
  · exact ⟨rfl, List.prefix_refl _, Or.inl rfl⟩
  · exact ⟨rfl, act_wrote _ _ _, Or.inr ⟨_, rfl⟩⟩
  · exact ⟨rfl, List.prefix_refl _, Or.inl rfl⟩

/-- What an event leaves alone in a client. -/
structure PeerKeeps (e : SysEvent) (c : Nat) (p p' : Peer) : Prop where
  opts : p'.opts = p.opts
  wrote : p.wrote <+: p'.wrote
  history : p'.history = p.history ∨ ∃ x, p'.history = p.history ++ [x] ∧
    ((∃ r ok, x.1 = .read r ok) ∨ e = .app c x.1)
  socket : p'.socketOpen = true → p.socketOpen = true

theorem step_running {l : Client} {i : ClientIn} (h : (l.step i).1.running = true) : l.running = true := by
  cases hr : l.running with
  | true => rfl
  | false =>
    exfalso
    unfold Client.step at h
    split at h
    · unfold Client.take at h; split at h <;> simp_all
    split at h
    · simp_all
    split at h
    · simp_all
    · cases i <;> simp_all [Client.refuse]

theorem socketOpen_reading {p : Peer} (h : p.reading = true) : p.socketOpen = true := by
  unfold Peer.reading at h
  unfold Peer.socketOpen
  split at h
  · rename_i hp; simp [hp]
  · rename_i hp; simp only [Bool.and_eq_true] at h; simp [hp, h.1]
  · cases h

theorem PeerMove.keeps {m : Mode} {σ : System} {c : Nat} {p p' : Peer} {e : SysEvent}
    (h : PeerMove m σ c p e p') : PeerKeeps e c p p' := by
  have rcv : ∀ (q : Peer) (r : ReadOut) (ok : Bool), p.reading = true → q.opts = p.opts → q.wrote = p.wrote →
      q.history = p.history → PeerKeeps e c p (q.receive r ok) := by
    intro q r ok hr h1 h2 h3
    obtain ⟨a, b, d⟩ := receive_keeps q r ok
    refine ⟨a.trans h1, h2 ▸ b, ?_, fun _ => socketOpen_reading hr⟩
    rcases d with d | ⟨o, d⟩
    · exact Or.inl (d.trans h3)
    · exact Or.inr ⟨_, h3 ▸ d, Or.inl ⟨r, ok, rfl⟩⟩
  cases h with
  | read hr _ _ _ _ => exact ⟨rfl, List.prefix_refl _, Or.inl rfl, fun _ => socketOpen_reading hr⟩
  | turn hr _ => exact rcv _ _ _ hr rfl rfl rfl
  | lost hr _ => exact rcv _ _ _ hr rfl rfl rfl
  | timeout hp => exact ⟨rfl, List.prefix_refl _, Or.inl rfl, fun h => by cases h⟩
  | @app i l hp hi =>
    refine ⟨rfl, act_wrote _ _ _, Or.inr ⟨_, rfl, Or.inr rfl⟩, fun h => ?_⟩
    have : l.running = true := step_running h
    simp [Peer.socketOpen, hp, this]

theorem PeerMove.inv {m : Mode} {σ : System} {c : Nat} {p p' : Peer} {e : SysEvent}
    (h : PeerMove m σ c p e p') (he : e.Ordinary) (hi : PeerInv p) : PeerInv p' := by
  cases h with
  | read => exact hi.buf _ _
  | turn => exact PeerInv.receive (p := { p with buf := _ }) (hi.buf _ _) _ _
  | lost => exact hi.receive _ _
  | timeout hp => exact ⟨hi.opts, hi.will, hi.sent, hi.steps, fun _ => hi.idle (by simp [Peer.loop, hp])⟩
  | app => exact hi.act (inOrd_app he)

/-! ## The invariant -/

/-- What holds in every system whose applications are ordinary; `es` is the history of its server. -/
structure SysInv (cfg : AuthConfig) (σ : System) (es : List Event) : Prop where
  net : NetInv cfg σ.net es
  ends : ∀ c, (σ.net.wires.get c).isSome ↔ (σ.peers.get c).isSome
  up : ∀ c p w, σ.peers.get c = some p → σ.net.wires.get c = some w → w.rcvd <+: p.wrote
  peer : ∀ c p, σ.peers.get c = some p → PeerInv p
  log : LogInv cfg es
  firsts : ∀ d q u w, Event.first d q u w ∈ es → TextField u ∧
    ∃ p, σ.peers.get d = some p ∧ q = (Packet.connect (wireConnect p.opts)).received
  restart : Event.restart ∉ es

theorem sysInv_init (cfg : AuthConfig) : SysInv cfg System.init [] := by
  refine ⟨.init cfg, ?_, ?_, ?_, logInv_nil cfg, by simp, by simp⟩
  · intro c; simp [System.init, Net.init, Map.get]
  · intro c p w h; simp [System.init, Map.get] at h
  · intro c p h; simp [System.init, Map.get] at h

/-- The packets the server read from a client are the first ones it sent. -/
theorem SysInv.packets {cfg : AuthConfig} {σ : System} {es : List Event} (h : SysInv cfg σ es) {c : Nat} {p : Peer}
    (hp : σ.peers.get c = some p) : ∃ k, packetsOf c es = (p.outgoing.take k).map Packet.received := by
  obtain ⟨w, hw⟩ := Option.isSome_iff_exists.mp ((h.ends c).mpr (by rw [hp]; rfl))
  obtain ⟨fut, hf⟩ := h.up c p w hp hw
  obtain ⟨k, hk, _⟩ := h.net.read c w hw _ _ fut (h.peer c p hp).sent hf
  exact ⟨k, hk⟩

theorem wireConnect_keepalive (o : ConnectOptions) : (wireConnect o).keepalive = o.keepAlive := by
  unfold wireConnect
  split <;> rfl

/-- The keep-alive the server goes by is the one of the client's options. -/
theorem SysInv.keepalive {cfg : AuthConfig} {σ : System} {es : List Event} (h : SysInv cfg σ es) {c : Nat} {p : Peer}
    {w : Wire} (hp : σ.peers.get c = some p) (hw : σ.net.wires.get c = some w) (hb : w.begun = true) :
    w.keepalive = p.opts.keepAlive := by
  obtain ⟨q, h1, h2⟩ := h.net.kept c w hw hb
  obtain ⟨k, hk⟩ := h.packets hp
  rw [hk] at h1
  cases k with
  | zero => cases h1
  | succ k =>
    simp only [Peer.outgoing, List.take_succ_cons, List.map_cons, List.head?_cons, Option.some.injEq] at h1
    subst h1
    rw [h2, ← wireConnect_keepalive]
    simp only [Packet.received, Net.keepaliveOf, ConnectPacket.received]
    split <;> rfl

/-- How the server's history grows. -/
def Grows (m : Mode) (cfg : AuthConfig) (σ σ' : System) (ex : List Event) : Prop :=
  (ex = [] ∧ σ'.net = σ.net) ∨ ∃ ne, Extends σ.net ne ex ∧ σ'.net = σ.net.step m cfg ne

theorem packetsOf_append (c : Nat) (a b : List Event) : packetsOf c (a ++ b) = packetsOf c a ++ packetsOf c b := by
  simp [packetsOf]

/-- The rest of the invariant after the server moved. -/
theorem SysInv.extend {m : Mode} {cfg : AuthConfig} {σ σ' : System} {es ex : List Event} (h : SysInv cfg σ es)
    {ne : NetEvent} (hx : Extends σ.net ne ex) (hn : NetInv cfg σ'.net (es ++ ex))
    (ends : ∀ c, (σ'.net.wires.get c).isSome ↔ (σ'.peers.get c).isSome)
    (up : ∀ c p w, σ'.peers.get c = some p → σ'.net.wires.get c = some w → w.rcvd <+: p.wrote)
    (peer : ∀ c p, σ'.peers.get c = some p → PeerInv p)
    (old : ∀ c p, σ.peers.get c = some p → ∃ p', σ'.peers.get c = some p' ∧ p'.opts = p.opts)
    (uuid : ∀ c u w, ne = .turn c u w → TextField u) : SysInv cfg σ' (es ++ ex) := by
  have pk : ∀ c p, σ'.peers.get c = some p → ∃ k, packetsOf c (es ++ ex) = (p.outgoing.take k).map Packet.received := by
    intro c p hp
    obtain ⟨w, hw⟩ := Option.isSome_iff_exists.mp ((ends c).mpr (by rw [hp]; rfl))
    obtain ⟨fut, hf⟩ := up c p w hp hw
    obtain ⟨k, hk, _⟩ := hn.read c w hw _ _ fut (peer c p hp).sent hf
    exact ⟨k, hk⟩
  -- a first packet is a CONNECT
  have fst : ∀ d q u w, Event.first d q u w ∈ ex → packetsOf d es = [] ∧ TextField u ∧
      ∃ p, σ'.peers.get d = some p ∧ q = (Packet.connect (wireConnect p.opts)).received := by
    intro d q u w hm
    rcases hx with rfl | ⟨x, hst, hex⟩
    · cases hm
    have hx : x = .first d q u w := by
      rcases hex with rfl | rfl
      · simp at hm; exact hm.symm
      · simp at hm; exact hm.symm
    subst hx
    cases hst with
    | @first _ _ _ _ w0 hw hr hb =>
      have hn0 := h.net.begun d w0 hw hb
      obtain ⟨p0, hp0⟩ := Option.isSome_iff_exists.mp ((h.ends d).mp (by rw [hw]; rfl))
      obtain ⟨p, hp, _⟩ := old d p0 hp0
      refine ⟨hn0, uuid d u w rfl, p, hp, ?_⟩
      obtain ⟨k, hk⟩ := pk d p hp
      have e1 : packetsOf d ex = [q] := by
        rcases hex with rfl | rfl <;> simp [packetsOf]
      rw [packetsOf_append, hn0, e1, List.nil_append] at hk
      cases k with
      | zero => simp at hk
      | succ k =>
        simp only [Peer.outgoing, List.take_succ_cons, List.map_cons, List.cons.injEq] at hk
        exact hk.1
  refine ⟨hn, ends, up, peer, ?_, ?_, ?_⟩
  · rcases hx with rfl | ⟨x, hst, hex⟩
    · rw [List.append_nil]; exact h.log
    · have h1 : LogInv cfg (es ++ [x]) := by
        refine logInv_snoc h.log ?_
        rintro d p u w rfl
        obtain ⟨a, _, _, _, b⟩ := fst d p u w (by rcases hex with rfl | rfl <;> simp)
        exact ⟨a, _, b⟩
      rcases hex with rfl | rfl
      · exact h1
      · have := logInv_snoc (e := .abort ne.conn) h1 (by simp)
        simpa using this
  · intro d q u w hm
    rcases List.mem_append.mp hm with hm | hm
    · obtain ⟨a, p, hp, hq⟩ := h.firsts d q u w hm
      obtain ⟨p', hp', ho⟩ := old d p hp
      exact ⟨a, p', hp', by rw [ho]; exact hq⟩
    · exact (fst d q u w hm).2
  · intro hm
    rcases List.mem_append.mp hm with hm | hm
    · exact h.restart hm
    · rcases hx with rfl | ⟨x, hst, rfl | rfl⟩
      · cases hm
      · simp at hm; subst hm; cases hst
      · simp at hm; subst hm; cases hst

/-- Every event keeps the invariant. -/
theorem SysInv.step {m : Mode} {cfg : AuthConfig} {σ σ' : System} {es : List Event} (h : SysInv cfg σ es)
    {e : SysEvent} (he : e.Ordinary) (hm : Moves m cfg σ e σ') :
    ∃ ex, Grows m cfg σ σ' ex ∧ SysInv cfg σ' (es ++ ex) := by
  cases hm with
  | idle => exact ⟨[], Or.inl ⟨rfl, rfl⟩, by rwa [List.append_nil]⟩
  | @net _ ne h1 h2 h3 =>
    obtain ⟨ex, hx, hn⟩ := h.net.step m ne (fun c b hb => (h2 c b hb).1)
    refine ⟨ex, Or.inr ⟨ne, hx, rfl⟩, h.extend (m := m) hx hn ?_ ?_ h.peer (fun c p hp => ⟨p, hp, rfl⟩) ?_⟩
    · intro c
      show ((σ.net.step m cfg ne).wires.get c).isSome ↔ (σ.peers.get c).isSome
      rw [← h.ends c]
      rcases wire_step m cfg σ.net ne c with ⟨a, b | ⟨b, _⟩⟩ | ⟨w, w', a, b, _⟩
      · rw [a, b]
      · exact absurd b (h1 c)
      · rw [a, b]; exact ⟨fun _ => rfl, fun _ => rfl⟩
    · intro c p w' hp hw'
      rcases wire_step m cfg σ.net ne c with ⟨a, b | ⟨b, _⟩⟩ | ⟨w, w2, a, b, hs⟩
      · rw [show (σ.net.step m cfg ne).wires.get c = some w' from hw'] at b; cases b
      · exact absurd b (h1 c)
      · rw [show (σ.net.step m cfg ne).wires.get c = some w' from hw'] at b
        cases b
        have := h.up c p w hp a
        rcases hs.rcvd with e | ⟨d, hd, e⟩
        · rw [e]; exact this
        · obtain ⟨_, p', hp', hpre⟩ := h2 c d hd
          rw [hp] at hp'
          cases hp'
          unfold System.upstream at hpre
          simp only [a] at hpre
          obtain ⟨t, ht⟩ := this
          rw [← ht, List.drop_left] at hpre
          rw [e, ← ht]
          exact (List.prefix_append_right_inj _).mpr hpre
    · intro c u w hw
      have := h3 c u w hw
      subst this
      exact he
  | @connect c o b hp hb =>
    obtain ⟨ex, hx, hn⟩ := h.net.step m (.accept c) (by simp)
    have hw : σ.net.wires.get c = none := by
      have := h.ends c
      rw [hp] at this
      cases hw : σ.net.wires.get c with
      | none => rfl
      | some w => rw [hw] at this; simp at this
    refine ⟨ex, Or.inr ⟨_, hx, rfl⟩, h.extend (m := m) hx hn ?_ ?_ ?_ ?_ (by simp)⟩
    · intro d
      show ((σ.net.step m cfg (.accept c)).wires.get d).isSome ↔ _
      by_cases hd : c = d
      · subst hd
        simp [Net.step, hw, Map.get_insert]
      · simp only [Net.step, hw, Map.get_insert, if_neg hd]
        exact h.ends d
    · intro d p w hp' hw'
      have hw' : (σ.net.step m cfg (.accept c)).wires.get d = some w := hw'
      by_cases hd : c = d
      · subst hd
        simp only [Net.step, hw, Map.get_insert, if_true, Option.some.injEq] at hw'
        subst hw'
        exact List.nil_prefix
      · simp only [Net.step, hw, Map.get_insert, if_neg hd] at hw' hp'
        exact h.up d p w hp' hw'
    · intro d p hp'
      simp only [Map.get_insert] at hp'
      split at hp'
      · cases hp'
        exact peerInv_new he.1 he.2 hb
      · exact h.peer d p hp'
    · intro d p hp'
      have hd : c ≠ d := by rintro rfl; rw [hp] at hp'; cases hp'
      exact ⟨p, by simp only [Map.get_insert, if_neg hd]; exact hp', rfl⟩
  | @peer _ c p p' hp hm =>
    refine ⟨[], Or.inl ⟨rfl, rfl⟩, ?_⟩
    have hk := hm.keeps
    refine h.extend (m := m) (ne := .close c) (Or.inl rfl) (by rw [List.append_nil]; exact h.net) ?_ ?_ ?_ ?_ (by simp)
    · intro d
      show (σ.net.wires.get d).isSome ↔ ((σ.peers.insert c p').get d).isSome
      rw [h.ends d, Map.get_insert]
      split
      · rename_i hd; subst hd; rw [hp]; exact ⟨fun _ => rfl, fun _ => rfl⟩
      · rfl
    · intro d q w hq hw
      have hq : (σ.peers.insert c p').get d = some q := hq
      by_cases hd : c = d
      · subst hd
        rw [Map.get_insert, if_pos rfl, Option.some.injEq] at hq
        subst hq
        exact (h.up _ p w hp hw).trans hk.wrote
      · rw [Map.get_insert, if_neg hd] at hq
        exact h.up d q w hq hw
    · intro d q hq
      have hq : (σ.peers.insert c p').get d = some q := hq
      rw [Map.get_insert] at hq
      split at hq
      · cases hq; exact hm.inv he (h.peer c p hp)
      · exact h.peer d q hq
    · intro d q hq
      show ∃ q', (σ.peers.insert c p').get d = some q' ∧ _
      by_cases hd : c = d
      · subst hd
        rw [hp] at hq; cases hq
        exact ⟨p', by rw [Map.get_insert, if_pos rfl], hk.opts⟩
      · exact ⟨q, by rw [Map.get_insert, if_neg hd]; exact hq, rfl⟩

end Mercurio
