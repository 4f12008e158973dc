import Verif.Lemmas.Gone
import Verif.Props.Will

/-!
# The whole system: wills
-/

namespace Mercurio

open Spec Server

/-! ## The server -/

/-- A clean start takes the will of the CONNECT. -/
theorem start_will {srv : Server} (c : Nat) (p : ConnectPacket) (u : Str) (hno : ¬ srv.isOpen c) (w : Bool)
    (hc : p.flags.cleanStart = true) {s : Session} (hs : (srv.start c p u w).1.at c = some s) :
    s.will = willOfConnect p := by
  cases w with
  | false =>
    exfalso
    obtain ⟨r, hr⟩ := start_effect srv c p u false
    obtain ⟨k, hk⟩ := isOpen_of_at hs
    rw [hr.conns] at hk
    exact hno ⟨k, hk⟩
  | true =>
    obtain ⟨k, hk, hh⟩ := at_eq_some.mp hs
    simp only [Server.start, if_true, conns_put, heap_put] at hk hh
    rw [Map.get_insert, if_pos rfl] at hk
    cases hk
    simp only [Map.get_insert, if_true, Option.some.injEq] at hh
    have hrest : ∀ (fs : List Str) (s : Session) (w : World), (s.restoreSubscriptions w fs).1.will = s.will := by
      intro fs
      induction fs with
      | nil => intro s w; rfl
      | cons f fs ih => intro s w; simp only [Session.restoreSubscriptions, ih]; rfl
    have hf : (srv.find p.payload.clientId p.flags.cleanStart).will = none := by simp [Server.find, hc, Found.none]
    rw [← hh, hf]
    simp only [restoreWill]
    rw [hrest]
    obtain ⟨e1, e2, e3⟩ := enter_session (srv.discard p.payload.clientId p.flags.cleanStart) p
    rw [(begin_eq _ u _ p e1 e2).2.2.1, e3]

/-- No further CONNECT and nothing after DISCONNECT arrives on a connection. -/
def Once (c : Nat) (es : List Event) : Prop :=
  ∀ a b p u w, es = a ++ Event.first c p u w :: b → packetsOf c a = []

theorem Once.init {c : Nat} {es es' : List Event} (h : Once c (es ++ es')) : Once c es := by
  intro a b p u w e
  exact h a (b ++ es') p u w (by rw [e]; simp)

/-- An open connection of a client that started clean and has its session to itself: the session has the client's
will, which has not been published, and the client has not said that it leaves. -/
theorem solo_will (cfg : AuthConfig) {c : Nat} {id : Str} {v : ProtocolVersion} (W : Option StoredWill) (es : List Event)
    (h : Solo c id v es) (ho : Once c es)
    (hW : ∀ q u w, Event.first c (.connect q) u w ∈ es → q.flags.cleanStart = true ∧ willOfConnect q = W) :
    (packetsOf c es = [] → ¬ (Server.run cfg Server.init es).isOpen c ∧
      willPublications c (Server.run cfg Server.init es).world.log = []) ∧
    ∀ s, (Server.run cfg Server.init es).at c = some s → s.will = W ∧
      willPublications c (Server.run cfg Server.init es).world.log = [] ∧ ∀ x, Packet.disconnect x ∉ packetsOf c es := by
  induction es using snoc_induction with
  | h0 =>
    refine ⟨fun _ => ⟨?_, rfl⟩, fun s hs => ?_⟩
    · rintro ⟨k, hk⟩; simp [Server.run, Server.init, Map.get] at hk
    · simp [Server.run, Server.init, Server.at, Map.get] at hs
  | hs l e ih =>
    obtain ⟨ih0, ih1⟩ := ih h.init ho.init fun q u w hm => hW q u w (List.mem_append_left _ hm)
    have hi : Inv (Server.run cfg Server.init l) := (show Server.Reachable cfg _ from ⟨l, rfl⟩).inv
    rw [run_snoc, packetsOf_snoc]
    generalize hsrv : Server.run cfg Server.init l = srv at *
    have none_of : ¬ srv.isOpen c → srv.at c = none := by
      intro hn
      cases ha : srv.at c with
      | none => rfl
      | some s => exact absurd (isOpen_of_at ha) hn
    by_cases hec : ∃ d, e.conn = some d ∧ d ≠ c
    · obtain ⟨d, hd, hne⟩ := hec
      have hcs : (srv.step cfg e).1.conns.get c = srv.conns.get c := conns_other cfg srv hd (Ne.symm hne)
      have hwp : willPublications c (srv.step cfg e).1.world.log = willPublications c srv.world.log := by
        rw [step_log, willPublications_append, willPublications_foreign, List.append_nil]
        left
        intro hl
        cases hl <;> (cases hd; exact hne rfl)
      rw [packetsOf_other hd (Ne.symm hne), List.append_nil, hwp]
      refine ⟨fun hp => ⟨?_, (ih0 hp).2⟩, fun s hs => ?_⟩
      · rintro ⟨k, hk⟩
        rw [hcs] at hk
        exact (ih0 hp).1 ⟨k, hk⟩
      · have hop : srv.isOpen c := by
          obtain ⟨k, hk⟩ := isOpen_of_at hs
          rw [hcs] at hk
          exact ⟨k, hk⟩
        rw [at_apart cfg hi hd (Ne.symm hne) (by rw [← hsrv] at hop ⊢; exact h.init.mine hop)
          (by rw [← hsrv]; exact h.init.apart l hne)
          (fun p u w he hid => (h.others d p u w hne (by simp [he]) hid).1)] at hs
        exact ih1 s hs
    · have loc : LocalTo c e → packetsOf c [e] = [] ∨ (∃ p, e = .recv c p) →
          (packetsOf c l ++ packetsOf c [e] = [] → ¬ (srv.step cfg e).1.isOpen c ∧
            willPublications c (srv.step cfg e).1.world.log = []) ∧
          ∀ s, (srv.step cfg e).1.at c = some s → s.will = W ∧
            willPublications c (srv.step cfg e).1.world.log = [] ∧
            ∀ x, Packet.disconnect x ∉ packetsOf c l ++ packetsOf c [e] := by
        intro hl hpk
        refine ⟨fun hp => ?_, fun s hs => ?_⟩
        · obtain ⟨a, b⟩ := ih0 (List.append_eq_nil_iff.mp hp).1
          refine ⟨not_open_step a (by rintro p u w rfl; cases hl), ?_⟩
          rw [step_log, willPublications_append, willPublications_foreign _ _ _ _ (Or.inr (none_of a)), b]; rfl
        · have hop := isOpen_of_at hs
          cases ha : srv.at c with
          | none =>
            exfalso
            refine not_open_step (cfg := cfg) (e := e) (fun ho => ?_) (by rintro p u w rfl; cases hl) hop
            obtain ⟨s', hs'⟩ := at_of_isOpen hi ho
            rw [ha] at hs'; cases hs'
          | some s0 =>
            obtain ⟨s', a1, a2, _⟩ := own_open (cfg := cfg) hl ha hop
            rw [hs] at a1
            cases a1
            obtain ⟨b1, b2, b3⟩ := ih1 s0 ha
            refine ⟨a2.trans b1, ?_, ?_⟩
            · rw [step_log, willPublications_append, b2, List.nil_append]
              cases hl with
              | recv p =>
                simp only [eventCalls, ha]
                rw [willPublications_append, willPublications_packet, if_pos (Or.inr hop)]; rfl
              | deliver f => rfl
              | close =>
                exfalso
                obtain ⟨k, hk, hs2, e⟩ := onConn_at ha (fun r s => (srv.finish c r s, {}))
                have e' : srv.step cfg (.close c) = (srv.finish c k.session s0, {}) := e
                rw [e'] at hop
                exact not_open_finish _ _ _ _ hop
            · intro x hx
              rcases List.mem_append.mp hx with hx | hx
              · exact b3 x hx
              · rcases hpk with hpk | ⟨p, rfl⟩
                · rw [hpk] at hx; cases hx
                · have hpk : packetsOf c [Event.recv c p] = [p] := by simp [packetsOf]
                  rw [hpk, List.mem_singleton] at hx
                  subst hx
                  obtain ⟨k, hk, hs2, e⟩ := step_disconnect (cfg := cfg) (d := x) ha
                  rw [e] at hop
                  exact not_open_finish _ _ _ _ hop
      cases e with
      | first d p u w =>
        have hdc : d = c := Classical.byContradiction fun hne => hec ⟨d, rfl, hne⟩
        subst hdc
        obtain ⟨q, rfl, _, _⟩ := h.own p u w (by simp)
        have hpk : packetsOf d [Event.first d (.connect q) u w] = [.connect q] := by simp [packetsOf]
        have hl : packetsOf d l = [] := ho l [] _ u w rfl
        obtain ⟨i1, i2⟩ := ih0 hl
        have hwp : willPublications d (srv.step cfg (.first d (.connect q) u w)).1.world.log = [] := by
          rw [step_log, willPublications_append, willPublications_foreign _ _ _ _ (Or.inr (none_of i1)), i2]; rfl
        rw [hpk, hl]
        refine ⟨(by intro hx; cases hx), fun s hs => ⟨?_, hwp, by intro x hx; cases hx with | tail _ hx => cases hx⟩⟩
        obtain ⟨hcl, hWq⟩ := hW q u w (by simp)
        rcases step_first_cases cfg srv d (.connect q) u w with ⟨h', _⟩ | ⟨q', hq', ha, h'⟩
        · rw [h'] at hs; exact absurd (isOpen_of_at hs) i1
        · cases hq'
          rw [h'] at hs
          rw [start_will d q u ha.1 w hcl hs, hWq]
      | recv d p =>
        have hdc : d = c := Classical.byContradiction fun hne => hec ⟨d, rfl, hne⟩
        subst hdc
        exact loc (.recv p) (Or.inr ⟨p, rfl⟩)
      | deliver d f =>
        have hdc : d = c := Classical.byContradiction fun hne => hec ⟨d, rfl, hne⟩
        subst hdc
        exact loc (.deliver f) (Or.inl (by simp [packetsOf]))
      | close d =>
        have hdc : d = c := Classical.byContradiction fun hne => hec ⟨d, rfl, hne⟩
        subst hdc
        exact loc .close (Or.inl (by simp [packetsOf]))
      | abort d =>
        have hdc : d = c := Classical.byContradiction fun hne => hec ⟨d, rfl, hne⟩
        subst hdc
        have hcl : ¬ (srv.step cfg (.abort d)).1.isOpen d := by
          rintro ⟨k, hk⟩; simp [Server.step, Map.get_erase] at hk
        refine ⟨fun hp => ⟨hcl, ?_⟩, fun s hs => absurd (isOpen_of_at hs) hcl⟩
        exact (ih0 (List.append_eq_nil_iff.mp hp).1).2
      | restart =>
        have hcl : ¬ (srv.step cfg .restart).1.isOpen c := by
          rintro ⟨k, hk⟩; simp [Server.step, Map.get] at hk
        refine ⟨fun hp => ⟨hcl, ?_⟩, fun s hs => absurd (isOpen_of_at hs) hcl⟩
        rw [step_log, willPublications_append, (ih0 (List.append_eq_nil_iff.mp hp).1).2]; rfl

/-! ## The system -/

/-- The call that publishes the will `W` of connection `c`. -/
def callsOfWill (c : Nat) : Option StoredWill → List Call
  | none => []
  | some w => [.publish (.will c) w.topic ⟨none, w.topic, false, w.qos, w.retain, some w.payload⟩]

theorem willCalls_eq (c : Nat) (s : Session) : willCalls c s = callsOfWill c s.will := by
  unfold willCalls callsOfWill; cases s.will <;> rfl

/-- A client sends one CONNECT. -/
theorem SysInv.once {cfg : AuthConfig} {σ : System} {es : List Event} (h : SysInv cfg σ es) (c : Nat) : Once c es := by
  intro a b q u w e
  obtain ⟨_, p, hp, hq⟩ := h.firsts c q u w (by rw [e]; simp)
  obtain ⟨k, hk⟩ := h.packets hp
  cases ha : packetsOf c a with
  | nil => rfl
  | cons x xs =>
    exfalso
    rw [e, packetsOf_append, ha] at hk
    have e2 : packetsOf c (Event.first c q u w :: b) = q :: packetsOf c b := by simp [packetsOf]
    rw [e2] at hk
    cases k with
    | zero => simp at hk
    | succ k =>
      simp only [Peer.outgoing, List.take_succ_cons, List.map_cons, List.cons_append, List.cons.injEq] at hk
      have hm : q ∈ (p.sents.take k).map Packet.received := by rw [← hk.2]; simp
      obtain ⟨y, hy, hyq⟩ := List.mem_map.mp hm
      have ho := (h.peer c p hp).okFrom y (List.mem_of_mem_take hy)
      rw [hq] at hyq
      cases y with
      | connect x => exact ho.notConnect x rfl
      | _ => cases hyq

/-- What the CONNECT of a client that starts clean says. -/
theorem SysInv.connects {cfg : AuthConfig} {σ : System} {es : List Event} (h : SysInv cfg σ es) {c : Nat} {p : Peer}
    (hp : σ.peers.get c = some p) (hc : p.opts.cleanStart = true) :
    ∀ q u w, Event.first c (.connect q) u w ∈ es → q.flags.cleanStart = true ∧
      willOfConnect q = p.opts.will.map fun w => ⟨w.topic, w.payload, w.qos, w.retain⟩ := by
  intro q u w hm
  obtain ⟨_, p', hp', e⟩ := h.firsts c _ u w hm
  rw [hp] at hp'; cases hp'
  cases e
  have hs := wireConnect_says p.opts
  refine ⟨?_, ?_⟩
  · exact hs.cleanStart.trans hc
  · unfold willOfConnect
    cases hw : p.opts.will with
    | none => rw [(hs.noWill hw).1]; simp
    | some cw =>
      obtain ⟨h1, h2, h3, h4, h5⟩ := hs.will cw hw
      rw [h1, h2, h3, h4, h5]
      simp

/-- Why the server ends a connection. -/
theorem ends_by {m : Mode} {cfg : AuthConfig} {σ : System} {es : List Event} (h : SysInv cfg σ es) {c : Nat}
    {p : Peer} {w w' : Wire} (hp : σ.peers.get c = some p) (hw : σ.net.wires.get c = some w)
    (hr : w.running = true) (hb : w.begun = true) (hnp : m = .release ∨ Packet.pingReq ∉ p.outgoing)
    (hka : p.opts.keepAlive ≠ 0) {e : SysEvent}
    (hw' : (σ.step m cfg e).net.wires.get c = some w') (hr' : w'.running = false) :
    (σ.step m cfg e).peers.get c = some p ∧
    (((σ.step m cfg e).net.server = (σ.net.server.step cfg (.close c)).1 ∧
        (e = .serverClose c ∨ (w.rcvd = p.wrote ∧ w.buf = []) ∨ Packet.pingReq ∈ p.outgoing)) ∨
      ∃ q, p.outgoing[(packetsOf c es).length]? = some q ∧ q ∈ p.sents ∧ ¬ Fine q ∧
        (∃ rest, parsePacket m w.buf = .packet q.received rest) ∧
        (σ.step m cfg e).net.server = (σ.net.server.step cfg (.recv c q.received)).1) := by
  have same : (σ.step m cfg e).net.wires.get c = σ.net.wires.get c → False := by
    intro h; rw [hw', hw] at h; cases h; rw [hr] at hr'; cases hr'
  have runs : (∃ w', (σ.step m cfg e).net.wires.get c = some w' ∧ w'.running = true) → False := by
    rintro ⟨w2, h, h2⟩; rw [hw'] at h; cases h; rw [h2] at hr'; cases hr'
  have onPeer : ∀ d f, (∀ p, (f p).net = σ.net) → (System.onPeer σ d f).net = σ.net := by
    intro d f hf; unfold System.onPeer; split
    · rfl
    · exact hf _
  have ho : σ.net.server.isOpen c := (h.net.opened c).mpr ⟨w, hw, hr, hb⟩
  have hreach : Server.Reachable cfg σ.net.server := ⟨es, h.net.server⟩
  obtain ⟨s, hs⟩ := at_of_isOpen hreach.inv ho
  have hres : decide (w.keepalive ≠ 0) = true := by rw [h.keepalive hp hw hb]; simpa using hka
  have close_srv : ∀ w0, (σ.net.act cfg c w0 (.close c)).server = (σ.net.server.step cfg (.close c)).1 := by
    intro w0
    have hsent : (σ.net.server.step cfg (.close c)).2.sent = [] := by
      simp only [Server.step, onConn]
      split
      · rfl
      · split <;> rfl
    simp only [Net.act, hsent, writePackets, if_true, Net.resets, Bool.and_self]
  cases e with
  | connect d o =>
    refine (same ?_).elim
    simp only [System.step]
    split
    · rename_i b h1 h2
      have hd : d ≠ c := by rintro rfl; rw [hp] at h1; cases h1
      exact net_other hd
    · rfl
  | serverRead d n =>
    by_cases hd : d = c
    · subst hd
      simp only [System.step, System.onPeer, hp] at same runs ⊢
      cases hbs : (σ.upstream d p).take (min n (2 ^ 31)) with
      | nil =>
        rw [hbs] at same runs
        cases hx : (σ.upstream d p).isEmpty && !p.socketOpen with
        | false => rw [hx] at same; exact (same rfl).elim
        | true =>
          rw [Bool.and_eq_true, Bool.not_eq_true'] at hx
          have hu : σ.upstream d p = [] := List.isEmpty_iff.mp hx.1
          have hrc : w.rcvd = p.wrote := by
            obtain ⟨t, ht⟩ := h.up d p w hp hw
            simp only [System.upstream, hw, ← ht, List.drop_left] at hu
            rw [← ht, hu, List.append_nil]
          cases hn : parsePacket m w.buf with
          | needMore =>
            refine ⟨by simpa using hp, Or.inl ⟨?_, Or.inr ?_⟩⟩
            rotate_left
            · by_cases hx : Packet.pingReq ∈ p.outgoing
              · exact Or.inr hx
              · exact Or.inl ⟨hrc, h.empty hp hw hr hx hrc hn⟩
            have e1 : σ.net.step m cfg (.data d []) = σ.net.act cfg d w (.close d) := by
              simp only [Net.step, Net.onWire, hw, hr, if_true, hn]
            simp only [if_true]
            rw [e1]; exact close_srv w
          | _ =>
            rw [if_pos (by rw [Bool.and_eq_true, Bool.not_eq_true']; exact hx)] at same
            exact (same (by simp only [Net.step, Net.onWire, hw, hr, if_true, hn])).elim
      | cons b bs =>
        rw [hbs] at runs
        refine (runs ?_).elim
        simp only [Net.step, Net.onWire, hw, hr, if_true]
        split
        · exact ⟨{ w with buf := w.buf ++ b :: bs, rcvd := w.rcvd ++ b :: bs }, by
            simp [Map.get_insert, hr], hr⟩
        · exact ⟨w, hw, hr⟩
    · refine (same ?_).elim
      simp only [System.step, System.onPeer]
      repeat' split
      all_goals first
        | rfl
        | exact net_other hd
  | serverTurn d u b =>
    by_cases hd : d = c
    · subst hd
      refine ⟨hp, ?_⟩
      obtain ⟨fut, hf⟩ := h.up d p w hp hw
      obtain ⟨k, hk, hrest⟩ := h.net.read d w hw _ _ fut (h.peer d p hp).sent hf
      rcases next_on m (h.peer d p hp).sent (hrest hr) hf with ⟨_, hn, _⟩ |
        ⟨q, bb, rest, hq, _, _, _, _, hpq, done, hdone, _⟩ | ⟨rest, hq, _, hpq⟩ | ⟨hx, t, ht⟩
      · refine (runs ⟨w, ?_, hr⟩).elim
        show (σ.net.step m cfg (.turn d u b)).wires.get d = _
        simp only [Net.step, Net.onWire, hw, hr, if_true, hn]
      · right
        have hlt : k < p.outgoing.length := (List.getElem?_eq_some_iff.mp hq).1
        have hlen : (packetsOf d es).length = k := by
          rw [hk, List.length_map, List.length_take]; omega
        -- the CONNECT was read before
        have hk0 : k ≠ 0 := by
          rintro rfl
          obtain ⟨kk, hkk⟩ := ho
          rw [h.net.server] at hkk
          obtain ⟨x, y, z, hm, _⟩ := conns_from cfg es d kk hkk
          obtain ⟨a1, a2, ha⟩ := List.append_of_mem hm
          rw [ha, packetsOf_append] at hlen
          simp [packetsOf] at hlen
        have hsent : q ∈ p.sents := by
          obtain ⟨j, rfl⟩ := Nat.exists_eq_succ_of_ne_zero hk0
          simp only [Peer.outgoing, Nat.succ_eq_add_one, List.getElem?_cons_succ] at hq
          exact List.mem_of_getElem? hq
        have hgood := ((h.peer d p hp).okFrom q hsent).good
        have e : σ.net.step m cfg (.turn d u b) =
            σ.net.act cfg d { w with buf := rest, begun := true, keepalive := w.keepalive } (.recv d q.received) := by
          simp only [Net.step, Net.onWire, hw, hr, if_true, hpq, hb]
        refine ⟨q, by rw [hlen]; exact hq, hsent, ?_, ⟨rest, hpq⟩, ?_⟩
        · intro hfine
          apply runs
          obtain ⟨w2, a, b, _⟩ := turn_runs (m := m) h hp hw hr hb (by rw [hlen]; exact hdone.noPing) (by
            intro x hx
            rw [hlen, hq] at hx
            cases hx
            exact hfine) hka u b
          exact ⟨w2, a, b⟩
        · show (σ.net.step m cfg (.turn d u b)).server = _
          rw [e]
          simp only [Net.act]
          rw [writes_ok fun x hx => (recv_out cfg hs hgood x hx).1.2]
          simp only [Net.resets, hres, Bool.and_self, if_true]
      · refine (runs ?_).elim
        have hgood : GoodPacket σ.Wills Packet.pingReq.received := trivial
        have e : σ.net.step m cfg (.turn d u b) =
            σ.net.act cfg d { w with buf := 0 :: rest, begun := true, keepalive := w.keepalive } (.recv d Packet.pingReq.received) := by
          simp only [Net.step, Net.onWire, hw, hr, if_true, hpq, hb]
          rfl
        obtain ⟨w2, a, b, _⟩ := act_runs (cfg := cfg) (n := σ.net) (c := d)
          (w := { w with buf := 0 :: rest, begun := true, keepalive := w.keepalive }) (recv_stays hs (Or.inr rfl) hgood)
          (fun x hx => (recv_out cfg hs hgood x hx).1.2) hres
        refine ⟨w2, ?_, b⟩
        show (σ.net.step m cfg (.turn d u _)).wires.get d = _
        rw [e]; exact a
      · have hx := List.mem_of_mem_take hx
        have hrel : m = .release := hnp.resolve_right fun h => h hx
        subst hrel
        left
        refine ⟨?_, Or.inr (Or.inr hx)⟩
        cases hpp : parsePacket .release w.buf with
        | needMore =>
          refine (runs ⟨w, ?_, hr⟩).elim
          show (σ.net.step .release cfg (.turn d u b)).wires.get d = _
          simp only [Net.step, Net.onWire, hw, hr, if_true, hpp]
        | packet q rest => rw [ht] at hpp; exact absurd hpp (parsePacket_zero _ _ _ _)
        | panicked =>
          exfalso
          rw [ht] at hpp
          have hp0 : parse .release (0 :: t) = .err (.mqtt .malformedPacket) := rfl
          simp only [parsePacket, hp0] at hpp
          split at hpp
          · rename_i hc; exact check_noPanic _ hc
          all_goals cases hpp
        | error er =>
          have e1 : σ.net.step .release cfg (.turn d u b) = σ.net.act cfg d w (.close d) := by
            simp only [Net.step, Net.onWire, hw, hr, if_true, hpp]
          show (σ.net.step .release cfg (.turn d u b)).server = _
          rw [e1]; exact close_srv w
    · exact (same (net_other hd)).elim
  | deliver d f =>
    by_cases hd : d = c
    · subst hd
      refine (runs ?_).elim
      have e : σ.net.step m cfg (.deliver d f) = σ.net.act cfg d w (.deliver d f) := by
        simp only [Net.step, Net.onWire, hw, hr, if_true, hb]
      obtain ⟨w', a, b, _⟩ := act_runs (cfg := cfg) (n := σ.net) (c := d) (w := w) (deliver_stays hreach h.tame f ho)
        (fun x hx => (deliver_out cfg hreach h.tame d f .v5 x hx).2) rfl
      refine ⟨w', ?_, b⟩
      show (σ.net.step m cfg (.deliver d f)).wires.get d = _
      rw [e]; exact a
    · exact (same (net_other hd)).elim
  | serverClose d =>
    by_cases hd : d = c
    · subst hd
      refine ⟨hp, Or.inl ⟨?_, Or.inl rfl⟩⟩
      have e1 : σ.net.step m cfg (.close d) = σ.net.act cfg d w (.close d) := by
        simp only [Net.step, Net.onWire, hw, hr, if_true]
      show (σ.net.step m cfg (.close d)).server = _
      rw [e1]; exact close_srv w
    · exact (same (net_other hd)).elim
  | _ =>
    refine (same ?_).elim
    simp only [System.step]
    rw [onPeer]
    intro p
    repeat' split
    all_goals rfl

/-- The calls that published the will of connection `c`. -/
def willsNow (cfg : AuthConfig) (c : Nat) (es : List Event) : List Call :=
  willPublications c (Server.run cfg Server.init es).world.log

/-- Once a connection is closed its will is not published any more. -/
theorem wills_closed {m : Mode} {cfg : AuthConfig} {σ σ' : System} {es ex : List Event} (h : SysInv cfg σ es) {c : Nat}
    {w : Wire} (hw : σ.net.wires.get c = some w) (hr : w.running = false) (hg : Grows m cfg σ σ' ex) :
    willsNow cfg c (es ++ ex) = willsNow cfg c es := by
  have hno : (Server.run cfg Server.init es).at c = none := by
    cases ha : (Server.run cfg Server.init es).at c with
    | none => rfl
    | some s =>
      have := isOpen_of_at ha
      rw [← h.net.server] at this
      obtain ⟨w1, a, b, _⟩ := (h.net.opened c).mp this
      rw [hw] at a; cases a
      rw [hr] at b; cases b
  have one : ∀ x, willsNow cfg c (es ++ [x]) = willsNow cfg c es := by
    intro x
    unfold willsNow
    rw [run_snoc, step_log, willPublications_append, willPublications_foreign _ _ _ _ (Or.inr hno), List.append_nil]
  rcases hg with ⟨rfl, _⟩ | ⟨ne, hx, _⟩
  · rw [List.append_nil]
  · rcases hx with rfl | ⟨x, _, rfl | rfl⟩
    · rw [List.append_nil]
    · exact one x
    · have : es ++ [x, Event.abort ne.conn] = (es ++ [x]) ++ [Event.abort ne.conn] := by simp
      rw [this, ← one x]
      unfold willsNow
      rw [run_snoc, step_log, willPublications_append]
      simp [eventCalls, willPublications]

/-- What became of the will of client `c`. -/
def Willed (m : Mode) (cfg : AuthConfig) (c : Nat) (W : Option StoredWill) (σ : System) (es : List Event) : Prop :=
  ∃ p w, σ.peers.get c = some p ∧ σ.net.wires.get c = some w ∧ w.begun = true ∧
    (m = .release ∨ Packet.pingReq ∉ p.outgoing) ∧ (w.running = true → willsNow cfg c es = []) ∧
    (w.running = false → willsNow cfg c es = callsOfWill c W ∨
      willsNow cfg c es = [] ∧ ∃ x, Packet.disconnect x ∈ p.outgoing)

/-- The same if the server does not give up the connection. -/
def Parted (cfg : AuthConfig) (c : Nat) (σ : System) (es : List Event) : Prop :=
  ∃ p w, σ.peers.get c = some p ∧ σ.net.wires.get c = some w ∧ w.begun = true ∧
    ((w.running = true ∧ Parting c p es) ∨ (w.running = false ∧ p.socketOpen = false ∧
      ((∃ x, Packet.disconnect x ∈ p.outgoing) → willsNow cfg c es = [])))

theorem received_disconnect {q : Packet} {x : DisconnectPacket} (h : q.received = .disconnect x) :
    ∃ y, q = .disconnect y := by
  cases q <;> first | exact ⟨_, rfl⟩ | cases h

/-- The will when the server ends a connection. -/
theorem wills_end {m : Mode} {cfg : AuthConfig} {σ : System} {es : List Event} (h : SysInv cfg σ es) {c : Nat}
    {p : Peer} {w w' : Wire} (hp : σ.peers.get c = some p) (hw : σ.net.wires.get c = some w)
    (hr : w.running = true) (hb : w.begun = true) (hnp : m = .release ∨ Packet.pingReq ∉ p.outgoing)
    (hap : σ.Apart c p) (hcl : p.opts.cleanStart = true) (hka : p.opts.keepAlive ≠ 0)
    {e : SysEvent} {ex : List Event} (h1 : SysInv cfg (σ.step m cfg e) (es ++ ex))
    (hw' : (σ.step m cfg e).net.wires.get c = some w') (hr' : w'.running = false) :
    (σ.step m cfg e).peers.get c = some p ∧
    ((willsNow cfg c (es ++ ex) = callsOfWill c (p.opts.will.map fun w => ⟨w.topic, w.payload, w.qos, w.retain⟩) ∧
        (e = .serverClose c ∨ (∃ q, p.outgoing[(packetsOf c es).length]? = some q ∧ ¬ Fine q ∧ ∀ x, q ≠ .disconnect x) ∨
          (∀ x, Packet.disconnect x ∉ p.outgoing) ∨ Packet.pingReq ∈ p.outgoing)) ∨
      (willsNow cfg c (es ++ ex) = [] ∧ (∃ x, Packet.disconnect x ∈ p.outgoing) ∧
        ∃ q rest, parsePacket m w.buf = .packet q rest)) := by
  have ho : (Server.run cfg Server.init es).isOpen c := by
    rw [← h.net.server]; exact (h.net.opened c).mpr ⟨w, hw, hr, hb⟩
  have hreach : Server.Reachable cfg (Server.run cfg Server.init es) := ⟨es, rfl⟩
  obtain ⟨s, hs⟩ := at_of_isOpen hreach.inv ho
  obtain ⟨s1, s2, s3⟩ := (solo_will cfg _ es (h.solo hp hap) (h.once c) (h.connects hp hcl)).2 s hs
  have hclosed : ¬ (σ.step m cfg e).net.server.isOpen c := by
    intro hx
    obtain ⟨w1, a, b, _⟩ := (h1.net.opened c).mp hx
    rw [hw'] at a; cases a
    rw [hr'] at b; cases b
  obtain ⟨g1, g2⟩ := ends_by h hp hw hr hb hnp hka hw' hr'
  refine ⟨g1, ?_⟩
  have now : ∀ x, (σ.step m cfg e).net.server = (σ.net.server.step cfg x).1 →
      willsNow cfg c (es ++ ex) = willPublications c (eventCalls cfg (Server.run cfg Server.init es) x) := by
    intro x hx
    unfold willsNow
    rw [← h1.net.server, hx, h.net.server, step_log, willPublications_append, s2, List.nil_append]
  rcases g2 with ⟨g2, g3⟩ | ⟨q, g2, g3, g4, ⟨rest, g6⟩, g5⟩
  · left
    refine ⟨?_, ?_⟩
    · rw [now _ g2]
      simp only [eventCalls, hs]
      rw [willPublications_own, willCalls_eq, s1]
    · rcases g3 with g3 | ⟨g3, g4⟩ | g3
      · exact Or.inl g3
      · right; right; left
        intro x hx
        have hall := (h.quiet hp hw hr g3 g4).1
        refine s3 _ (hall ▸ List.mem_map.mpr ⟨_, hx, rfl⟩)
      · exact Or.inr (Or.inr (Or.inr g3))
  · by_cases hd : ∃ x, q = .disconnect x
    · right
      obtain ⟨x, rfl⟩ := hd
      refine ⟨?_, ⟨x, List.mem_of_getElem? g2⟩, _, rest, g6⟩
      rw [now _ g5]
      simp only [eventCalls, hs]
      rw [willPublications_append, willPublications_packet, if_pos (Or.inl ⟨_, rfl⟩)]; rfl
    · left
      refine ⟨?_, Or.inr (Or.inl ⟨q, g2, g4, fun x hx => hd ⟨x, hx⟩⟩)⟩
      rw [now _ g5]
      simp only [eventCalls, hs]
      rw [willPublications_append, willPublications_packet, if_neg, List.nil_append, willPublications_own,
        willCalls_eq, s1]
      rintro (⟨x, hx⟩ | hx)
      · exact hd (received_disconnect hx)
      · rw [← h.net.server, ← g5] at hx; exact hclosed hx

/-- A connection that the server has ended stays ended. -/
theorem stays_ended {m : Mode} {cfg : AuthConfig} {σ σ' : System} {ex : List Event} (hg : Grows m cfg σ σ' ex) {c : Nat}
    {w w' : Wire} (hw : σ.net.wires.get c = some w) (hr : w.running = false) (hw' : σ'.net.wires.get c = some w') :
    w'.running = false := by
  rcases hg with ⟨_, hn⟩ | ⟨ne, _, hn⟩
  · rw [hn, hw] at hw'; cases hw'; exact hr
  · rw [hn] at hw'
    rcases wire_step m cfg σ.net ne c with ⟨a, _⟩ | ⟨w1, w2, a, b, hs⟩
    · rw [hw] at a; cases a
    · rw [hw] at a; cases a
      rw [hw'] at b; cases b
      cases hr' : w'.running with
      | false => rfl
      | true => rw [hs.running hr'] at hr; cases hr

theorem SysInv.running_wills {cfg : AuthConfig} {σ : System} {es : List Event} (h : SysInv cfg σ es) {c : Nat}
    {p : Peer} {w : Wire} (hp : σ.peers.get c = some p) (hw : σ.net.wires.get c = some w)
    (hr : w.running = true) (hb : w.begun = true) (hap : σ.Apart c p) (hcl : p.opts.cleanStart = true) :
    willsNow cfg c es = [] ∧ ∀ x, Packet.disconnect x ∉ packetsOf c es := by
  have ho : (Server.run cfg Server.init es).isOpen c := by
    rw [← h.net.server]; exact (h.net.opened c).mpr ⟨w, hw, hr, hb⟩
  have hreach : Server.Reachable cfg (Server.run cfg Server.init es) := ⟨es, rfl⟩
  obtain ⟨s, hs⟩ := at_of_isOpen hreach.inv ho
  exact ((solo_will cfg _ es (h.solo hp hap) (h.once c) (h.connects hp hcl)).2 s hs).2

/-- A client that is apart at the end is apart now. -/
theorem apart_before {m : Mode} {cfg : AuthConfig} {σ : System} {es : List Event} (h : SysInv cfg σ es)
    (evs : List SysEvent) (hord : ∀ e ∈ evs, e.Ordinary) {c : Nat} {p p' : Peer} (hp : p'.opts = p.opts)
    (ho : (σ.run m cfg evs).Apart c p') : σ.Apart c p := by
  obtain ⟨ext, hx⟩ := history (m := m) evs hord h
  intro d q hd hq hid
  obtain ⟨w, hw⟩ := Option.isSome_iff_exists.mp ((h.ends d).mpr (by rw [hq]; rfl))
  obtain ⟨q', w', hq', _, hev⟩ := hx.peer d q w hq hw
  have := ho d q' hd hq' (by unfold Peer.clientId at hid ⊢; rw [hev.opts, hp]; exact hid)
  rwa [hev.opts, hp] at this

theorem willed_step {m : Mode} {cfg : AuthConfig} {σ : System} {es : List Event} (h : SysInv cfg σ es) {c : Nat}
    {p : Peer} (hp : σ.peers.get c = some p) (hcl : p.opts.cleanStart = true)
    (hka : p.opts.keepAlive ≠ 0) {e : SysEvent} (he : m = .release ∨ ∀ ok, e ≠ .app c (.tick ok)) (hap : σ.Apart c p) (hap' : (σ.step m cfg e).Apart c p)
    {ex : List Event} (hg : Grows m cfg σ (σ.step m cfg e) ex) (h1 : SysInv cfg (σ.step m cfg e) (es ++ ex))
    (hh : Willed m cfg c (p.opts.will.map fun w => ⟨w.topic, w.payload, w.qos, w.retain⟩) σ es) :
    Willed m cfg c (p.opts.will.map fun w => ⟨w.topic, w.payload, w.qos, w.retain⟩) (σ.step m cfg e) (es ++ ex) := by
  obtain ⟨p0, w, hp0, hw, hb, hnp, hc1, hc2⟩ := hh
  rw [hp] at hp0; cases hp0
  obtain ⟨p', w', hp', hw', hev⟩ := step_evolved (moves m cfg σ e) hg hp hw
  refine ⟨p', w', hp', hw', hev.begun hb, ?_, fun hr' => ?_, fun hr' => ?_⟩
  · rcases hnp with hnp | hnp
    · exact Or.inl hnp
    · exact he.imp id fun he => step_noPing he hp hp' hnp
  · refine (h1.running_wills hp' hw' hr' (hev.begun hb) ?_ (by rw [hev.opts]; exact hcl)).1
    intro d q hd hq hid
    unfold Peer.clientId at hid
    rw [hev.opts] at hid ⊢
    exact hap' d q hd hq hid
  · cases hr : w.running with
    | true =>
      obtain ⟨a, b⟩ := wills_end h hp hw hr hb hnp hap hcl hka h1 hw' hr'
      rw [hp'] at a; cases a
      rcases b with b | b
      · exact Or.inl b.1
      · exact Or.inr ⟨b.1, b.2.1⟩
    | false =>
      rw [wills_closed h hw hr hg]
      rcases hc2 hr with a | ⟨a, x, hx⟩
      · exact Or.inl a
      · refine Or.inr ⟨a, x, ?_⟩
        obtain ⟨H, hH, _⟩ := hev.history
        simp only [Peer.outgoing, Peer.sents, hev.opts, hH, List.filterMap_append, List.mem_cons, List.mem_append] at hx ⊢
        rcases hx with hx | hx
        · exact Or.inl hx
        · exact Or.inr (Or.inl hx)

theorem parted_step {m : Mode} {cfg : AuthConfig} {σ : System} {es : List Event} (h : SysInv cfg σ es) {c : Nat}
    {p : Peer} (hp : σ.peers.get c = some p) (hcl : p.opts.cleanStart = true)
    {e : SysEvent} (he : e.Ordinary) (hk : e.Kept c) (hap : σ.Apart c p)
    {ex : List Event} (hg : Grows m cfg σ (σ.step m cfg e) ex) (h1 : SysInv cfg (σ.step m cfg e) (es ++ ex))
    (hh : Parted cfg c σ es) : Parted cfg c (σ.step m cfg e) (es ++ ex) := by
  obtain ⟨p0, w, hp0, hw, hb, hcase⟩ := hh
  rw [hp] at hp0; cases hp0
  obtain ⟨p', w', hp', hw', hev⟩ := step_evolved (moves m cfg σ e) hg hp hw
  have hs := step_says he hk hp hp'
  refine ⟨p', w', hp', hw', hev.begun hb, ?_⟩
  rcases hcase with ⟨hr, hpart⟩ | ⟨hr, hc, ha⟩
  · cases hr' : w'.running with
    | true => exact Or.inl ⟨rfl, hpart.grow hs (h.packets_le hp)⟩
    | false =>
      obtain ⟨_, q2⟩ := quits h hp hw hr hb hpart hk hw' hr'
      obtain ⟨a, b⟩ := wills_end h hp hw hr hb (Or.inr hpart.1) hap hcl hpart.2.1 h1 hw' hr'
      rw [hp'] at a; cases a
      refine Or.inr ⟨rfl, q2, fun hx => ?_⟩
      rcases b with ⟨_, rfl | ⟨q, b1, b2, b3⟩ | b | b⟩ | b
      · exact absurd rfl hk
      · obtain ⟨_, _, F, D, hdrop, hF, hD⟩ := hpart
        have hnext : p.outgoing[(packetsOf c es).length]? = (F ++ D)[0]? := by
          rw [← hdrop, List.getElem?_drop, Nat.add_zero]
        rw [hnext] at b1
        cases F with
        | cons y F =>
          simp only [List.cons_append, List.getElem?_cons_zero, Option.some.injEq] at b1
          subst b1
          exact absurd (hF y (by simp)) b2
        | nil =>
          rcases hD with rfl | ⟨⟨x, rfl⟩, _⟩
          · cases b1
          · simp only [List.nil_append, List.getElem?_cons_zero, Option.some.injEq] at b1
            exact absurd b1.symm (b3 x)
      · obtain ⟨x, hx⟩ := hx
        exact absurd hx (b x)
      · exact absurd b hpart.1
      · exact b.1
  · refine Or.inr ⟨stays_ended hg hw hr hw', hs.done hc, fun hx => ?_⟩
    rw [wills_closed h hw hr hg]
    obtain ⟨N, hN, _, hN2⟩ := hs.more
    rw [hN, hN2 hc, List.append_nil] at hx
    exact ha hx

theorem willed_run {m : Mode} {cfg : AuthConfig} {c : Nat} (evs : List SysEvent) (hord : ∀ e ∈ evs, e.Ordinary)
    (hno : m = .release ∨ ∀ ok, SysEvent.app c (.tick ok) ∉ evs) :
    ∀ {σ : System} {es : List Event} {p : Peer}, SysInv cfg σ es → σ.peers.get c = some p →
      p.opts.cleanStart = true → p.opts.keepAlive ≠ 0 → (σ.run m cfg evs).Apart c p →
      Willed m cfg c (p.opts.will.map fun w => ⟨w.topic, w.payload, w.qos, w.retain⟩) σ es →
      ∃ ext, SysInv cfg (σ.run m cfg evs) (es ++ ext) ∧
        Willed m cfg c (p.opts.will.map fun w => ⟨w.topic, w.payload, w.qos, w.retain⟩) (σ.run m cfg evs) (es ++ ext) ∧
        ((∀ e ∈ evs, e.Kept c) → Parted cfg c σ es → Parted cfg c (σ.run m cfg evs) (es ++ ext)) := by
  induction evs with
  | nil =>
    intro σ es p h _ _ _ _ hh
    exact ⟨[], by rw [List.append_nil]; exact h, by rw [List.append_nil]; exact hh,
      by intro _ hx; rw [List.append_nil]; exact hx⟩
  | cons e evs ih =>
    intro σ es p h hp hcl hka hap hh
    obtain ⟨ex, hg, h1⟩ := h.step (hord e (by simp)) (moves m cfg σ e)
    have hap0 : σ.Apart c p := apart_before h (e :: evs) hord rfl hap
    have hap1 : (σ.step m cfg e).Apart c p :=
      apart_before h1 evs (fun x hx => hord x (by simp [hx])) rfl hap
    have hh1 := willed_step h hp hcl hka
      (hno.imp id fun hno ok h => hno ok (by simp [h])) hap0 hap1 hg h1 hh
    obtain ⟨_, w, _, hw, _⟩ := hh
    obtain ⟨p', w', hp', hw', hev⟩ := step_evolved (moves m cfg σ e) hg hp hw
    obtain ⟨ext, a, b, d⟩ := ih (fun x hx => hord x (by simp [hx]))
      (hno.imp id fun hno ok h => hno ok (by simp [h])) h1 hp' (by rw [hev.opts]; exact hcl) (by rw [hev.opts]; exact hka)
      (by intro d q hd hq hid
          unfold Peer.clientId at hid
          rw [hev.opts] at hid ⊢
          exact hap d q hd hq hid)
      (by rw [hev.opts]; exact hh1)
    refine ⟨ex ++ ext, by rw [← List.append_assoc]; exact a, by rw [← List.append_assoc, ← hev.opts]; exact b, ?_⟩
    intro hk hpt
    rw [← List.append_assoc]
    exact d (fun x hx => hk x (by simp [hx])) (parted_step h hp hcl (hord e (by simp)) (hk e (by simp)) hap0 hg h1 hpt)

/-- A successful call of `disconnect` is what sends DISCONNECT. -/
theorem PeerInv.disconnects {p : Peer} (h : PeerInv p) :
    (∃ x, Packet.disconnect x ∈ p.outgoing) ↔
      ∃ ok o, (ClientIn.disconnect ok, o) ∈ p.history ∧ o.result = some .done := by
  constructor
  · rintro ⟨x, hx⟩
    rcases List.mem_cons.mp hx with hx | hx
    · cases hx
    obtain ⟨⟨i, o⟩, he, hq⟩ := List.mem_filterMap.mp hx
    obtain ⟨l, hi, e2⟩ := h.steps _ he
    have e2 : o = (l.step i).2 := e2
    have hq : o.sent = some (.disconnect x) := hq
    rw [e2] at hq
    by_cases hd : ∃ ok, i = .disconnect ok
    · obtain ⟨ok, rfl⟩ := hd
      refine ⟨ok, o, he, ?_⟩
      rw [e2]
      unfold Client.step at hq ⊢
      rw [if_neg (by simp)] at hq ⊢
      split at hq
      · cases hq
      rename_i hb
      rw [if_neg hb]
      split at hq
      · rename_i hr
        rw [if_pos hr]
        simp only [Client.turn, Client.doDisconnect] at hq ⊢
        unfold Client.call at hq ⊢
        split at hq
        · rfl
        · cases hq
        · cases hq
        · cases hq
      · cases hq
    · exfalso
      unfold Client.step at hq
      split at hq
      · unfold Client.take at hq; split at hq <;> cases hq
      split at hq
      · cases hq
      split at hq
      · cases i with
        | recv => cases hq
        | read r ok =>
          cases r with
          | packet p =>
            simp only [Client.turn, Client.incoming] at hq
            cases p with
            | publish p =>
              simp only at hq
              split at hq
              · split at hq <;> cases hq
              · cases hq
            | _ => cases hq
          | _ => cases hq
        | publish t pl qs r ok => cases call_sent hq
        | subscribe ts ok => cases call_sent hq
        | unsubscribe ts ok => cases call_sent hq
        | disconnect ok => exact hd ⟨ok, rfl⟩
        | tick ok =>
          simp only [Client.turn] at hq
          split at hq <;> cases hq
      · cases i <;> cases hq
  · rintro ⟨ok, o, he, ho⟩
    obtain ⟨l, hi, e2⟩ := h.steps _ he
    have e2 : o = (l.step (.disconnect ok)).2 := e2
    rw [e2] at ho
    have hs : ∃ x, (l.step (.disconnect ok)).2.sent = some (.disconnect x) := by
      unfold Client.step at ho ⊢
      rw [if_neg (by simp)] at ho ⊢
      split at ho
      · cases ho
      rename_i hb
      rw [if_neg hb]
      split at ho
      · rename_i hr
        rw [if_pos hr]
        simp only [Client.turn, Client.doDisconnect] at ho ⊢
        unfold Client.call at ho ⊢
        split at ho
        · exact ⟨_, rfl⟩
        · cases ho
        · cases ho
        · cases ho
      · cases ho
    obtain ⟨x, hx⟩ := hs
    refine ⟨x, List.mem_cons_of_mem _ (List.mem_filterMap.mpr ⟨_, he, ?_⟩)⟩
    show o.sent = _
    rw [e2]; exact hx

end Mercurio
