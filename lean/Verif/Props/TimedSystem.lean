import Verif.Lemmas.TimedSystem

/-! # C111: the server and its built-in clients, with clocks -/

namespace Mercurio

open Spec Server

theorem pingInterval_nat {k : UInt16} (hk : k ≠ 0) : pingInterval k = 1000 * max (k.toNat / 2) 1 := by
  have hn : k.toNat ≠ 0 := fun h => hk (UInt16.toNat_inj.mp h)
  by_cases h2 : 2 ≤ k.toNat
  · rw [pingInterval_eq (UInt16.le_iff_toNat_le.2 (by simpa using h2))]
    omega
  · have : k = 1 := UInt16.toNat_inj.mp (by simp; omega)
    subst this
    decide +kernel

/-- What is known about a reachable state of the system with clocks. -/
theorem timedSys_reached (m : Mode) (cfg : AuthConfig) (late : Nat) (evs : List TimedSysEvent)
    (hord : ∀ e ∈ evs, e.Ordinary) : ∃ es, SysInv cfg (({} : TimedSystem).run m cfg late evs).sys es := by
  obtain ⟨es, he, ho⟩ := timedSys_run m cfg late evs {} hord
  obtain ⟨ext, hx⟩ := history (m := m) (cfg := cfg) es ho (sysInv_init cfg)
  refine ⟨[] ++ ext, ?_⟩
  rw [he]
  exact hx.inv

theorem TimedSystem.run_append (m : Mode) (cfg : AuthConfig) (late : Nat) (σ : TimedSystem) (a b : List TimedSysEvent) :
    σ.run m cfg late (a ++ b) = (σ.run m cfg late a).run m cfg late b := by
  simp [TimedSystem.run]

/-- What the server has taken from a client whose CONNECT it has accepted begins with the CONNECT of its options. -/
theorem heard_connect {m : Mode} {cfg : AuthConfig} {late : Nat} {σ : TimedSystem} {es fs : List Event}
    (hi : SysInv cfg σ.sys es) (hf : NetInv cfg σ.timed.net fs) {c : Nat} {p : Peer} {w : Wire}
    (hp : σ.peers.get c = some p) (hw : σ.timed.net.wires.get c = some w) (hb : w.begun = true) :
    ∃ q : ConnectPacket, (packetsOf c fs).head? = some (.connect q) ∧ q.keepalive = p.opts.keepAlive := by
  obtain ⟨fut, hfut⟩ := hi.up c p w hp hw
  obtain ⟨k, hk, _⟩ := hf.read c w hw _ _ fut (hi.peer c p hp).sent hfut
  obtain ⟨q, hq, _⟩ := hf.kept c w hw hb
  rw [hk] at hq ⊢
  cases k with
  | zero => cases hq
  | succ k =>
    refine ⟨(wireConnect p.opts).received, rfl, ?_⟩
    rw [← wireConnect_keepalive]
    simp only [ConnectPacket.received]
    split <;> rfl

/-- C111 is false: no built-in client stays connected for long, although it sends its pings in time.  In a run in which
applications do what they are allowed to (`evs1`, `evs2`, `evs3`), let `connect` have returned client `c` with
keep-alive `k`; let its application take its events, so that it does not hold up the event loop (in `evs2`), longer
than the ping interval, let the client then be running, and the server have read and acted on all it has sent, and not
be stuck in a write to it.  Then, whatever the client sends from now on (for instance a ping each interval) the server
has closed the connection when one and a half times the keep-alive have passed (`evs3`). -/
theorem C111_stays_connected_false (m : Mode) (cfg : AuthConfig) (late : Nat) (evs1 evs2 evs3 : List TimedSysEvent)
    (hord : ∀ e ∈ evs1 ++ evs2 ++ evs3, e.Ordinary) (c : Nat) (p1 p2 : Peer) :
    let σ1 := ({} : TimedSystem).run m cfg late evs1
    let σ2 := σ1.run m cfg late evs2
    let σ3 := σ2.run m cfg late evs3
    σ1.peers.get c = some p1 → p1.isConnected = true → p1.opts.keepAlive ≠ 0 →
    (∀ a b, evs2 = a ++ b → (σ1.run m cfg late a).Attentive c) →
    σ1.now + 1000 * max (p1.opts.keepAlive.toNat / 2) 1 + late < σ2.now →
    σ2.peers.get c = some p2 → p2.socketOpen = true → σ2.AllHeard m c → ¬ σ2.Stuck c →
    (∀ e ∈ evs3, e.Calm c) → σ2.now < 1000 * 2 ^ 62 →
    σ2.now + 1000 * (3 * p1.opts.keepAlive.toNat / 2) + late < σ3.now →
    ¬ σ3.Open c := by
  intro σ1 σ2 σ3 hp1 hc1 hk hatt hlate hp2 hopen hheard hfree hcalm hnow htime hop
  have hσ2 : σ2 = ({} : TimedSystem).run m cfg late (evs1 ++ evs2) := (TimedSystem.run_append ..).symm
  -- the client has sent a ping
  obtain ⟨due, hd1, hd2⟩ := pingInv_run m cfg late evs1 c p1 hp1 hc1
  rw [pingInterval_nat hk] at hd2
  obtain ⟨l1, hl1⟩ : ∃ l, p1.phase = .connected l := by
    cases hx : p1.phase <;> simp [Peer.isConnected, hx] at hc1 ⊢
  have hdue : PingDue late (σ1.timed.now + 1000 * max (p1.opts.keepAlive.toNat / 2) 1) c p1.opts σ1 :=
    ⟨p1, l1, hp1, rfl, hl1, Or.inr (Or.inr ⟨due, hd1, hd2, by omega⟩)⟩
  obtain ⟨p, l, hp, ho, hl, hd⟩ := pingDue_run (m := m) (cfg := cfg) evs2 hdue hatt
  have hpp : p = p2 := Option.some.inj (hp.symm.trans hp2)
  subst hpp
  have hping : Packet.pingReq ∈ p.sents := by
    rcases hd with hd | hd | ⟨_, _, _, hd⟩
    · exact hd
    · simp [Peer.socketOpen, hl, hd] at hopen
    · have hlate : σ1.timed.now + 1000 * max (p1.opts.keepAlive.toNat / 2) 1 + late < σ2.timed.now := hlate
      exact absurd hd (Nat.not_le.mpr hlate)
  -- the server does not hear it any more
  obtain ⟨es, hi⟩ := timedSys_reached m cfg late (evs1 ++ evs2) fun e he => hord e (List.mem_append_left _ he)
  rw [← hσ2] at hi
  have hdeaf : Deaf c σ2.timed.net := TimedSystem.deaf hi hp2 hping hheard
  -- the server with its clock
  obtain ⟨t2, ht2, hs2, _⟩ := timed_run m cfg late (evs1 ++ evs2) {}
  rw [← hσ2] at ht2
  obtain ⟨t3, ht3, hs3, hcalm3⟩ := timed_run m cfg late evs3 σ2
  have hsilent : σ2.timed.heardFrom m cfg late c t3 = [] := deaf_heard t3 hdeaf
  obtain ⟨fs, hf, _, hq, _⟩ := (TimedInv.init cfg).run m late t2 hs2
  rw [List.nil_append] at hf
  have e2 : ({} : TimedNet).run m cfg late t2 = σ2.timed := ht2.symm
  obtain ⟨gs, hg, _, _, hlast⟩ := hf.run m late t3 hs3
  have e3 : σ2.timed.run m cfg late t3 = σ3.timed := ht3.symm
  rw [e2] at hf hg hlast
  rw [e3] at hg hlast
  obtain ⟨w3, hw3, hr3, hb3⟩ := (hg.net.opened c).mp hop
  obtain ⟨k', _, hprev, _⟩ := hlast c w3 hw3 hr3 hb3
  obtain ⟨w, _, hw, _, hb, _⟩ := hprev hsilent
  obtain ⟨q, hq1, hq2⟩ := heard_connect (m := m) (late := late) hi hf.net hp2 hw hb
  rw [hq c] at hq1
  have hqk : q.keepalive = p1.opts.keepAlive := hq2.trans (by rw [ho])
  have := C110_silent_is_closed_partial m cfg late t2 t3
    (fun e he => (List.mem_append.mp he).elim (hs2 e) (hs3 e)) c q hq1 (by rw [hqk]; exact hk)
    (by rw [e2]; exact hfree) (fun e he => hcalm3 c hcalm e he) (by rw [e2]; exact hsilent) (by rw [e2]; exact hnow)
    (by rw [e2, e3, hqk]; exact htime)
  rw [e2, e3] at this
  exact this hop

/-- A client with keep-alive 2 connects. -/
def exStays1 : List TimedSysEvent := [
  .sys (.connect 0 { clientId := some (str "x"), keepAlive := 2 }), .sys (.serverRead 0 4096),
  .sys (.serverTurn 0 (str "u") true), .sys (.clientRead 0 4096), .sys (.clientTurn 0 true)]

/-- Its first ping, one second later. -/
def exStays2 : List TimedSysEvent := [
  .wait 1000, .tick 0 true, .sys (.serverRead 0 4096), .sys (.serverTurn 0 (str "u") true), .wait 60]

/-- More pings, one each second; they reach the server, which closes the connection nevertheless. -/
def exStays3 : List TimedSysEvent := [
  .wait 940, .tick 0 true, .sys (.serverRead 0 4096), .sys (.serverTurn 0 (str "u") true),
  .wait 1000, .tick 0 true, .sys (.serverRead 0 4096), .sys (.serverTurn 0 (str "u") true),
  .wait 1000, .tick 0 true, .sys (.serverRead 0 4096), .sys (.serverTurn 0 (str "u") true),
  .expire 0, .wait 1000]

theorem attentive_check (σ : TimedSystem) (c : Nat)
    (h : (match σ.peers.get c with
      | some p => match p.phase with
        | .connected l => !decide l.blocked
        | _ => true
      | none => true) = true) : σ.Attentive c := by
  intro p l hp hl
  simpa [hp, hl] using h

theorem attentive_prefixes (m : Mode) (cfg : AuthConfig) (late : Nat) (σ : TimedSystem) (c : Nat) (es : List TimedSysEvent)
    (h : (List.range (es.length + 1)).all (fun i => match (σ.run m cfg late (es.take i)).peers.get c with
      | some p => match p.phase with
        | .connected l => !decide l.blocked
        | _ => true
      | none => true) = true) : ∀ a b, es = a ++ b → (σ.run m cfg late a).Attentive c := by
  intro a b hab
  have hi := List.all_eq_true.mp h a.length (by rw [List.mem_range, hab]; simp; omega)
  rw [hab, List.take_left] at hi
  exact attentive_check _ _ hi

theorem exStays_ordinary : ∀ e ∈ exStays1 ++ exStays2 ++ exStays3, e.Ordinary := by
  have all : ∀ e ∈ exStays1 ++ exStays2 ++ exStays3,
      e = .sys (.connect 0 { clientId := some (str "x"), keepAlive := 2 }) ∨
      (match e with
        | .sys (.connect _ _) | .sys (.app _ _) | .stick _ => false
        | .sys (.serverTurn _ u _) => decide (TextField u)
        | _ => true) = true := by
    decide +kernel
  intro e he
  rcases all e he with rfl | h
  · refine ⟨⟨?_, ?_, ?_, ?_⟩, ?_⟩
    · intro s hs; cases hs; decide
    · intro s hs; cases hs
    · intro s hs; cases hs
    · intro s hs; cases hs
    · intro s hs; cases hs
  · cases e with
    | sys e =>
      cases e with
      | connect c o => cases h
      | app c i => cases h
      | serverTurn c u w => exact (of_decide_eq_true h : TextField u)
      | _ => trivial
    | stick e => cases h
    | _ => trivial

example : let σ1 := ({} : TimedSystem).run .release {} 50 exStays1
    let σ2 := σ1.run .release {} 50 exStays2
    let σ3 := σ2.run .release {} 50 exStays3
    (σ1.peers.get 0).map (fun p => (p.isConnected, p.opts.keepAlive)) = some (true, 2) ∧
    (∀ a b, exStays2 = a ++ b → (σ1.run .release {} 50 a).Attentive 0) ∧ σ1.now = 0 ∧ σ2.now = 1060 ∧
    (σ2.peers.get 0).map (·.socketOpen) = some true ∧ σ2.AllHeard .release 0 ∧ ¬ σ2.Stuck 0 ∧
    (∀ e ∈ exStays3, e.Calm 0) ∧ σ3.now = 5000 ∧
    (σ3.peers.get 0).map (fun p => (p.socketOpen, p.sents)) = some (true, [.pingReq, .pingReq, .pingReq, .pingReq]) ∧
    (σ2.timed.net.server.conns.get 0).isSome = true ∧ σ3.timed.net.server.conns.get 0 = none := by
  intro σ1 σ2 σ3
  refine ⟨by decide +kernel, attentive_prefixes _ _ _ _ _ _ (by decide +kernel), by decide +kernel, by decide +kernel,
    by decide +kernel, ?_, ?_, ?_, by decide +kernel, by decide +kernel, by decide +kernel, by decide +kernel⟩
  · have h : (match σ2.peers.get 0, σ2.timed.net.wires.get 0 with
      | some p, some w => decide (w.rcvd = p.wrote) && match parsePacket .release w.buf with
        | .packet _ _ => false
        | _ => true
      | _, _ => false) = true := by decide +kernel
    split at h
    · rename_i p w hp hw
      simp only [Bool.and_eq_true, decide_eq_true_eq] at h
      refine ⟨p, w, hp, hw, h.1, fun q rest hq => ?_⟩
      rw [hq] at h
      cases h.2
    · cases h
  · rintro ⟨k, hk, hs⟩
    have h : (σ2.timed.clocks.get 0).map (·.stuck) = some none := by decide +kernel
    have hk : σ2.timed.clocks.get 0 = some k := hk
    rw [hk] at h
    exact hs (Option.some.inj h)
  · intro e he
    simp only [exStays3, List.mem_cons, List.not_mem_nil, or_false] at he
    rcases he with rfl | rfl | rfl | rfl | rfl | rfl | rfl | rfl | rfl | rfl | rfl | rfl | rfl | rfl <;> trivial

/-- C111, the part that holds: a client whose CONNECT the server accepts (during `evs2`) is not disconnected by the
timer before one and a half times its keep-alive have passed since then.  (What is missing: anything beyond the first
ping, see `C111_stays_connected_false`.) -/
theorem C111_first_period_partial (m : Mode) (cfg : AuthConfig) (late : Nat) (evs1 evs2 : List TimedSysEvent)
    (hord : ∀ e ∈ evs1 ++ evs2, e.Ordinary) (c : Nat) (p : Peer) :
    let σ1 := ({} : TimedSystem).run m cfg late evs1
    let σ2 := σ1.run m cfg late evs2
    ¬ σ1.Open c → σ2.Open c → σ2.peers.get c = some p → p.opts.keepAlive ≠ 0 →
    σ2.now < σ1.now + 1000 * (3 * p.opts.keepAlive.toNat / 2) →
    σ2.step m cfg late (.expire c) = σ2 := by
  intro σ1 σ2 hclosed hopen hp hk htime
  have hσ2 : σ2 = ({} : TimedSystem).run m cfg late (evs1 ++ evs2) := (TimedSystem.run_append ..).symm
  obtain ⟨es, hi⟩ := timedSys_reached m cfg late (evs1 ++ evs2) hord
  rw [← hσ2] at hi
  obtain ⟨t1, ht1, hs1, _⟩ := timed_run m cfg late evs1 {}
  obtain ⟨t2, ht2, hs2, _⟩ := timed_run m cfg late evs2 σ1
  obtain ⟨fs, hf, _, hq1, _⟩ := (TimedInv.init cfg).run m late t1 hs1
  rw [List.nil_append] at hf
  have e1 : ({} : TimedNet).run m cfg late t1 = σ1.timed := ht1.symm
  have e2 : σ1.timed.run m cfg late t2 = σ2.timed := ht2.symm
  obtain ⟨gs, hg, _, hq2, hlast⟩ := hf.run m late t2 hs2
  rw [e1] at hf hg hlast hq2
  rw [e2] at hg hlast
  obtain ⟨w, hw, hr, hb⟩ := (hg.net.opened c).mp hopen
  obtain ⟨q, hqa, hqk⟩ := heard_connect (m := m) (late := late) hi hg.net hp hw hb
  obtain ⟨k', _, hprev, _⟩ := hlast c w hw hr hb
  have hheard : σ1.timed.heardFrom m cfg late c t2 ≠ [] := by
    intro hn
    obtain ⟨w1, _, hw1, hr1, hb1, _⟩ := hprev hn
    exact hclosed ((hf.net.opened c).mpr ⟨w1, hw1, hr1, hb1⟩)
  have := C110_never_early m cfg late t1 t2 (fun e he => (List.mem_append.mp he).elim (hs1 e) (hs2 e)) c q
    (by rw [heardFrom_append, e1, ← hq1 c, ← hq2 c, ← packetsOf_append]; exact hqa) (by rw [hqk]; exact hk)
    (by rw [e1]; exact hheard) (by rw [e1, e2, hqk]; exact htime)
  simp only [e1, e2] at this
  show ({ σ2 with timed := σ2.timed.step m cfg late (.expire c) } : TimedSystem) = σ2
  rw [this]

/-- The client of `exStays1`: it is connected at once, and is so after 2.9 seconds, although it sent nothing (or, as
here, its ping has not arrived). -/
example : let σ2 := ({} : TimedSystem).run .release {} 50 (exStays1 ++ [.wait 1000, .tick 0 true, .wait 1000, .tick 0 true,
      .wait 900])
    ({} : TimedSystem).timed.net.server.conns.get 0 = none ∧ (σ2.timed.net.server.conns.get 0).isSome = true ∧
    (σ2.peers.get 0).map (·.opts.keepAlive) = some 2 ∧ σ2.now = 2900 ∧
    ((σ2.step .release {} 50 (.expire 0)).timed.net.server.conns.get 0).isSome = true := by decide +kernel

/-- C111 (b): the pings of a client come at the intervals that the keep-alive `k` of its options asks for: let `connect`
return a client in event `e` and time pass (`evs2`).  Then the client has sent no more pings than there have been
intervals of max(1, floor(k/2)) seconds since then, and, as long as its event loop runs and its application takes its
events, no ping is missing, but for the last one while it is at most `late` milliseconds late. -/
theorem C111_pings (m : Mode) (cfg : AuthConfig) (late : Nat) (evs1 evs2 : List TimedSysEvent) (e : TimedSysEvent)
    (hord : ∀ x ∈ evs1 ++ [e] ++ evs2, x.Ordinary) (c : Nat) (p1 p2 : Peer) :
    let σ0 := ({} : TimedSystem).run m cfg late evs1
    let σ1 := σ0.step m cfg late e
    let σ2 := σ1.run m cfg late evs2
    (∀ p, σ0.peers.get c = some p → p.isConnected = false) → σ1.peers.get c = some p1 → p1.isConnected = true →
    p1.opts.keepAlive ≠ 0 → σ2.peers.get c = some p2 →
    let interval := 1000 * max (p1.opts.keepAlive.toNat / 2) 1
    σ1.now + p2.pingsSent * interval ≤ σ2.now ∧
    ((∀ a b, evs2 = a ++ b → (σ1.run m cfg late a).Attentive c) → p2.socketOpen = true →
      σ2.now ≤ σ1.now + (p2.pingsSent + 1) * interval + late) := by
  intro σ0 σ1 σ2 hnew hp1 hc1 hk hp2 interval
  have hint : pingInterval p1.opts.keepAlive = interval := pingInterval_nat hk
  obtain ⟨l1, hl1⟩ : ∃ l, p1.phase = .connected l := by
    cases hx : p1.phase <;> simp [Peer.isConnected, hx] at hc1 ⊢
  -- when `connect` returns
  have hstart : PingCount σ1.timed.now c p1.opts σ1 ∧ p1.pingsSent = 0 ∧
      σ1.pings.get c = some (σ1.timed.now + pingInterval p1.opts.keepAlive) := by
    obtain ⟨es, hi⟩ := timedSys_reached m cfg late evs1 fun x hx => hord x (by simp [hx])
    have fresh : ∀ p, σ0.peers.get c = some p → p.pingsSent = 0 := by
      intro p hp
      have hloop : p.loop = none := by
        have hx := hnew p hp
        cases hph : p.phase <;> simp [Peer.isConnected, hph, Peer.loop] at hx ⊢
      simp [Peer.pingsSent, (hi.peer c p hp).idle hloop]
    have key : p1.pingsSent = 0 ∧ σ1.pings.get c = some (σ1.timed.now + pingInterval p1.opts.keepAlive) := by
      rcases timed_kinds m cfg late σ0 e with ⟨e1, _, _⟩ | ⟨e', ht, e1, e2, e3⟩ |
        ⟨d, ok, q, due, hq, hdue, hat, hle, e1, e2, e3⟩ | ⟨ms, hpat, e1, _, _⟩
      · have hp1 : (σ0.step m cfg late e).peers.get c = some p1 := hp1
        rw [e1] at hp1
        rw [hnew p1 hp1] at hc1; cases hc1
      · have hp1 : (σ0.step m cfg late e).peers.get c = some p1 := hp1
        rw [e1] at hp1
        rcases sys_peer m cfg σ0.sys e' c hp1 with hs | ⟨_, hn⟩ | ⟨p, hp, hm⟩
        · rw [hnew p1 hs] at hc1; cases hc1
        · rw [hn] at hc1; cases hc1
        · have hp : σ0.peers.get c = some p := hp
          obtain ⟨ok, rfl⟩ := peerMove_connected hm (hnew p hp) hc1
          refine ⟨(peerMove_pings hm ht).trans (fresh p hp), ?_⟩
          show (σ0.step m cfg late e).pings.get c = some ((σ0.step m cfg late e).timed.now + _)
          rw [e2, e3]
          simp only [TimedSystem.startPing, hp, hp1, hnew p hp, hc1, Bool.not_false, Bool.and_self, if_true, Map.get_insert]
      · have hp1 : (σ0.step m cfg late e).peers.get c = some p1 := hp1
        rw [e1] at hp1
        rcases sys_peer m cfg σ0.sys _ c hp1 with hs | ⟨_, hn⟩ | ⟨p, hp, hm⟩
        · rw [hnew p1 hs] at hc1; cases hc1
        · rw [hn] at hc1; cases hc1
        · obtain ⟨_, hx⟩ := peerMove_connected hm (hnew p hp) hc1
          cases hx
      · have hp1 : (σ0.step m cfg late e).peers.get c = some p1 := hp1
        rw [e1] at hp1
        rw [hnew p1 hp1] at hc1; cases hc1
    exact ⟨⟨p1, l1, hp1, rfl, hl1, by rw [key.1]; simp, fun _ => by rw [key.1, key.2]; simp⟩, key⟩
  obtain ⟨hcount, h0, hdue⟩ := hstart
  have hoften : PingOften late σ1.timed.now c p1.opts σ1 := by
    intro p l hp _ _
    omega
  obtain ⟨⟨p, l, hp, ho, hl, hn, _⟩, hlate⟩ := pingCount_run (m := m) (cfg := cfg) (late := late) evs2 hcount
  have hpp : p = p2 := Option.some.inj (hp.symm.trans hp2)
  subst hpp
  rw [hint] at hn
  refine ⟨hn, fun ha hopen => ?_⟩
  have := hlate ha hoften p l hp hl (by simpa [Peer.socketOpen, hl] using hopen)
  rw [hint] at this
  exact this

/-- For (b): the client of `exStays1`, 5 seconds after `connect` returned, has sent four pings; the fifth is due. -/
example : let σ0 := ({} : TimedSystem).run .release {} 50 (exStays1.take 4)
    let σ1 := σ0.step .release {} 50 (.sys (.clientTurn 0 true))
    let σ2 := σ1.run .release {} 50 (exStays2 ++ exStays3)
    (σ0.peers.get 0).map (·.isConnected) = some false ∧
    (σ1.peers.get 0).map (fun p => (p.isConnected, p.opts.keepAlive)) = some (true, 2) ∧
    (∀ a b, exStays2 ++ exStays3 = a ++ b → (σ1.run .release {} 50 a).Attentive 0) ∧
    (σ2.peers.get 0).map (fun p => (p.socketOpen, p.pingsSent)) = some (true, 4) ∧ σ1.now = 0 ∧ σ2.now = 5000 := by
  intro σ0 σ1 σ2
  exact ⟨by decide +kernel, by decide +kernel, attentive_prefixes _ _ _ _ _ _ (by decide +kernel), by decide +kernel,
    by decide +kernel, by decide +kernel⟩

/-- C111 (c): the clocks add nothing to what the system does: what happens in a run with clocks also happens in a run
of `Verif.Model.System`, where timers may strike at any time (so that what is said elsewhere about all runs of that
system holds of this one); and every run of that system in which no ping timer ticks is one in which the clock stands
still. -/
theorem C111_same_system (m : Mode) (cfg : AuthConfig) (late : Nat) :
    (∀ evs : List TimedSysEvent, (∀ e ∈ evs, e.Ordinary) → ∃ es, (∀ e ∈ es, e.Ordinary) ∧
      (({} : TimedSystem).run m cfg late evs).sys = System.init.run m cfg es) ∧
    (∀ es : List SysEvent, (∀ e ∈ es, ∀ c ok, e ≠ .app c (.tick ok)) →
      (({} : TimedSystem).run m cfg late (es.map .sys)).sys = System.init.run m cfg es) := by
  constructor
  · intro evs h
    obtain ⟨es, a, b⟩ := timedSys_run m cfg late evs {} h
    exact ⟨es, b, a⟩
  · intro es
    suffices h : (∀ e ∈ es, ∀ c ok, e ≠ .app c (.tick ok)) →
        (({} : TimedSystem).run m cfg late (es.map .sys)).sys = System.init.run m cfg es ∧
        ∀ c k, (({} : TimedSystem).run m cfg late (es.map .sys)).timed.clocks.get c = some k → k.stuck = none from
      fun hx => (h hx).1
    induction es using snoc_induction with
    | h0 => exact fun _ => ⟨rfl, fun c k h => by cases h⟩
    | hs es e ih =>
      intro hx
      obtain ⟨i1, i2⟩ := ih fun x h => hx x (List.mem_append_left _ h)
      rw [List.map_append, List.map_singleton, TimedSystem.run_snoc]
      generalize ({} : TimedSystem).run m cfg late (es.map .sys) = σ at *
      have hnt : e.isTick = false := by
        unfold SysEvent.isTick
        split
        · rename_i c ok
          exact absurd rfl (hx (.app c (.tick ok)) (by simp) c ok)
        · rfl
      have hrun : System.init.run m cfg (es ++ [e]) = σ.sys.step m cfg e := by rw [i1]; simp [System.run]
      rw [hrun]
      simp only [TimedSystem.step, hnt, Bool.false_eq_true, if_false]
      have hfree : ∀ ne, σ.timed.free ne = true := by
        intro ne
        have hc : ∀ c, (((σ.timed.clocks.get c).bind (·.stuck)).isNone) = true := by
          intro c
          cases hx : σ.timed.clocks.get c with
          | none => rfl
          | some k => simp [i2 c k hx]
        cases ne <;> first | rfl | exact hc _
      have hn := netEvent_step m cfg σ.sys e
      cases hne : σ.sys.netEvent e with
      | none =>
        rw [hne] at hn
        simp only [TimedSystem.onSys, hne]
        exact ⟨System.ext hn.symm rfl, i2⟩
      | some ne =>
        rw [hne] at hn
        simp only [TimedSystem.onSys, hne, TimedNet.step, hfree, if_true, TimedNet.onNet]
        refine ⟨System.ext hn.symm rfl, fun c k hk => ?_⟩
        split at hk
        · rw [Map.get_insert] at hk
          split at hk
          · cases hk; rfl
          · exact i2 c k hk
        · exact i2 c k hk

/-- A subscriber and a publisher as in `exSysSub`, `exSysPub`: the clock stands still and the message arrives. -/
example : (∀ e ∈ exSysSub ++ exSysPub, e.isTick = false) ∧
    ((({} : TimedSystem).run .debug {} 0 ((exSysSub ++ exSysPub).map .sys)).peers.get 0).map (·.heard) =
      some [⟨str "a/+", str "hi", .atLeastOnce, false⟩] ∧
    (({} : TimedSystem).run .debug {} 0 ((exSysSub ++ exSysPub).map .sys)).now = 0 := by decide +kernel

end Mercurio
