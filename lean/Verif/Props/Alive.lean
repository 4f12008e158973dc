import Verif.Lemmas.Alive
import Verif.Props.KeepAlive

/-!
# C75: a client stays connected and is listened to; C51 once more: what its pings do to this
-/

namespace Mercurio

open Spec Server

/-- C75: a built-in client `c` that is connected, with nothing in transit to the server, stays connected
during everything that happens afterwards, as long as nothing ends its connection on purpose: its
application does not call `disconnect` or publish to an invalid topic, its socket does not fail, and
the server does not give it up (keep-alive timeout, shutdown, I/O error).  Whatever other clients and
their applications do, pings included, does not matter, except that none shares its session.
Missing: the ticks of the client's own ping timer (`Harmless` excludes them), and clients with keep-alive 0; with them
the claim is false, see `C75_deaf_after_ping_false` and `C75_keep_alive_zero_false`. -/
theorem C75_stays_connected_partial (m : Mode) (cfg : AuthConfig) (evs1 evs2 : List SysEvent) (c : Nat)
    (hord : ∀ e ∈ evs1 ++ evs2, e.Ordinary) (hreads : ReadsWell m cfg c System.init (evs1 ++ evs2))
    (hh : ∀ e ∈ evs2, e.Harmless c) :
    let σ1 := System.init.run m cfg evs1
    let σ2 := σ1.run m cfg evs2
    σ1.QuietUp c → σ1.Timed c →
    (∀ p, σ2.peers.get c = some p → σ2.Apart c p) →
    ∃ p2 w2, σ2.Up c p2 w2 := by
  intro σ1 σ2 hq hka ho
  have ho1 : ∀ e ∈ evs1, e.Ordinary := fun e he => hord e (List.mem_append_left _ he)
  have ho2 : ∀ e ∈ evs2, e.Ordinary := fun e he => hord e (List.mem_append_right _ he)
  obtain ⟨es, hx⟩ := history (m := m) evs1 ho1 (sysInv_init cfg)
  obtain ⟨rw1, rw2⟩ := readsWell_append evs1 hreads
  obtain ⟨p, w, hup, q1, q2⟩ := hq
  have hi : SysInv cfg σ1 es := hx.inv
  obtain ⟨hall, hb, _⟩ := hi.quiet hup.peer hup.wire hup.server q1 q2
  have hsent := (hi.quiet_sent hup.peer hup.wire hup.server q1 q2).2
  refine stays_up evs2 ho2 hh hi hup hb ?_ ?_ rw2 ?_
  · refine ⟨hsent.noPing, fun q hq => ?_, hka p hup.peer⟩
    rw [hall, List.length_map, List.drop_length] at hq
    cases hq
  · exact hx.track c 0 rw1 (Or.inl rfl) (by intro p w hp; simp [System.init, Map.get] at hp)
  · intro d q hd hq
    obtain ⟨ext, hx2⟩ := history (m := m) evs2 ho2 hi
    obtain ⟨p2, w2, hp2, _, hev⟩ := hx2.peer c p w hup.peer hup.wire
    have := ho p2 hp2 d q hd hq
    unfold Peer.clientId at this ⊢
    rwa [hev.opts] at this

/-- C75 is false for every client that connected with keep-alive 0, always: as long as its connection is up, with
nothing in transit to the server, its application has published nothing and is subscribed to nothing.  Whatever the
client sends after CONNECT, the server acts on it and then drops the connection. -/
theorem C75_keep_alive_zero_false (m : Mode) (cfg : AuthConfig) (evs : List SysEvent) (c : Nat)
    (hord : ∀ e ∈ evs, e.Ordinary) :
    let σ := System.init.run m cfg evs
    ∀ p, σ.peers.get c = some p → p.opts.keepAlive = 0 → σ.QuietUp c →
      p.published = [] ∧ ∀ f, ¬ p.subscribedTo f := by
  intro σ p hp hka hq
  obtain ⟨es, hx⟩ := history (m := m) evs hord (sysInv_init cfg)
  have hi : SysInv cfg σ es := hx.inv
  obtain ⟨p', w, hup, q1, q2⟩ := hq
  have := hup.peer; rw [hp, Option.some.injEq] at this; subst this
  obtain ⟨hall, hb, _⟩ := hi.quiet hup.peer hup.wire hup.server q1 q2
  have hz := hi.net.zero c w hup.wire hup.server (by rw [hi.keepalive hp hup.wire hb]; exact hka)
  rw [hall, List.length_map] at hz
  have hs : p.sents = [] := by
    simp only [Peer.outgoing, List.length_cons] at hz
    exact List.eq_nil_of_length_eq_zero (by omega)
  have hpi := hi.peer c p hp
  refine ⟨?_, fun f => ?_⟩
  · rw [← outgoing_published hpi, Peer.outgoing, hs]; rfl
  · rw [hpi.subscribedTo, hs]; exact id

/-! ## After a ping -/

/-- The calls on the broker that come from client `c` itself are made by its packets. -/
theorem eventCalls_other {cfg : AuthConfig} {srv : Server} {c : Nat} {e : Event} (he : ∀ p, e ≠ .recv c p) :
    ∀ t mm, Call.publish (.client c) t mm ∉ eventCalls cfg srv e := by
  intro t mm hm
  have will : ∀ d s, Call.publish (.client c) t mm ∉ willCalls d s := by
    intro d s h
    unfold willCalls at h
    split at h <;> simp at h
  cases e with
  | first d p u w =>
    cases p with
    | connect p =>
      simp only [eventCalls] at hm
      split at hm <;> simp at hm
    | _ => simp [eventCalls] at hm
  | recv d p =>
    have hd : d ≠ c := by rintro rfl; exact he p rfl
    simp only [eventCalls] at hm
    split at hm
    · simp at hm
    · rcases List.mem_append.mp hm with hm | hm
      · cases p with
        | publish p =>
          simp only [packetCalls] at hm
          split at hm
          · simp only [List.mem_singleton, Call.publish.injEq, Source.client.injEq] at hm
            exact hd hm.1.symm
          · simp at hm
        | subscribe p => simp [packetCalls] at hm
        | _ => simp [packetCalls] at hm
      · split at hm
        · simp at hm
        · exact will _ _ hm
  | close d =>
    simp only [eventCalls] at hm
    split at hm
    · simp at hm
    · exact will _ _ hm
  | _ => simp [eventCalls] at hm

/-- `srv'` has seen no message of client `c` that `srv` has not seen. -/
def NothingFrom (c : Nat) (srv srv' : Server) : Prop :=
  ∃ cs, srv'.world.log = srv.world.log ++ cs ∧ ∀ t mm, Call.publish (.client c) t mm ∉ cs

theorem NothingFrom.refl (c : Nat) (srv : Server) : NothingFrom c srv srv := ⟨[], by simp, by simp⟩

theorem NothingFrom.trans {c : Nat} {a b d : Server} (h1 : NothingFrom c a b) (h2 : NothingFrom c b d) :
    NothingFrom c a d := by
  obtain ⟨x, e1, h1⟩ := h1
  obtain ⟨y, e2, h2⟩ := h2
  refine ⟨x ++ y, by rw [e2, e1, List.append_assoc], fun t mm hm => ?_⟩
  rcases List.mem_append.mp hm with hm | hm
  · exact h1 t mm hm
  · exact h2 t mm hm

theorem nothingFrom_step {cfg : AuthConfig} {srv : Server} {c : Nat} {e : Event} (he : ∀ p, e ≠ .recv c p) :
    NothingFrom c srv (srv.step cfg e).1 := ⟨_, step_log cfg srv e, eventCalls_other he⟩

theorem nothingFrom_act {cfg : AuthConfig} {n : Net} {c d : Nat} {w : Wire} {e : Event} (he : ∀ p, e ≠ .recv c p) :
    NothingFrom c n.server (n.act cfg d w e).server := by
  simp only [Net.act]
  split
  · exact nothingFrom_step he
  · exact (nothingFrom_step he).trans (nothingFrom_step (by simp))

/-- What is left in the buffer of connection `c` begins with a zero byte. -/
def Deaf (c : Nat) (n : Net) : Prop :=
  ∃ w, n.wires.get c = some w ∧ (w.running = true → w.begun = true ∧ ∃ b, w.buf = 0 :: b)

theorem deaf_step {m : Mode} {cfg : AuthConfig} {n : Net} {c : Nat} (h : Deaf c n) (ne : NetEvent) :
    Deaf c (n.step m cfg ne) ∧ NothingFrom c n.server (n.step m cfg ne).server := by
  obtain ⟨w, hw, hd⟩ := h
  have same : Deaf c n ∧ NothingFrom c n.server n.server := ⟨⟨w, hw, hd⟩, .refl _ _⟩
  have act : ∀ d (w0 w1 : Wire) (e : Event), n.wires.get d = some w0 → w0.running = true →
      w1.buf = w0.buf → w1.begun = w0.begun →
      (∀ p, e ≠ .recv c p) → Deaf c (n.act cfg d w1 e) ∧ NothingFrom c n.server (n.act cfg d w1 e).server := by
    intro d w0 w1 e h0 hr hb hg he
    refine ⟨?_, nothingFrom_act he⟩
    by_cases hdc : d = c
    · subst hdc
      rw [hw] at h0; cases h0
      simp only [Deaf, Net.act, Map.get_insert, if_true, Option.some.injEq, exists_eq_left']
      intro _
      rw [hb, hg]
      exact hd hr
    · exact ⟨w, by simp only [Net.act, Map.get_insert, if_neg hdc]; exact hw, hd⟩
  cases ne with
  | accept d =>
    simp only [Net.step]
    split
    · exact same
    · rename_i hn
      have hdc : d ≠ c := by rintro rfl; rw [hw] at hn; cases hn
      exact ⟨⟨w, by simp only [Map.get_insert, if_neg hdc]; exact hw, hd⟩, .refl _ _⟩
  | data d b =>
    simp only [Net.step, Net.onWire]
    split
    · exact same
    rename_i w0 hw0
    split
    · rename_i hr
      split
      · split
        · exact act d w0 w0 _ hw0 hr rfl rfl (by simp)
        · refine ⟨?_, .refl _ _⟩
          by_cases hdc : d = c
          · subst hdc
            rw [hw] at hw0; cases hw0
            obtain ⟨hb, x, hx⟩ := hd hr
            simp only [Deaf, Map.get_insert, if_true, Option.some.injEq, exists_eq_left']
            exact fun _ => ⟨hb, x ++ b, by simp [hx]⟩
          · exact ⟨w, by simp only [Map.get_insert, if_neg hdc]; exact hw, hd⟩
      · exact same
    · exact same
  | turn d u b =>
    simp only [Net.step, Net.onWire]
    split
    · exact same
    rename_i w0 hw0
    split
    · rename_i hr
      split
      · exact same
      · rename_i p rest hp
        have hdc : d ≠ c := by
          rintro rfl
          rw [hw] at hw0; cases hw0
          obtain ⟨_, x, hx⟩ := hd hr
          rw [hx] at hp
          exact parsePacket_zero m _ _ _ hp
        refine ⟨⟨w, by simp only [Net.act, Map.get_insert, if_neg hdc]; exact hw, hd⟩, nothingFrom_act ?_⟩
        intro q hq
        split at hq
        · cases hq; exact hdc rfl
        · cases hq
      · exact act d w0 w0 _ hw0 hr rfl rfl (by simp)
      · exact act d w0 w0 _ hw0 hr rfl rfl (by simp)
    · exact same
  | deliver d f =>
    simp only [Net.step, Net.onWire]
    split
    · exact same
    rename_i w0 hw0
    split
    · rename_i hr
      split
      · exact act d w0 w0 _ hw0 hr rfl rfl (by simp)
      · exact same
    · exact same
  | close d =>
    simp only [Net.step, Net.onWire]
    split
    · exact same
    rename_i w0 hw0
    split
    · rename_i hr
      exact act d w0 w0 _ hw0 hr rfl rfl (by simp)
    · exact same

theorem deaf_run {m : Mode} {cfg : AuthConfig} {c : Nat} (evs : List SysEvent) : ∀ {σ : System}, Deaf c σ.net →
    Deaf c (σ.run m cfg evs).net ∧ NothingFrom c σ.net.server (σ.run m cfg evs).net.server := by
  induction evs with
  | nil => intro σ h; exact ⟨h, .refl _ _⟩
  | cons e evs ih =>
    intro σ h
    have one : Deaf c (σ.step m cfg e).net ∧ NothingFrom c σ.net.server (σ.step m cfg e).net.server := by
      have same : Deaf c σ.net ∧ NothingFrom c σ.net.server σ.net.server := ⟨h, .refl _ _⟩
      cases hm : σ.step m cfg e with
      | mk n P =>
        have hmv := moves m cfg σ e
        rw [hm] at hmv
        cases hmv with
        | idle => exact same
        | net => exact deaf_step h _
        | connect => exact deaf_step h _
        | peer => exact same
    obtain ⟨h1, h2⟩ := ih one.1
    exact ⟨h1, one.2.trans h2⟩

/-- What the server is left with after the first ping of a client. -/
theorem deaf_after_ping (m : Mode) (cfg : AuthConfig) (evs1 : List SysEvent) (c : Nat)
    (hord : ∀ e ∈ evs1, e.Ordinary) (u : Str) (b : Bool) :
    let σ1 := System.init.run m cfg evs1
    let σ2 := σ1.run m cfg [.app c (.tick true), .serverRead c 2, .serverTurn c u b]
    σ1.QuietUp c → σ1.Timed c → (∀ p, σ1.peers.get c = some p → ∀ l, p.loop = some l → l.pending = []) →
      (∃ p w, σ2.Up c p w) ∧ Deaf c σ2.net := by
  intro σ1 σ2 hq hka hpen
  obtain ⟨es, hx⟩ := history (m := m) evs1 hord (sysInv_init cfg)
  have hi : SysInv cfg σ1 es := hx.inv
  obtain ⟨p, w, hup, q1, q2⟩ := hq
  obtain ⟨_, hb, hopen⟩ := hi.quiet hup.peer hup.wire hup.server q1 q2
  obtain ⟨l, hl, hrl⟩ := up_phase hup
  have hpe := hpen p hup.peer l (by simp [Peer.loop, hl])
  have hstep : l.step (.tick true) = (l, { sent := some .pingReq }) := by
    have hbl : ¬ l.blocked := by simp [Client.blocked, hpe, eventCapacity]
    have : l.step (.tick true) = l.turn (.tick true) := by simp [Client.step, hbl, hrl]
    rw [this]; rfl
  -- the three events
  let p' : Peer := { p with phase := .connected l, wrote := p.wrote ++ [0xc0, 0],
                            history := p.history ++ [(.tick true, { sent := some .pingReq })] }
  have hact : p.act l (.tick true) = p' := by
    simp only [Peer.act, hstep]; rfl
  have e1 : σ1.step m cfg (.app c (.tick true)) = σ1.put c p' := by
    simp only [System.step, System.onPeer, hup.peer, hl, hact]
  have hp' : (σ1.put c p').peers.get c = some p' := by
    show (σ1.peers.insert c p').get c = _
    rw [Map.get_insert, if_pos rfl]
  have hw' : (σ1.put c p').net.wires.get c = some w := hup.wire
  have hups : (σ1.put c p').upstream c p' = [0xc0, 0] := by
    simp only [System.upstream, hw', q1]
    exact List.drop_left
  let w2 : Wire := { w with buf := [0xc0, 0], rcvd := w.rcvd ++ [0xc0, 0], running := true }
  have e2 : (σ1.put c p').step m cfg (.serverRead c 2) =
      { σ1.put c p' with net := ⟨σ1.net.server, σ1.net.wires.insert c w2⟩ } := by
    simp only [System.step, System.onPeer, hp', hups]
    have : (List.take (min 2 (2 ^ 31)) ([0xc0, 0] : Buf)) = [0xc0, 0] := by decide
    rw [this]
    simp only [Net.step, Net.onWire, hw', hup.server, if_true, q2]
    simp only [reduceCtorEq, if_false, List.nil_append]
    rfl
  have hs2 : σ2 = ((σ1.put c p').step m cfg (.serverRead c 2)).step m cfg (.serverTurn c u b) := by
    rw [← e1]; rfl
  rw [e2] at hs2
  have hreach : Server.Reachable cfg σ1.net.server := ⟨es, hi.net.server⟩
  rw [← hi.net.server] at hopen
  obtain ⟨s, hs⟩ := at_of_isOpen hreach.inv hopen
  obtain ⟨k, hk, hh, hst⟩ := step_recv_ok (cfg := cfg) (p := .pingReq) (s' := s) (w' := σ1.net.server.world)
    (res := some .pingResp) hs (by simp) rfl
  have hw2 : (σ1.net.wires.insert c w2).get c = some w2 := by rw [Map.get_insert, if_pos rfl]
  have hnet : σ2.net = Net.act cfg ⟨σ1.net.server, σ1.net.wires.insert c w2⟩ c
      { w2 with buf := [0], begun := true, keepalive := w2.keepalive } (.recv c .pingReq) := by
    rw [hs2]
    simp only [System.step, Net.step, Net.onWire, hw2]
    have hpp : parsePacket m w2.buf = .packet .pingReq [0] := parsePacket_ping m []
    have hb2 : w2.begun = true := hb
    have hr2 : w2.running = true := rfl
    simp only [hpp, hb2, hr2, if_true]
  have hwire : σ2.net.wires.get c = some { w2 with
      buf := [0], begun := true, sent := w2.sent ++ [0xd0, 0], running := true } := by
    rw [hnet]
    have hwp : writePackets [Packet.pingResp] = ([0xd0, 0], true) := by decide
    have hres : decide (w2.keepalive ≠ 0) = true := by
      have : w2.keepalive = p.opts.keepAlive := hi.keepalive (w := w) hup.peer hup.wire hb
      rw [this]; simpa using hka p hup.peer
    simp only [Net.act, hst, Option.toList_some, hwp, if_true, Map.get_insert, Option.some.injEq, Net.resets, hres,
      Bool.and_self]
    have hc : ((σ1.net.server.mapStore (saveAfter s .pingReq)).put k.session s).conns.get c = some k := hk
    have hc' : ((({ σ1.net.server with world := σ1.net.server.world }).mapStore
      (saveAfter s .pingReq)).put k.session s).conns.get c = some k := hk
    rw [hc']
    rfl
  refine ⟨⟨p', _, ⟨?_, hwire, rfl, l, rfl, hrl⟩⟩, ⟨_, hwire, fun _ => ⟨rfl, [], rfl⟩⟩⟩
  rw [hs2]; exact hp'

/-- C75 is false as soon as the client's ping timer ticks, always: after any history, if a connected
client with nothing in transit to the server and no events waiting for its application pings once and
the server acts on it, then whatever happens afterwards (`evs` is arbitrary), no message this client
publishes reaches the broker any more, although its `publish` calls return normally. -/
theorem C75_deaf_after_ping_false (m : Mode) (cfg : AuthConfig) (evs1 evs : List SysEvent) (c : Nat)
    (hord : ∀ e ∈ evs1, e.Ordinary) (u : Str) (b : Bool) :
    let σ1 := System.init.run m cfg evs1
    let σ2 := σ1.run m cfg [.app c (.tick true), .serverRead c 2, .serverTurn c u b]
    let σ3 := σ2.run m cfg evs
    σ1.QuietUp c → σ1.Timed c → (∀ p, σ1.peers.get c = some p → ∀ l, p.loop = some l → l.pending = []) →
      (∃ p w, σ2.Up c p w) ∧
        ∃ calls, σ3.net.server.world.log = σ2.net.server.world.log ++ calls ∧
          ∀ t mm, Call.publish (.client c) t mm ∉ calls := by
  intro σ1 σ2 σ3 hq hka hpen
  obtain ⟨h1, h2⟩ := deaf_after_ping m cfg evs1 c hord u b hq hka hpen
  exact ⟨h1, (deaf_run evs h2).2⟩

/-! ## Examples -/

theorem exSys1_quietUp : exSys1.QuietUp 0 := exSys1_quiet.1

/-- Client 0 is connected with nothing in transit; then another client connects and publishes. -/
example : (∀ e ∈ exSysPub, e.Harmless 0) ∧ exSys1.QuietUp 0 ∧ exSys1.Timed 0 ∧
    (∀ p, exSys2.peers.get 0 = some p → exSys2.Apart 0 p) := by
  refine ⟨?_, exSys1_quietUp, timed_check (by decide +kernel), ?_⟩
  · simp only [exSysPub, List.forall_mem_cons]
    simp [SysEvent.Harmless]
  · exact fun p hp => apart_check hp (by decide +kernel)

/-- A client with keep-alive 0 connects, with nothing in transit; it publishes, and the server drops it. -/
example : let σ := System.init.run .debug {} [.connect 0 { clientId := some (str "z"), keepAlive := 0 }, .serverRead 0 4096,
      .serverTurn 0 (str "u") true, .clientRead 0 4096, .clientTurn 0 true]
    let σ' := σ.run .debug {} [.app 0 (.publish (str "a/b") (str "hi") .atMostOnce false true), .serverRead 0 4096,
      .serverTurn 0 (str "u") true]
    σ.QuietUp 0 ∧ (σ.peers.get 0).map (·.opts.keepAlive) = some 0 ∧
    (σ'.peers.get 0).map (·.published) = some [⟨str "a/b", str "hi", .atMostOnce, false⟩] ∧
    (σ'.net.wires.get 0).map (·.running) = some false := by
  intro σ σ'
  have hq : σ.Quiet .debug {} 0 := quiet_check (fs := []) (by decide +kernel) (by decide +kernel) (by decide +kernel)
  exact ⟨hq.1, by decide +kernel, by decide +kernel, by decide +kernel⟩

/-- Client 0 pings, publishes, the server reads everything it sent: the publication is counted by the
client and was never seen by the broker. -/
example : exSys1.QuietUp 0 ∧ ((exSys1.peers.get 0).bind (·.loop)).map (·.pending) = some [] ∧
    (let σ := exSys1.run .debug {} [.app 0 (.tick true), .serverRead 0 2, .serverTurn 0 [] true,
        .app 0 (.publish (str "a/b") (str "hi") .atMostOnce false true), .serverRead 0 100, .serverTurn 0 [] true]
     (σ.peers.get 0).map (·.published) = some [⟨str "a/b", str "hi", .atMostOnce, false⟩] ∧
     σ.net.server.world.log = exSys1.net.server.world.log) := by
  refine ⟨exSys1_quietUp, by decide +kernel, by decide +kernel, by decide +kernel⟩

/-! ## C51 -/

/-- C51 is false, always: of any number of pings, arriving in any way, the server finds only the first,
and closes the connection ⌊1.5 k⌋ seconds after it.  `l` are the packets the server's loop finds. -/
theorem C51_pings_ignored_false (m : Mode) {k : UInt16} (hk : 0 < k) (pings : Nat) (cs : List Buf) (hc : Chunks cs)
    (hb : cs.flatten = (List.replicate (pings + 1) [0xc0, 0]).flatten) (n : Nat) (hn : 0 < n)
    {start : Nat} {l : List Arrival} (hs : start < 1000 * 2 ^ 62) (hl : ∀ a ∈ l, a.finished < 1000 * 2 ^ 62)
    (hlen : l.length = (readStream m n [] cs).1.length)
    (h : NeverIdle (1000 * (3 * k.toNat / 2)) start l) :
    ∃ ping, l = [ping] ∧ ∀ t, ping.finished + 1000 * (3 * k.toNat / 2) ≤ t →
      (Timer.packets k start l).wait t = .expired (ping.finished + 1000 * (3 * k.toNat / 2)) := by
  have h1 := C18_after_ping_false m [] [] Sent.nil (List.replicate pings [0xc0, 0]).flatten [] cs hc (by simp)
    (by rw [List.nil_append, hb, List.replicate_succ]; simp) n hn
  rw [h1] at hlen
  obtain ⟨a, rfl⟩ := List.length_eq_one_iff.mp hlen
  refine ⟨a, rfl, fun t ht => ?_⟩
  have hlast : lastHeard start [a] = a.finished := rfl
  rw [C50_closed_when_silent hk hs hl h t, hlast, if_neg (Nat.not_lt.mpr ht)]

/-- Three pings of a client with keep-alive 2, the first handled two seconds after the start. -/
example : Chunks [[0xc0, 0], [0xc0, 0], [0xc0, 0]] ∧
    NeverIdle (1000 * (3 * (2 : UInt16).toNat / 2)) 1000 [⟨3000, 3001, false⟩] ∧
    (readStream .debug 10 [] [[0xc0, 0], [0xc0, 0], [0xc0, 0]]).1 = [.pingReq] := by
  refine ⟨?_, ?_, by decide +kernel⟩
  · intro c hc
    simp only [List.mem_cons, List.not_mem_nil, or_false, or_self] at hc
    subst hc
    exact ⟨by simp, by decide⟩
  · intro b a c e
    match b, e with
    | [], e => simp at e; rw [← e.1]; decide +kernel
    | x :: w, e => simp at e

end Mercurio
