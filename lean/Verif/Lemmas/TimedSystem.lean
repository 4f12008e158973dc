import Verif.Spec.TimedSystem
import Verif.Props.TimedPings
import Verif.Props.AfterPing

/-!
# The whole system with clocks: lemmas
-/

namespace Mercurio

open Spec Server

theorem System.ext {a b : System} (h1 : a.net = b.net) (h2 : a.peers = b.peers) : a = b := by
  cases a; cases b; cases h1; cases h2; rfl

theorem netEvent_step (m : Mode) (cfg : AuthConfig) (σ : System) (e : SysEvent) :
    (σ.step m cfg e).net = match σ.netEvent e with
      | some ne => σ.net.step m cfg ne
      | none => σ.net := by
  cases e with
  | connect c o =>
    simp only [System.step, System.netEvent]
    cases σ.peers.get c <;> cases (Packet.connect (buildConnect o)).encode <;> rfl
  | serverRead c n =>
    simp only [System.step, System.netEvent, System.onPeer]
    cases hp : σ.peers.get c with
    | none => rfl
    | some p =>
      simp only
      cases (σ.upstream c p).take (min n (2 ^ 31)) with
      | nil => simp only; split <;> rfl
      | cons b bs => rfl
  | serverTurn c u w => rfl
  | deliver c f => rfl
  | serverClose c => rfl
  | clientRead c n =>
    simp only [System.step, System.netEvent, System.onPeer]
    split
    · rfl
    · split
      · split
        · split <;> rfl
        · rfl
      · rfl
  | clientTurn c ok =>
    simp only [System.step, System.netEvent, System.onPeer]
    split
    · rfl
    · split
      · split <;> rfl
      · rfl
  | clientError c =>
    simp only [System.step, System.netEvent, System.onPeer]
    split
    · rfl
    · split <;> rfl
  | timeout c =>
    simp only [System.step, System.netEvent, System.onPeer]
    split
    · rfl
    · split <;> rfl
  | app c i =>
    simp only [System.step, System.netEvent, System.onPeer]
    split
    · rfl
    · split <;> rfl

/-- Events on which the server can be stuck do not concern the client. -/
theorem netEvent_peers {m : Mode} {cfg : AuthConfig} {σ : System} {e : SysEvent} {ne : NetEvent}
    (h : σ.netEvent e = some ne) (ha : ∀ c, ne ≠ .accept c) : (σ.step m cfg e).peers = σ.peers := by
  cases e with
  | connect c o =>
    simp only [System.netEvent] at h
    split at h
    · cases h; exact absurd rfl (ha c)
    · cases h
  | serverRead c n =>
    simp only [System.step, System.onPeer]
    split
    · rfl
    · split
      · split <;> rfl
      · rfl
  | serverTurn c u w => rfl
  | deliver c f => rfl
  | serverClose c => rfl
  | clientRead c n => cases h
  | clientTurn c ok => cases h
  | clientError c => cases h
  | timeout c => cases h
  | app c i => cases h

theorem netEvent_data {σ : System} {e : SysEvent} {c : Nat} {b : Buf} (h : σ.netEvent e = some (.data c b)) :
    b.length ≤ 2 ^ 31 := by
  cases e with
  | connect d o =>
    simp only [System.netEvent] at h
    split at h <;> cases h
  | serverRead d n =>
    simp only [System.netEvent] at h
    split at h
    · cases h
    · split at h
      · split at h
        · cases h; simp
        · cases h
      · rename_i x xs hb
        cases h
        rw [← hb, List.length_take]; omega
  | serverTurn d u w => cases h
  | deliver d f => cases h
  | serverClose d => cases h
  | clientRead d n => cases h
  | clientTurn d ok => cases h
  | clientError d => cases h
  | timeout d => cases h
  | app d i => cases h

theorem onSys_sys (m : Mode) (cfg : AuthConfig) (late : Nat) (σ : TimedSystem) (e : SysEvent) (f : NetEvent → TimedEvent)
    (hf : f = .net ∨ f = .stick) :
    (σ.onSys m cfg late f e).sys = σ.sys.step m cfg e ∨ (σ.onSys m cfg late f e).sys = σ.sys := by
  have hn := netEvent_step m cfg σ.sys e
  cases hne : σ.sys.netEvent e with
  | none =>
    left
    rw [hne] at hn
    show (⟨_, _⟩ : System) = _
    simp only [TimedSystem.onSys, hne]
    exact System.ext hn.symm rfl
  | some ne =>
    rw [hne] at hn
    have key : (σ.timed.step m cfg late (f ne)).net = σ.timed.net.step m cfg ne ∨
        σ.timed.free ne = false ∧ (σ.timed.step m cfg late (f ne)).net = σ.timed.net := by
      cases hfr : σ.timed.free ne with
      | false =>
        right
        rcases hf with rfl | rfl <;> simp [TimedNet.step, hfr]
      | true =>
        left
        rcases hf with rfl | rfl
        · simp [TimedNet.step, hfr, TimedNet.onNet]
        · simp only [TimedNet.step, hfr, if_true]
          split
          · split
            · rfl
            · split <;> rfl
          · rfl
    rcases key with h | ⟨hfr, h⟩
    · left
      show (⟨_, _⟩ : System) = _
      simp only [TimedSystem.onSys, hne]
      exact System.ext (h.trans hn.symm) rfl
    · right
      have hp := netEvent_peers (m := m) (cfg := cfg) hne (by rintro c rfl; cases hfr)
      show (⟨_, _⟩ : System) = _
      simp only [TimedSystem.onSys, hne]
      exact System.ext h hp

/-- Without the clock, an event is one of `Verif.Model.System`, or nothing happens. -/
theorem timedSys_step (m : Mode) (cfg : AuthConfig) (late : Nat) (σ : TimedSystem) (e : TimedSysEvent)
    (he : e.Ordinary) : ∃ es, (σ.step m cfg late e).sys = σ.sys.run m cfg es ∧ ∀ x ∈ es, x.Ordinary := by
  have none' : ∀ σ' : TimedSystem, σ'.sys = σ.sys → ∃ es, σ'.sys = σ.sys.run m cfg es ∧ ∀ x ∈ es, x.Ordinary :=
    fun σ' h => ⟨[], by simp [System.run, h], by simp⟩
  have some' : ∀ (σ' : TimedSystem) x, x.Ordinary → σ'.sys = σ.sys.step m cfg x →
      ∃ es, σ'.sys = σ.sys.run m cfg es ∧ ∀ x ∈ es, x.Ordinary :=
    fun σ' x hx h => ⟨[x], by simp [System.run, h], by simpa using hx⟩
  cases e with
  | sys e =>
    simp only [TimedSystem.step]
    split
    · exact none' _ rfl
    · rcases onSys_sys m cfg late σ e .net (Or.inl rfl) with h | h
      · exact some' _ e he h
      · exact none' _ h
  | stick e =>
    simp only [TimedSystem.step]
    split
    · exact none' _ rfl
    · rcases onSys_sys m cfg late σ e .stick (Or.inr rfl) with h | h
      · exact some' _ e he h
      · exact none' _ h
  | resume c =>
    refine none' _ ?_
    simp only [TimedSystem.step, TimedSystem.sys, TimedNet.step]
    split
    · split <;> rfl
    · rfl
  | expire c =>
    simp only [TimedSystem.step, TimedNet.step]
    split
    · split
      · exact some' _ (.serverClose c) trivial rfl
      · exact none' _ rfl
    · exact none' _ rfl
  | tick c ok =>
    simp only [TimedSystem.step]
    split
    · split
      · refine some' _ (.app c (.tick ok)) trivial ?_
        have hn := netEvent_step m cfg σ.sys (.app c (.tick ok))
        exact System.ext hn.symm rfl
      · exact none' _ rfl
    · exact none' _ rfl
  | wait ms =>
    refine none' _ ?_
    simp only [TimedSystem.step]
    split <;> rfl

theorem timedSys_run (m : Mode) (cfg : AuthConfig) (late : Nat) (evs : List TimedSysEvent) :
    ∀ (σ : TimedSystem), (∀ e ∈ evs, e.Ordinary) →
      ∃ es, (σ.run m cfg late evs).sys = σ.sys.run m cfg es ∧ ∀ x ∈ es, x.Ordinary := by
  induction evs with
  | nil => intro σ _; exact ⟨[], rfl, by simp⟩
  | cons e evs ih =>
    intro σ h
    obtain ⟨a, ha, hoa⟩ := timedSys_step m cfg late σ e (h e (by simp))
    obtain ⟨b, hb, hob⟩ := ih (σ.step m cfg late e) fun x hx => h x (by simp [hx])
    refine ⟨a ++ b, ?_, ?_⟩
    · show ((σ.step m cfg late e).run m cfg late evs).sys = _
      rw [hb, ha]
      simp [System.run]
    · intro x hx
      rcases List.mem_append.mp hx with hx | hx
      · exact hoa x hx
      · exact hob x hx

theorem netEvent_conn {σ : System} {e : SysEvent} {ne : NetEvent} (h : σ.netEvent e = some ne) :
    (∃ o, e = .connect ne.conn o) ∨ (∃ n, e = .serverRead ne.conn n) ∨ (∃ u w, e = .serverTurn ne.conn u w) ∨
      (∃ f, e = .deliver ne.conn f) ∨ e = .serverClose ne.conn := by
  cases e with
  | connect d o =>
    simp only [System.netEvent] at h
    split at h
    · cases h; exact Or.inl ⟨o, rfl⟩
    · cases h
  | serverRead d n =>
    right; left
    simp only [System.netEvent] at h
    split at h
    · cases h
    · split at h
      · split at h
        · cases h; exact ⟨n, rfl⟩
        · cases h
      · cases h; exact ⟨n, rfl⟩
  | serverTurn d u w => cases h; exact Or.inr (Or.inr (Or.inl ⟨u, w, rfl⟩))
  | deliver d f => cases h; exact Or.inr (Or.inr (Or.inr (Or.inl ⟨f, rfl⟩)))
  | serverClose d => cases h; exact Or.inr (Or.inr (Or.inr (Or.inr rfl)))
  | clientRead d n => cases h
  | clientTurn d ok => cases h
  | clientError d => cases h
  | timeout d => cases h
  | app d i => cases h

/-- What the server with its clock sees of an event. -/
theorem timed_step (m : Mode) (cfg : AuthConfig) (late : Nat) (σ : TimedSystem) (e : TimedSysEvent) :
    ∃ es, (σ.step m cfg late e).timed = σ.timed.run m cfg late es ∧ (∀ x ∈ es, x.Short) ∧
      ∀ c, e.Calm c → ∀ x ∈ es, x.Calm c := by
  have none' : ∀ σ' : TimedSystem, σ'.timed = σ.timed → ∃ es, σ'.timed = σ.timed.run m cfg late es ∧
      (∀ x ∈ es, x.Short) ∧ ∀ c, e.Calm c → ∀ x ∈ es, x.Calm c :=
    fun σ' h => ⟨[], by simp [TimedNet.run, h], by simp, by simp⟩
  have some' : ∀ (σ' : TimedSystem) x, x.Short → (∀ c, e.Calm c → x.Calm c) → σ'.timed = σ.timed.step m cfg late x →
      ∃ es, σ'.timed = σ.timed.run m cfg late es ∧ (∀ x ∈ es, x.Short) ∧ ∀ c, e.Calm c → ∀ x ∈ es, x.Calm c :=
    fun σ' x hx hc h => ⟨[x], by simp [TimedNet.run, h], by simpa using hx, fun c h => by simpa using hc c h⟩
  cases e with
  | sys e =>
    simp only [TimedSystem.step]
    split
    · exact none' _ rfl
    · cases hne : σ.sys.netEvent e with
      | none => exact none' _ (by simp only [TimedSystem.onSys, hne])
      | some ne =>
        refine some' _ (.net ne) ?_ (fun c _ => trivial) (by simp only [TimedSystem.onSys, hne])
        cases ne with
        | data d b => exact netEvent_data hne
        | _ => trivial
  | stick e =>
    simp only [TimedSystem.step]
    split
    · exact none' _ rfl
    · cases hne : σ.sys.netEvent e with
      | none => exact none' _ (by simp only [TimedSystem.onSys, hne])
      | some ne =>
        refine some' _ (.stick ne) ?_ (fun c hc => hc _ (netEvent_conn hne)) (by simp only [TimedSystem.onSys, hne])
        cases ne with
        | data d b => exact netEvent_data hne
        | _ => trivial
  | resume c => exact some' _ (.resume c) trivial (fun _ _ => trivial) rfl
  | expire c => exact some' _ (.expire c) trivial (fun _ _ => trivial) rfl
  | tick c ok =>
    simp only [TimedSystem.step]
    split
    · split <;> exact none' _ rfl
    · exact none' _ rfl
  | wait ms =>
    simp only [TimedSystem.step]
    split
    · rename_i h
      refine some' _ (.wait ms) trivial (fun _ _ => trivial) ?_
      simp only [TimedSystem.patient, Bool.and_eq_true] at h
      simp only [TimedNet.step, h.1, if_true]
    · exact none' _ rfl

theorem timed_run (m : Mode) (cfg : AuthConfig) (late : Nat) (evs : List TimedSysEvent) :
    ∀ (σ : TimedSystem), ∃ es, (σ.run m cfg late evs).timed = σ.timed.run m cfg late es ∧ (∀ x ∈ es, x.Short) ∧
      ∀ c, (∀ e ∈ evs, e.Calm c) → ∀ x ∈ es, x.Calm c := by
  induction evs with
  | nil => intro σ; exact ⟨[], rfl, by simp, by simp⟩
  | cons e evs ih =>
    intro σ
    obtain ⟨a, ha, hsa, hca⟩ := timed_step m cfg late σ e
    obtain ⟨b, hb, hsb, hcb⟩ := ih (σ.step m cfg late e)
    refine ⟨a ++ b, ?_, ?_, ?_⟩
    · show ((σ.step m cfg late e).run m cfg late evs).timed = _
      rw [hb, ha]
      simp [TimedNet.run]
    · intro x hx
      rcases List.mem_append.mp hx with hx | hx
      · exact hsa x hx
      · exact hsb x hx
    · intro c h x hx
      rcases List.mem_append.mp hx with hx | hx
      · exact hca c (h e (by simp)) x hx
      · exact hcb c (fun y hy => h y (by simp [hy])) x hx

/-! ## Clients -/

theorem peerMove_opts {m : Mode} {σ : System} {c : Nat} {p p' : Peer} {e : SysEvent} (h : PeerMove m σ c p e p') :
    p'.opts = p.opts := by
  have recv : ∀ (q : Peer) r ok, (q.receive r ok).opts = q.opts := by
    intro q r ok
    unfold Peer.receive
    split <;> rfl
  cases h with
  | read => rfl
  | turn => exact recv _ _ _
  | lost => exact recv _ _ _
  | timeout => rfl
  | app => rfl

theorem step_dead (l : Client) (i : ClientIn) (h : l.running = false) : (l.step i).1.running = false := by
  unfold Client.step
  split
  · unfold Client.take
    split <;> exact h
  · split
    · exact h
    · rw [h]
      simp only [Bool.false_eq_true, if_false]
      unfold Client.refuse
      split <;> exact h

theorem peerMove_loop {m : Mode} {σ : System} {c : Nat} {p p' : Peer} {e : SysEvent} (h : PeerMove m σ c p e p')
    {l : Client} (hl : p.phase = .connected l) :
    ∃ l', p'.phase = .connected l' ∧ (l.running = false → l'.running = false) ∧ ∃ H, p'.history = p.history ++ H := by
  cases h with
  | read => exact ⟨l, hl, id, [], by simp⟩
  | @turn ok q rest hr _ =>
    simp only [Peer.reading, hl, Bool.and_eq_true] at hr
    simp only [Peer.receive, hl]
    exact ⟨_, rfl, (fun h => by rw [h] at hr; simp at hr), _, rfl⟩
  | @lost _ r ok hr _ =>
    simp only [Peer.reading, hl, Bool.and_eq_true] at hr
    simp only [Peer.receive, hl]
    exact ⟨_, rfl, (fun h => by rw [h] at hr; simp at hr), _, rfl⟩
  | timeout h => rw [hl] at h; cases h
  | @app i l0 h0 _ =>
    rw [hl] at h0; cases h0
    exact ⟨_, rfl, step_dead l i, _, rfl⟩

/-- `connect` returns a client only when a packet was read. -/
theorem peerMove_connected {m : Mode} {σ : System} {c : Nat} {p p' : Peer} {e : SysEvent} (h : PeerMove m σ c p e p')
    (h0 : p.isConnected = false) (h1 : p'.isConnected = true) : ∃ ok, e = .clientTurn c ok := by
  cases h with
  | read => simp only [Peer.isConnected] at h0 h1; rw [h0] at h1; cases h1
  | @turn ok q rest _ _ => exact ⟨ok, rfl⟩
  | @lost _ r ok hr hq =>
    exfalso
    cases hp : p.phase with
    | connecting =>
      simp only [Peer.receive, hp, Peer.isConnected] at h1
      cases r with
      | packet q => exact hq q rfl
      | closed => simp [performConnect] at h1
      | panicked => simp [performConnect] at h1
      | error e => cases e <;> simp [performConnect] at h1
    | connected l => simp [Peer.isConnected, hp] at h0
    | failed e => simp [Peer.receive, hp, Peer.isConnected] at h1
  | timeout => simp [Peer.isConnected] at h1
  | app hl _ => simp [Peer.isConnected, hl] at h0

/-- What an event does to client `c`. -/
theorem sys_peer (m : Mode) (cfg : AuthConfig) (σ : System) (e : SysEvent) (c : Nat) {p' : Peer}
    (hp' : (σ.step m cfg e).peers.get c = some p') :
    (σ.peers.get c = some p') ∨ (σ.peers.get c = none ∧ p'.isConnected = false) ∨
      ∃ p, σ.peers.get c = some p ∧ PeerMove m σ c p e p' := by
  have hm := moves m cfg σ e
  generalize σ.step m cfg e = σ' at *
  cases hm with
  | idle => exact Or.inl hp'
  | net => exact Or.inl hp'
  | @connect d o b h _ =>
    simp only [Map.get_insert] at hp'
    split at hp'
    · rename_i hd
      subst hd
      cases hp'
      exact Or.inr (Or.inl ⟨h, rfl⟩)
    · exact Or.inl hp'
  | @peer _ d p q h hq =>
    simp only [System.put, Map.get_insert] at hp'
    split at hp'
    · rename_i hd
      subst hd
      cases hp'
      exact Or.inr (Or.inr ⟨p, h, hq⟩)
    · exact Or.inl hp'

theorem sys_stays (m : Mode) (cfg : AuthConfig) (σ : System) (e : SysEvent) (c : Nat) {p : Peer}
    (hp : σ.peers.get c = some p) : ∃ p', (σ.step m cfg e).peers.get c = some p' := by
  have hm := moves m cfg σ e
  generalize σ.step m cfg e = σ' at *
  cases hm with
  | idle => exact ⟨p, hp⟩
  | net => exact ⟨p, hp⟩
  | @connect d o b h _ =>
    simp only [Map.get_insert]
    split
    · exact ⟨_, rfl⟩
    · exact ⟨p, hp⟩
  | @peer _ d p q h hq =>
    simp only [System.put, Map.get_insert]
    split
    · exact ⟨_, rfl⟩
    · exact ⟨_, hp⟩

/-! ## Time -/

theorem TimedSystem.run_snoc (m : Mode) (cfg : AuthConfig) (late : Nat) (σ : TimedSystem) (es : List TimedSysEvent)
    (e : TimedSysEvent) : σ.run m cfg late (es ++ [e]) = (σ.run m cfg late es).step m cfg late e := by
  simp [TimedSystem.run]

theorem timed_now (m : Mode) (cfg : AuthConfig) (late : Nat) (σ : TimedNet) (e : TimedEvent) (he : ∀ ms, e ≠ .wait ms) :
    (σ.step m cfg late e).now = σ.now := by
  cases e with
  | net e => simp only [TimedNet.step]; split <;> rfl
  | stick e =>
    simp only [TimedNet.step]
    split
    · split
      · split
        · rfl
        · split <;> rfl
      · rfl
    · rfl
  | resume c =>
    simp only [TimedNet.step]
    split
    · split <;> rfl
    · rfl
  | expire c =>
    simp only [TimedNet.step]
    split
    · split <;> rfl
    · rfl
  | wait ms => exact absurd rfl (he ms)

/-- What an event does to the clients, their ping timers and the clock. -/
theorem timed_kinds (m : Mode) (cfg : AuthConfig) (late : Nat) (σ : TimedSystem) (e : TimedSysEvent) :
    ((σ.step m cfg late e).peers = σ.peers ∧ (σ.step m cfg late e).pings = σ.pings ∧
      (σ.step m cfg late e).timed.now = σ.timed.now) ∨
    (∃ e' : SysEvent, e'.isTick = false ∧ (σ.step m cfg late e).peers = (σ.sys.step m cfg e').peers ∧
      (σ.step m cfg late e).pings = σ.startPing (σ.sys.step m cfg e').peers e' ∧
      (σ.step m cfg late e).timed.now = σ.timed.now) ∨
    (∃ d ok p due, σ.peers.get d = some p ∧ σ.pings.get d = some due ∧ p.attends = true ∧ due ≤ σ.timed.now ∧
      (σ.step m cfg late e).peers = (σ.sys.step m cfg (.app d (.tick ok))).peers ∧
      (σ.step m cfg late e).pings = σ.pings.insert d (due + pingInterval p.opts.keepAlive) ∧
      (σ.step m cfg late e).timed.now = σ.timed.now) ∨
    (∃ ms, σ.patient late (σ.timed.now + ms) = true ∧ (σ.step m cfg late e).peers = σ.peers ∧
      (σ.step m cfg late e).pings = σ.pings ∧ (σ.step m cfg late e).timed.now = σ.timed.now + ms) := by
  have on : ∀ (f : NetEvent → TimedEvent) (e : SysEvent), (∀ ne ms, f ne ≠ .wait ms) →
      (σ.onSys m cfg late f e).timed.now = σ.timed.now := by
    intro f e hf
    simp only [TimedSystem.onSys]
    split
    · exact timed_now m cfg late _ _ (hf _)
    · rfl
  cases e with
  | sys e =>
    simp only [TimedSystem.step]
    split
    · exact Or.inl ⟨rfl, rfl, rfl⟩
    · rename_i ht
      exact Or.inr (Or.inl ⟨e, by simpa using ht, rfl, rfl, on _ _ (by simp)⟩)
  | stick e =>
    simp only [TimedSystem.step]
    split
    · exact Or.inl ⟨rfl, rfl, rfl⟩
    · rename_i ht
      exact Or.inr (Or.inl ⟨e, by simpa using ht, rfl, rfl, on _ _ (by simp)⟩)
  | resume c => exact Or.inl ⟨rfl, rfl, timed_now m cfg late _ _ (by simp)⟩
  | expire c => exact Or.inl ⟨rfl, rfl, timed_now m cfg late _ _ (by simp)⟩
  | tick c ok =>
    simp only [TimedSystem.step]
    split
    · rename_i p due hp hd
      split
      · rename_i h
        simp only [Bool.and_eq_true, decide_eq_true_eq] at h
        exact Or.inr (Or.inr (Or.inl ⟨c, ok, p, due, hp, hd, h.1, h.2, rfl, rfl, rfl⟩))
      · exact Or.inl ⟨rfl, rfl, rfl⟩
    · exact Or.inl ⟨rfl, rfl, rfl⟩
  | wait ms =>
    simp only [TimedSystem.step]
    split
    · rename_i h
      exact Or.inr (Or.inr (Or.inr ⟨ms, h, rfl, rfl, rfl⟩))
    · exact Or.inl ⟨rfl, rfl, rfl⟩

/-! ## The ping timers -/

/-- Only a client that has just been connected gets a new timer. -/
theorem startPing_get (σ : TimedSystem) (P : Map Nat Peer) (e : SysEvent) {c : Nat} {p : Peer}
    (hp : σ.peers.get c = some p) (hc : p.isConnected = true) : (σ.startPing P e).get c = σ.pings.get c := by
  unfold TimedSystem.startPing
  split
  · rename_i d ok
    split
    · rename_i q q' hq hq'
      split
      · rename_i hx
        rw [Map.get_insert]
        split
        · rename_i hd
          subst hd
          rw [hp] at hq
          cases hq
          simp [hc] at hx
        · rfl
      · rfl
    · rfl
  · rfl

/-- A connected client has a timer. -/
def PingInv (σ : TimedSystem) : Prop :=
  ∀ c p, σ.peers.get c = some p → p.isConnected = true →
    ∃ due, σ.pings.get c = some due ∧ due ≤ σ.timed.now + pingInterval p.opts.keepAlive

theorem pingInv_step {m : Mode} {cfg : AuthConfig} {late : Nat} {σ : TimedSystem} (h : PingInv σ) (e : TimedSysEvent) :
    PingInv (σ.step m cfg late e) := by
  intro c p' hp' hc'
  rcases timed_kinds m cfg late σ e with ⟨e1, e2, e3⟩ | ⟨e', ht, e1, e2, e3⟩ | ⟨d, ok, q, due, hq, hdue, hat, hle, e1, e2, e3⟩ |
    ⟨ms, _, e1, e2, e3⟩
  · rw [e1] at hp'; rw [e2, e3]; exact h c p' hp' hc'
  · rw [e1] at hp'
    rw [e2, e3]
    rcases sys_peer m cfg σ.sys e' c hp' with hs | ⟨_, hn⟩ | ⟨p, hp, hm⟩
    · rw [startPing_get σ _ _ hs hc']; exact h c p' hs hc'
    · rw [hn] at hc'; cases hc'
    · cases hpc : p.isConnected with
      | true =>
        rw [startPing_get σ _ _ hp hpc, peerMove_opts hm]
        exact h c p hp hpc
      | false =>
        obtain ⟨ok, rfl⟩ := peerMove_connected hm hpc hc'
        have hp : σ.peers.get c = some p := hp
        refine ⟨σ.timed.now + pingInterval p'.opts.keepAlive, ?_, Nat.le_refl _⟩
        simp only [TimedSystem.startPing, hp, hp', hpc, hc', Bool.not_false, Bool.and_self, if_true, Map.get_insert]
  · rw [e1] at hp'
    rw [e2, e3]
    have old : ∀ p, σ.peers.get c = some p → p.isConnected = true → p'.opts = p.opts →
        ∃ due', (σ.pings.insert d (due + pingInterval q.opts.keepAlive)).get c = some due' ∧
          due' ≤ σ.timed.now + pingInterval p'.opts.keepAlive := by
      intro p hp hpc ho
      rw [Map.get_insert]
      split
      · rename_i hd
        subst hd
        rw [hp] at hq
        cases hq
        exact ⟨_, rfl, by rw [ho]; omega⟩
      · rw [ho]; exact h c p hp hpc
    rcases sys_peer m cfg σ.sys _ c hp' with hs | ⟨_, hn⟩ | ⟨p, hp, hm⟩
    · exact old p' hs hc' rfl
    · rw [hn] at hc'; cases hc'
    · refine old p hp ?_ (peerMove_opts hm)
      cases hpc : p.isConnected with
      | true => rfl
      | false => obtain ⟨_, hx⟩ := peerMove_connected hm hpc hc'; cases hx
  · rw [e1] at hp'
    rw [e2, e3]
    obtain ⟨due, a, b⟩ := h c p' hp' hc'
    exact ⟨due, a, by omega⟩

theorem pingInv_run (m : Mode) (cfg : AuthConfig) (late : Nat) (evs : List TimedSysEvent) :
    PingInv (({} : TimedSystem).run m cfg late evs) := by
  induction evs using snoc_induction with
  | h0 => intro c p hp; simp [TimedSystem.run, Map.get] at hp
  | hs es e ih => rw [TimedSystem.run_snoc]; exact pingInv_step ih e

/-- The client has sent a ping, or its event loop has ended, or it is not yet time. -/
def PingDue (late D c : Nat) (o : ConnectOptions) (σ : TimedSystem) : Prop :=
  ∃ p l, σ.peers.get c = some p ∧ p.opts = o ∧ p.phase = .connected l ∧
    (Packet.pingReq ∈ p.sents ∨ l.running = false ∨
      ∃ due, σ.pings.get c = some due ∧ due ≤ D ∧ σ.timed.now ≤ D + late)

theorem sents_grow {p p' : Peer} {H : List (ClientIn × ClientOut)} (h : p'.history = p.history ++ H) {q : Packet}
    (hq : q ∈ p.sents) : q ∈ p'.sents := by
  simp only [Peer.sents, h, List.filterMap_append, List.mem_append]
  exact Or.inl hq

theorem pingDue_step {m : Mode} {cfg : AuthConfig} {late D c : Nat} {o : ConnectOptions} {σ : TimedSystem}
    (h : PingDue late D c o σ) (ha : σ.Attentive c) (e : TimedSysEvent) : PingDue late D c o (σ.step m cfg late e) := by
  obtain ⟨p, l, hp, ho, hl, hd⟩ := h
  have hpc : p.isConnected = true := by simp [Peer.isConnected, hl]
  have hold : PingDue late D c o σ := ⟨p, l, hp, ho, hl, hd⟩
  -- an event of the system that leaves the timer as it is
  have sys : ∀ (e' : SysEvent) (σ' : TimedSystem), σ'.peers = (σ.sys.step m cfg e').peers →
      σ'.pings.get c = σ.pings.get c → σ'.timed.now = σ.timed.now → PingDue late D c o σ' := by
    intro e' σ' e1 e2 e3
    obtain ⟨p', hp'⟩ := sys_stays m cfg σ.sys e' c hp
    rcases sys_peer m cfg σ.sys e' c hp' with hs | ⟨hn, _⟩ | ⟨p0, hp0, hm⟩
    · have hs : σ.peers.get c = some p' := hs
      rw [hp] at hs
      cases hs
      exact ⟨p, l, by rw [e1]; exact hp', ho, hl, by rw [e2, e3]; exact hd⟩
    · have hn : σ.peers.get c = none := hn
      rw [hp] at hn; cases hn
    · have hp0 : σ.peers.get c = some p0 := hp0
      rw [hp] at hp0
      cases hp0
      obtain ⟨l', hl', hr, H, hH⟩ := peerMove_loop hm hl
      refine ⟨p', l', by rw [e1]; exact hp', (peerMove_opts hm).trans ho, hl', ?_⟩
      rw [e2, e3]
      rcases hd with hd | hd | hd
      · exact Or.inl (sents_grow hH hd)
      · exact Or.inr (Or.inl (hr hd))
      · exact Or.inr (Or.inr hd)
  rcases timed_kinds m cfg late σ e with ⟨e1, e2, e3⟩ | ⟨e', ht, e1, e2, e3⟩ | ⟨d, ok, q, due, hq, hdue, hat, hle, e1, e2, e3⟩ |
    ⟨ms, hpat, e1, e2, e3⟩
  · exact ⟨p, l, by rw [e1]; exact hp, ho, hl, by rw [e2, e3]; exact hd⟩
  · exact sys e' _ e1 (by rw [e2]; exact startPing_get σ _ _ hp hpc) e3
  · by_cases hdc : d = c
    · subst hdc
      rw [hp] at hq
      cases hq
      simp only [Peer.attends, hl, Bool.and_eq_true] at hat
      have hnb : ¬ l.blocked := ha p l hp hl
      have hstep : l.step (.tick ok) = l.turn (.tick ok) := by simp [Client.step, hnb, hat.1]
      have hpeer : (σ.sys.step m cfg (.app d (.tick ok))).peers.get d = some (p.act l (.tick ok)) := by
        simp only [System.step, System.onPeer, show σ.sys.peers.get d = some p from hp, hl, System.put, Map.get_insert,
          if_true]
      refine ⟨p.act l (.tick ok), (l.step (.tick ok)).1, by rw [e1]; exact hpeer, ho, rfl, ?_⟩
      cases ok with
      | true =>
        left
        simp only [Peer.sents, Peer.act, List.filterMap_append, List.mem_append]
        right
        rw [hstep]
        have : (l.turn (.tick true)).2.sent = some .pingReq := rfl
        simp [this]
      | false =>
        right; left
        rw [hstep]
        rfl
    · exact sys _ _ e1 (by rw [e2, Map.get_insert, if_neg hdc]) e3
  · refine ⟨p, l, by rw [e1]; exact hp, ho, hl, ?_⟩
    rcases hd with hd | hd | ⟨due, h1, h2, h3⟩
    · exact Or.inl hd
    · exact Or.inr (Or.inl hd)
    · cases hr : l.running with
      | false => exact Or.inr (Or.inl rfl)
      | true =>
        right; right
        refine ⟨due, by rw [e2]; exact h1, h2, ?_⟩
        simp only [TimedSystem.patient, Bool.and_eq_true, List.all_eq_true] at hpat
        have := hpat.2 (c, p) (mem_of_get hp)
        simp only [h1, Peer.attends, hl, hr, ha p l hp hl] at this
        simp at this
        omega

theorem pingDue_run {m : Mode} {cfg : AuthConfig} {late D c : Nat} {o : ConnectOptions} (evs : List TimedSysEvent) :
    ∀ {σ : TimedSystem}, PingDue late D c o σ → (∀ a b, evs = a ++ b → (σ.run m cfg late a).Attentive c) →
      PingDue late D c o (σ.run m cfg late evs) := by
  induction evs with
  | nil => intro σ h _; exact h
  | cons e evs ih =>
    intro σ h ha
    exact ih (pingDue_step h (ha [] (e :: evs) rfl) e) fun a b hab => ha (e :: a) b (by rw [hab]; rfl)

/-! ## How often a client pings -/

/-- Only the ping timer makes the client write a PINGREQ. -/
theorem step_pingReq {l : Client} {i : ClientIn} (h : (l.step i).2.sent = some .pingReq) : ∃ ok, i = .tick ok := by
  have call : ∀ (l : Client) (p : Packet) ok r, (l.call p ok r).2.sent = some .pingReq → p = .pingReq := by
    intro l p ok r h
    unfold Client.call at h
    split at h
    · exact Option.some.inj h
    · cases h
    · cases h
    · cases h
  unfold Client.step at h
  split at h
  · unfold Client.take at h
    split at h <;> cases h
  · split at h
    · cases h
    · split at h
      · cases i with
        | tick ok => exact ⟨ok, rfl⟩
        | read r ok =>
          exfalso
          cases r with
          | packet p =>
            simp only [Client.turn, Client.incoming] at h
            split at h
            · split at h
              · split at h <;> cases h
              · cases h
            · cases h
            · cases h
          | closed => cases h
          | error e => cases h
          | panicked => cases h
        | publish t pl q r ok => exact absurd (call _ _ _ _ h) (by simp)
        | subscribe t ok => exact absurd (call _ _ _ _ h) (by simp)
        | unsubscribe t ok => exact absurd (call _ _ _ _ h) (by simp)
        | disconnect ok => exact absurd (call _ _ _ _ h) (by simp)
        | recv => cases h
      · unfold Client.refuse at h
        split at h <;> cases h

theorem act_pings {p : Peer} {l : Client} {i : ClientIn} (h : ∀ ok, i ≠ .tick ok) : (p.act l i).pingsSent = p.pingsSent := by
  have : (l.step i).2.sent ≠ some .pingReq := fun hx => by
    obtain ⟨ok, rfl⟩ := step_pingReq hx
    exact h ok rfl
  simp [Peer.pingsSent, Peer.act, List.filter_append, this]

theorem peerMove_pings {m : Mode} {σ : System} {c : Nat} {p p' : Peer} {e : SysEvent} (h : PeerMove m σ c p e p')
    (he : e.isTick = false) : p'.pingsSent = p.pingsSent := by
  have recv : ∀ (q : Peer) r ok, (q.receive r ok).pingsSent = q.pingsSent := by
    intro q r ok
    unfold Peer.receive
    split
    · rfl
    · exact act_pings (by simp)
    · rfl
  cases h with
  | read => rfl
  | turn => exact recv _ _ _
  | lost => exact recv _ _ _
  | timeout => rfl
  | app => exact act_pings (by rintro ok rfl; cases he)

/-- The timer of a running client is due one interval after the last ping, and no ping was early. -/
def PingCount (start c : Nat) (o : ConnectOptions) (σ : TimedSystem) : Prop :=
  ∃ p l, σ.peers.get c = some p ∧ p.opts = o ∧ p.phase = .connected l ∧
    start + p.pingsSent * pingInterval o.keepAlive ≤ σ.timed.now ∧
    (l.running = true → σ.pings.get c = some (start + (p.pingsSent + 1) * pingInterval o.keepAlive))

/-- The same, and none was late. -/
def PingOften (late start c : Nat) (o : ConnectOptions) (σ : TimedSystem) : Prop :=
  ∀ p l, σ.peers.get c = some p → p.phase = .connected l → l.running = true →
    σ.timed.now ≤ start + (p.pingsSent + 1) * pingInterval o.keepAlive + late

theorem pingCount_step {m : Mode} {cfg : AuthConfig} {late start c : Nat} {o : ConnectOptions} {σ : TimedSystem}
    (h : PingCount start c o σ) (e : TimedSysEvent) :
    PingCount start c o (σ.step m cfg late e) ∧
      (σ.Attentive c → PingOften late start c o σ → PingOften late start c o (σ.step m cfg late e)) := by
  obtain ⟨p, l, hp, ho, hl, hn, hd⟩ := h
  have hpc : p.isConnected = true := by simp [Peer.isConnected, hl]
  -- the client is as before
  have same : ∀ σ' : TimedSystem, σ'.peers.get c = some p → σ'.pings.get c = σ.pings.get c →
      σ.timed.now ≤ σ'.timed.now → PingCount start c o σ' := by
    intro σ' e1 e2 e3
    exact ⟨p, l, e1, ho, hl, Nat.le_trans hn e3, fun hr => by rw [e2]; exact hd hr⟩
  have often : ∀ σ' : TimedSystem, σ'.peers.get c = some p → σ'.timed.now = σ.timed.now → PingOften late start c o σ →
      PingOften late start c o σ' := by
    intro σ' e1 e3 hof p' l' hp' hl' hr'
    rw [e1] at hp'
    cases hp'
    rw [e3]
    exact hof p l' hp hl' hr'
  -- an event of the system that leaves the timer as it is
  have sys : ∀ (e' : SysEvent) (σ' : TimedSystem), (∀ p', PeerMove m σ.sys c p e' p' → p'.pingsSent = p.pingsSent) →
      σ'.peers = (σ.sys.step m cfg e').peers → σ'.pings.get c = σ.pings.get c → σ'.timed.now = σ.timed.now →
      PingCount start c o σ' ∧ (σ.Attentive c → PingOften late start c o σ → PingOften late start c o σ') := by
    intro e' σ' hmv e1 e2 e3
    obtain ⟨p', hp'⟩ := sys_stays m cfg σ.sys e' c hp
    have hp1 : σ'.peers.get c = some p' := by rw [e1]; exact hp'
    rcases sys_peer m cfg σ.sys e' c hp' with hs | ⟨hn, _⟩ | ⟨p0, hp0, hm⟩
    · have hs : σ.peers.get c = some p' := hs
      rw [hp] at hs
      cases hs
      exact ⟨same σ' hp1 e2 (by omega), fun _ => often σ' hp1 e3⟩
    · have hn : σ.peers.get c = none := hn
      rw [hp] at hn; cases hn
    · have hp0 : σ.peers.get c = some p0 := hp0
      rw [hp] at hp0
      cases hp0
      obtain ⟨l', hl', hr, H, hH⟩ := peerMove_loop hm hl
      have hrr : l'.running = true → l.running = true := by
        intro h
        cases hx : l.running with
        | true => rfl
        | false => rw [hr hx] at h; cases h
      refine ⟨⟨p', l', hp1, (peerMove_opts hm).trans ho, hl', by rw [hmv p' hm, e3]; exact hn, fun h => ?_⟩,
        fun _ hof q lq hq hlq hrq => ?_⟩
      · rw [e2, hmv p' hm]; exact hd (hrr h)
      · rw [hp1] at hq
        cases hq
        rw [hl'] at hlq
        cases hlq
        rw [e3, hmv p' hm]
        exact hof p l hp hl (hrr hrq)
  rcases timed_kinds m cfg late σ e with ⟨e1, e2, e3⟩ | ⟨e', ht, e1, e2, e3⟩ |
    ⟨d, ok, q, due, hq, hdue, hat, hle, e1, e2, e3⟩ | ⟨ms, hpat, e1, e2, e3⟩
  · exact ⟨same _ (by rw [e1]; exact hp) (by rw [e2]) (by omega), fun _ => often _ (by rw [e1]; exact hp) e3⟩
  · exact sys e' _ (fun p' hm => peerMove_pings hm ht) e1 (by rw [e2]; exact startPing_get σ _ _ hp hpc) e3
  · by_cases hdc : d = c
    · subst hdc
      rw [hp] at hq
      cases hq
      simp only [Peer.attends, hl, Bool.and_eq_true] at hat
      have hnb : ¬ l.blocked := by simpa using hat.2
      have hstep : l.step (.tick ok) = l.turn (.tick ok) := by simp [Client.step, hnb, hat.1]
      have hpeer : (σ.sys.step m cfg (.app d (.tick ok))).peers.get d = some (p.act l (.tick ok)) := by
        simp only [System.step, System.onPeer, show σ.sys.peers.get d = some p from hp, hl, System.put, Map.get_insert,
          if_true]
      have hp1 : (σ.step m cfg late e).peers.get d = some (p.act l (.tick ok)) := by rw [e1]; exact hpeer
      have hdd := hd hat.1
      rw [hdue, Option.some.injEq] at hdd
      subst hdd
      cases ok with
      | true =>
        have hout : (l.turn (.tick true)).2.sent = some .pingReq := rfl
        have hcount : (p.act l (.tick true)).pingsSent = p.pingsSent + 1 := by
          simp [Peer.pingsSent, Peer.act, List.filter_append, hstep, hout]
        have hmul : (p.pingsSent + 1 + 1) * pingInterval o.keepAlive =
            (p.pingsSent + 1) * pingInterval o.keepAlive + pingInterval o.keepAlive := Nat.succ_mul _ _
        refine ⟨⟨p.act l (.tick true), (l.step (.tick true)).1, hp1, ho, rfl, by rw [hcount, e3]; exact hle, fun _ => ?_⟩,
          fun _ hof q lq hq hlq hrq => ?_⟩
        · rw [e2, Map.get_insert, if_pos rfl, hcount, hmul, ho, Nat.add_assoc]
        · rw [hp1] at hq
          cases hq
          have := hof p l hp hl hat.1
          rw [e3, hcount, hmul]
          omega
      | false =>
        have hout : (l.turn (.tick false)).2.sent = none := rfl
        have hcount : (p.act l (.tick false)).pingsSent = p.pingsSent := by
          simp [Peer.pingsSent, Peer.act, List.filter_append, hstep, hout]
        have hrun : (l.step (.tick false)).1.running = false := by rw [hstep]; rfl
        refine ⟨⟨p.act l (.tick false), (l.step (.tick false)).1, hp1, ho, rfl, by rw [hcount, e3]; exact hn, fun hr => ?_⟩,
          fun _ hof q lq hq hlq hrq => ?_⟩
        · rw [hrun] at hr; cases hr
        · rw [hp1] at hq
          cases hq
          cases hlq
          rw [hrun] at hrq
          cases hrq
    · refine sys _ _ (fun p' hm => ?_) e1 (by rw [e2, Map.get_insert, if_neg hdc]) e3
      cases hm with
      | lost hr hq =>
        exact peerMove_pings (m := m) (σ := σ.sys) (c := c) (e := .timeout c) (.lost hr hq) rfl
      | timeout h => rw [hl] at h; cases h
      | app => exact absurd rfl hdc
  · refine ⟨same _ (by rw [e1]; exact hp) (by rw [e2]) (by omega), fun ha hof q lq hq hlq hrq => ?_⟩
    rw [e1, hp] at hq
    cases hq
    rw [hl] at hlq
    cases hlq
    simp only [TimedSystem.patient, Bool.and_eq_true, List.all_eq_true] at hpat
    have := hpat.2 (c, p) (mem_of_get hp)
    simp only [hd hrq, Peer.attends, hl, hrq, ha p l hp hl] at this
    simp at this
    omega

theorem pingCount_run {m : Mode} {cfg : AuthConfig} {late start c : Nat} {o : ConnectOptions} (evs : List TimedSysEvent) :
    ∀ {σ : TimedSystem}, PingCount start c o σ → PingCount start c o (σ.run m cfg late evs) ∧
      ((∀ a b, evs = a ++ b → (σ.run m cfg late a).Attentive c) → PingOften late start c o σ →
        PingOften late start c o (σ.run m cfg late evs)) := by
  induction evs with
  | nil => intro σ h; exact ⟨h, fun _ h => h⟩
  | cons e evs ih =>
    intro σ h
    obtain ⟨h1, h2⟩ := pingCount_step (m := m) (cfg := cfg) h e
    obtain ⟨h3, h4⟩ := ih h1
    exact ⟨h3, fun ha hof => h4 (fun a b hab => ha (e :: a) b (by rw [hab]; rfl)) (h2 (ha [] (e :: evs) rfl) hof)⟩

/-! ## The server after a ping -/

theorem TimedSystem.deaf {m : Mode} {cfg : AuthConfig} {σ : TimedSystem} {es : List Event} (hi : SysInv cfg σ.sys es)
    {c : Nat} {p : Peer} (hp : σ.peers.get c = some p) (hping : Packet.pingReq ∈ p.sents) (hh : σ.AllHeard m c) :
    Deaf c σ.timed.net := by
  obtain ⟨p0, w, hp0, hw, hrc, hno⟩ := hh
  rw [hp] at hp0
  cases hp0
  refine ⟨w, hw, fun hr => ?_⟩
  obtain ⟨k, hk, hR⟩ := hi.net.read c w hw p.outgoing p.wrote [] (hi.peer c p hp).sent (by rw [List.append_nil]; exact hrc)
  have hmem : Packet.pingReq ∈ p.outgoing := List.mem_cons_of_mem _ hping
  rcases hR hr with ⟨done, hd, hx, hl⟩ | ⟨hin, hb⟩
  · exfalso
    obtain ⟨r, h3, h2⟩ := SentOn.rest hd (rs := p.outgoing.drop k)
      (by rw [List.take_append_drop]; exact (hi.peer c p hp).sent)
    have hbuf : r = w.buf := by
      rw [← hrc, hx] at h3
      exact (List.append_cancel_left h3).symm
    subst hbuf
    rw [← List.take_append_drop k p.outgoing, List.mem_append] at hmem
    have hdrop := hmem.resolve_left hd.noPing
    generalize p.outgoing.drop k = rs at h2 hdrop
    generalize hbb : w.buf = b at h2 hno hl
    cases h2 with
    | nil => cases hdrop
    | cons hs he hf _ => exact hno _ _ (parsePacket_encode m hs he hf hl)
    | ping => exact hno _ _ (parsePacket_ping m _)
  · refine ⟨?_, hb⟩
    cases hbg : w.begun with
    | true => rfl
    | false =>
      have := hi.net.begun c w hw hbg
      rw [hk, List.map_eq_nil_iff] at this
      rw [this] at hin
      cases hin

theorem deaf_took {m : Mode} {c : Nat} {σ : TimedNet} (h : Deaf c σ.net) (e : TimedEvent) : σ.took m c e = none := by
  obtain ⟨w, hw, hd⟩ := h
  have key : ∀ ne : NetEvent, σ.net.took m c ne = none := by
    intro ne
    unfold Net.took
    split
    · split
      · rw [hw]
        simp only
        split
        · rename_i hr
          obtain ⟨_, b, hb⟩ := hd hr
          rw [hb]
          split
          · rename_i hp
            exact absurd hp (parsePacket_zero m b _ _)
          · rfl
        · rfl
      · rfl
    · rfl
  cases e with
  | net ne => simp only [TimedNet.took, key, ite_self]
  | stick ne => simp only [TimedNet.took, key, ite_self]
  | _ => rfl

theorem deaf_heard {m : Mode} {cfg : AuthConfig} {late c : Nat} (evs : List TimedEvent) : ∀ {σ : TimedNet}, Deaf c σ.net →
    σ.heardFrom m cfg late c evs = [] := by
  induction evs with
  | nil => intro σ _; rfl
  | cons e evs ih =>
    intro σ h
    simp only [TimedNet.heardFrom, deaf_took h e, Option.toList_none, List.nil_append]
    apply ih
    rcases TimedNet.step_net m cfg late σ e c with hn | ⟨e', hn, _⟩
    · rw [hn]; exact h
    · rw [hn]; exact (deaf_step h e').1

end Mercurio
