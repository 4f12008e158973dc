import Verif.Lemmas.Timed
import Verif.Props.Net

/-!
# C110: what time does to connections

The server on byte streams with a clock (`Verif.Model.Timed`).  `late` is how late (in milliseconds) the runtime may
attend to a timer that has struck.  What the server has heard from a client is `TimedNet.heardFrom`
(`Verif.Spec.Timed`).
-/

namespace Mercurio

open Spec Server

/-- The keep-alive of a connection is that of its CONNECT. -/
theorem TimedInv.keepalive {cfg : AuthConfig} {σ : TimedNet} {es : List Event} (h : TimedInv cfg σ es) {c : Nat}
    {p : ConnectPacket} (hp : (packetsOf c es).head? = some (.connect p)) {w : Wire}
    (hw : σ.net.wires.get c = some w) (hb : w.begun = true) : w.keepalive = p.keepalive := by
  obtain ⟨q, h1, h2⟩ := h.net.kept c w hw hb
  rw [hp, Option.some.injEq] at h1
  rw [h2, ← h1]
  rfl

theorem timeout_eq {k : UInt16} (hk : k ≠ 0) : keepAliveTimeout k = 1000 * (3 * k.toNat / 2) := by
  unfold keepAliveTimeout
  rw [if_neg hk, Nat.mul_comm k.toNat]

/-- C110 (a): a client with keep-alive `k` that has been silent for one and a half times `k` seconds (rounded down to
seconds) and however late the runtime attends to timers is not connected any more.  Silent means that no packet of it
was complete: bytes that do not complete one do not count, and what others do, and what is sent to the client, does
not matter.  Missing: clients that have not sent CONNECT and clients that do not take what is sent to them are not
closed, see below; clients with keep-alive 0 are not meant to be. -/
theorem C110_silent_is_closed_partial (m : Mode) (cfg : AuthConfig) (late : Nat) (evs1 evs2 : List TimedEvent)
    (hs : ∀ e ∈ evs1 ++ evs2, e.Short) (c : Nat) (p : ConnectPacket)
    (hp : (({} : TimedNet).heardFrom m cfg late c evs1).head? = some (.connect p)) (hk : p.keepalive ≠ 0)
    (hfree : ¬ (({} : TimedNet).run m cfg late evs1).Stuck c) (hcalm : ∀ e ∈ evs2, e.Calm c)
    (hsilent : (({} : TimedNet).run m cfg late evs1).heardFrom m cfg late c evs2 = [])
    (hnow : (({} : TimedNet).run m cfg late evs1).now < 1000 * 2 ^ 62)
    (htime : (({} : TimedNet).run m cfg late evs1).now + 1000 * (3 * p.keepalive.toNat / 2) + late <
      ((({} : TimedNet).run m cfg late evs1).run m cfg late evs2).now) :
    ¬ ((({} : TimedNet).run m cfg late evs1).run m cfg late evs2).net.server.isOpen c := by
  obtain ⟨es, h1, _, hq, _⟩ := (TimedInv.init cfg).run m late evs1 fun e he => hs e (List.mem_append_left _ he)
  rw [List.nil_append] at h1
  obtain ⟨ex, h2, _, _, hc⟩ := h1.run m late evs2 fun e he => hs e (List.mem_append_right _ he)
  intro ho
  obtain ⟨w', hw', hr', hb'⟩ := (h2.net.opened c).mp ho
  obtain ⟨k', hk', hx, _⟩ := hc c w' hw' hr' hb'
  obtain ⟨w, k, hw, hr, hb, hka, hkk, hy⟩ := hx hsilent
  have hst : k.stuck = none := by
    cases hst : k.stuck with
    | none => rfl
    | some b => exact absurd ⟨k, hkk, by rw [hst]; exact Option.some_ne_none b⟩ hfree
  obtain ⟨rfl, hz⟩ := hy hst hcalm
  obtain ⟨k1, hk1, hd⟩ := h1.clock c w hw hr hb
  rw [hkk, Option.some.injEq] at hk1
  subst hk1
  have hkeep : w.keepalive = p.keepalive := h1.keepalive (by rw [hq]; exact hp) hw hb
  have hd := hd hnow
  rw [hkeep, timeout_eq hk] at hd
  omega

/-- C110 (b): the timer can strike as soon as the client has been silent for one and a half times its keep-alive, and
this ends the connection.  Messages that are sent to it in the meantime (`evs2`) do not give it more time, even if it
took them late; the server is only kept from attending to the timer while it is stuck in a write. -/
theorem C110_timer_strikes (m : Mode) (cfg : AuthConfig) (late : Nat) (evs1 evs2 : List TimedEvent)
    (hs : ∀ e ∈ evs1 ++ evs2, e.Short) (c : Nat) (p : ConnectPacket)
    (hp : (({} : TimedNet).heardFrom m cfg late c evs1).head? = some (.connect p)) (hk : p.keepalive ≠ 0)
    (hfree : ¬ (({} : TimedNet).run m cfg late evs1).Stuck c)
    (hfree2 : ¬ ((({} : TimedNet).run m cfg late evs1).run m cfg late evs2).Stuck c)
    (hsilent : (({} : TimedNet).run m cfg late evs1).heardFrom m cfg late c evs2 = [])
    (hnow : (({} : TimedNet).run m cfg late evs1).now < 1000 * 2 ^ 62)
    (htime : (({} : TimedNet).run m cfg late evs1).now + 1000 * (3 * p.keepalive.toNat / 2) ≤
      ((({} : TimedNet).run m cfg late evs1).run m cfg late evs2).now) :
    ¬ (((({} : TimedNet).run m cfg late evs1).run m cfg late evs2).step m cfg late (.expire c)).net.server.isOpen c := by
  obtain ⟨es, h1, _, hq, _⟩ := (TimedInv.init cfg).run m late evs1 fun e he => hs e (List.mem_append_left _ he)
  rw [List.nil_append] at h1
  obtain ⟨ex, h2, _, _, hc⟩ := h1.run m late evs2 fun e he => hs e (List.mem_append_right _ he)
  generalize hσ : (({} : TimedNet).run m cfg late evs1) = σ1 at *
  obtain ⟨ey, h3, _⟩ := h2.step m late (.expire c) trivial
  intro ho
  obtain ⟨w3, hw3, hr3, hb3⟩ := (h3.net.opened c).mp ho
  by_cases ho2 : (σ1.run m cfg late evs2).net.server.isOpen c
  · obtain ⟨w', hw', hr', hb'⟩ := (h2.net.opened c).mp ho2
    obtain ⟨k', hk', hx, _⟩ := hc c w' hw' hr' hb'
    obtain ⟨w, k, hw, hr, hb, hka, hkk, hy⟩ := hx hsilent
    have hst : k.stuck = none := by
      cases hst : k.stuck with
      | none => rfl
      | some b => exact absurd ⟨k, hkk, by rw [hst]; exact Option.some_ne_none b⟩ hfree
    obtain ⟨k2, hk2, hdd, _⟩ := clock_kept_run evs2 hsilent hkk (by rw [hst]; simp)
    rw [hk', Option.some.injEq] at hk2
    subst hk2
    have hst : k'.stuck = none := by
      cases hst : k'.stuck with
      | none => rfl
      | some b => exact absurd ⟨k', hk', by rw [hst]; exact Option.some_ne_none b⟩ hfree2
    obtain ⟨k1, hk1, hd⟩ := h1.clock c w hw hr hb
    rw [hkk, Option.some.injEq] at hk1
    subst hk1
    have hkeep : w.keepalive = p.keepalive := h1.keepalive (by rw [hq]; exact hp) hw hb
    have hd := hd hnow
    rw [hkeep, timeout_eq hk] at hd
    have hle : k'.deadline ≤ (σ1.run m cfg late evs2).now := by omega
    have he : (σ1.run m cfg late evs2).step m cfg late (.expire c) =
        (σ1.run m cfg late evs2).onNet m cfg (.close c) := by
      simp [TimedNet.step, hk', hst, hle]
    rw [he] at ho
    have hact : ((σ1.run m cfg late evs2).onNet m cfg (.close c)).net =
        (σ1.run m cfg late evs2).net.act cfg c w' (.close c) := by
      simp [TimedNet.onNet, Net.step, Net.onWire, hw', hr']
    rw [hact] at ho
    have hno := not_open_close cfg _ _ h2.net c
    unfold Net.act at ho
    simp only at ho
    split at ho
    · exact hno ho
    · obtain ⟨k0, hk0⟩ := ho
      simp [Server.step, Map.get_erase] at hk0
  · have hst : (σ1.run m cfg late evs2).step m cfg late (.expire c) = σ1.run m cfg late evs2 ∨
        (σ1.run m cfg late evs2).step m cfg late (.expire c) = (σ1.run m cfg late evs2).onNet m cfg (.close c) := by
      simp only [TimedNet.step]
      split
      · split
        · exact Or.inr rfl
        · exact Or.inl rfl
      · exact Or.inl rfl
    rcases hst with hst | hst
    · rw [hst] at ho; exact ho2 ho
    · rcases wire_once m cfg (σ1.run m cfg late evs2).net (.close c) c (w' := w3) (by rw [hst] at hw3; exact hw3) with
        ⟨w, a, b, d, _⟩ | ⟨_, b⟩ | ⟨_, _, _, _, _, b, _⟩
      · exact ho2 ((h2.net.opened c).mpr ⟨w, a, b hr3, d ▸ hb3⟩)
      · rw [hb3] at b; cases b
      · cases b

/-- C110 (c): the timer does not strike before a client with keep-alive `k` has been silent for one and a half times
`k` seconds, whatever else happens. -/
theorem C110_never_early (m : Mode) (cfg : AuthConfig) (late : Nat) (evs1 evs2 : List TimedEvent)
    (hs : ∀ e ∈ evs1 ++ evs2, e.Short) (c : Nat) (p : ConnectPacket)
    (hp : (({} : TimedNet).heardFrom m cfg late c (evs1 ++ evs2)).head? = some (.connect p)) (hk : p.keepalive ≠ 0)
    (hheard : (({} : TimedNet).run m cfg late evs1).heardFrom m cfg late c evs2 ≠ [])
    (htime : ((({} : TimedNet).run m cfg late evs1).run m cfg late evs2).now <
      (({} : TimedNet).run m cfg late evs1).now + 1000 * (3 * p.keepalive.toNat / 2)) :
    let σ := (({} : TimedNet).run m cfg late evs1).run m cfg late evs2
    σ.step m cfg late (.expire c) = σ := by
  intro σ
  obtain ⟨es, h1, _, hq, _⟩ := (TimedInv.init cfg).run m late evs1 fun e he => hs e (List.mem_append_left _ he)
  rw [List.nil_append] at h1
  obtain ⟨ex, h2, _, hq2, hc⟩ := h1.run m late evs2 fun e he => hs e (List.mem_append_right _ he)
  have hsplit : packetsOf c (es ++ ex) = ({} : TimedNet).heardFrom m cfg late c (evs1 ++ evs2) := by
    rw [heardFrom_append, ← hq, ← hq2]
    simp [packetsOf]
  have closed : ∀ w, σ.net.wires.get c = some w → w.running = false → σ.onNet m cfg (.close c) = σ := by
    intro w hw hr
    have : σ.net.step m cfg (.close c) = σ.net := by simp [Net.step, Net.onWire, hw, hr]
    unfold TimedNet.onNet
    rw [this]
    rfl
  simp only [TimedNet.step]
  split
  · rename_i k hkc
    obtain ⟨w, hw, hb⟩ := h2.owned c k hkc
    cases hr : w.running with
    | false => rw [closed w hw hr]; split <;> rfl
    | true =>
      obtain ⟨k', hk', _, hdl⟩ := hc c w hw hr hb
      rw [hkc, Option.some.injEq] at hk'
      subst hk'
      have hkeep : w.keepalive = p.keepalive := h2.keepalive (by rw [hsplit]; exact hp) hw hb
      have hdl := hdl hheard (by rw [hkeep]; exact hk)
      rw [hkeep, timeout_eq hk] at hdl
      have : ¬ k.deadline ≤ σ.now := by
        intro hx
        have : σ.now < _ := htime
        omega
      simp [this]
  · rfl

/-- Client `x` with keep-alive 2 and a will connects. -/
def exTimed : List TimedEvent :=
  [.net (.accept 0), .net (.data 0 [0x10, 22, 0, 4, 77, 81, 84, 84, 5, 6, 0, 2, 0, 0, 1, 120, 0, 0, 1, 119, 0, 2, 98, 121]),
   .net (.turn 0 (str "u") true)]

/-- It sends only the first byte of a PINGREQ; another client connects and pings; the timer strikes 20 ms late. -/
def exSilence : List TimedEvent :=
  [.wait 1000, .net (.data 0 [0xC0]), .net (.accept 1),
   .net (.data 1 [0x10, 14, 0, 4, 77, 81, 84, 84, 5, 2, 0, 60, 0, 0, 1, 121, 0xC0, 0]), .net (.turn 1 (str "v") true),
   .wait 2020, .net (.turn 1 (str "v") true), .expire 0, .wait 1000]

/-- The packets in short. -/
def exShown : Packet → Option (Str × UInt16)
  | .connect p => some (p.payload.clientId, p.keepalive)
  | _ => none

example : (∀ e ∈ exTimed ++ exSilence, e.Short) ∧ (∀ e ∈ exSilence, e.Calm 0) ∧
    (({} : TimedNet).heardFrom .release {} 50 0 exTimed).map exShown = [some (str "x", 2)] ∧
    ¬ (({} : TimedNet).run .release {} 50 exTimed).Stuck 0 ∧
    (({} : TimedNet).run .release {} 50 exTimed).heardFrom .release {} 50 0 exSilence = [] ∧
    (({} : TimedNet).run .release {} 50 exTimed).heardFrom .release {} 50 1 exSilence ≠ [] ∧
    (({} : TimedNet).run .release {} 50 exTimed).now = 0 ∧
    ((({} : TimedNet).run .release {} 50 exTimed).run .release {} 50 exSilence).now = 4020 ∧
    ((({} : TimedNet).run .release {} 50 exTimed).net.server.conns.get 0).isSome = true ∧
    ((({} : TimedNet).run .release {} 50 exTimed).run .release {} 50 exSilence).net.server.conns.get 0 = none ∧
    (((({} : TimedNet).run .release {} 50 exTimed).run .release {} 50 exSilence).net.server.conns.get 1).isSome = true := by
  refine ⟨?_, ?_, by decide +kernel, ?_, by decide +kernel, by decide +kernel, by decide +kernel, by decide +kernel,
    by decide +kernel, by decide +kernel, by decide +kernel⟩
  · intro e he
    simp only [exTimed, exSilence, List.cons_append, List.nil_append, List.mem_cons, List.not_mem_nil, or_false] at he
    rcases he with rfl | rfl | rfl | rfl | rfl | rfl | rfl | rfl | rfl | rfl | rfl | rfl <;>
      simp [TimedEvent.Short]
  · intro e he
    simp only [exSilence, List.mem_cons, List.not_mem_nil, or_false] at he
    rcases he with rfl | rfl | rfl | rfl | rfl | rfl | rfl | rfl | rfl <;> trivial
  · have h : (({} : TimedNet).run .release {} 50 exTimed).clocks.get 0 = some ⟨3000, none⟩ := by decide +kernel
    rintro ⟨k, hk, hx⟩
    rw [h] at hk
    cases hk
    exact hx rfl

/-- For (b): 3000 ms after the CONNECT. -/
example : ((({} : TimedNet).run .release {} 50 exTimed).run .release {} 50 [.wait 3000]).now = 3000 ∧
    (((({} : TimedNet).run .release {} 50 exTimed).run .release {} 50 [.wait 3000]).net.server.conns.get 0).isSome = true ∧
    ((((({} : TimedNet).run .release {} 50 exTimed).run .release {} 50 [.wait 3000]).step .release {} 50
      (.expire 0)).net.server.conns.get 0) = none := by decide +kernel

/-- For (b): a message for the client (it has subscribed to `a`, keep-alive 2) is stuck from 2000 ms to 4000 ms, and the
timer can strike then. -/
def exLateMessage : List TimedEvent :=
  [.net (.accept 1), .net (.data 1 [0x10, 14, 0, 4, 77, 81, 84, 84, 5, 2, 0, 60, 0, 0, 1, 121]), .net (.turn 1 (str "v") true),
   .wait 2000, .net (.data 1 [0x30, 5, 0, 1, 97, 0, 33]), .net (.turn 1 (str "v") true), .stick (.deliver 0 [97]),
   .wait 2000, .resume 0]

example :
    let σ1 := ({} : TimedNet).run .release {} 50 (exTimed ++
      [.net (.data 0 [0x82, 7, 0, 1, 0, 0, 1, 97, 0]), .net (.turn 0 (str "u") true)])
    let σ2 := σ1.run .release {} 50 exLateMessage
    (σ1.clocks.get 0).map (·.stuck) = some none ∧ (σ2.clocks.get 0).map (·.stuck) = some none ∧
    ((σ1.run .release {} 50 (exLateMessage.take 8)).clocks.get 0).map (·.stuck) = some (some false) ∧
    σ1.heardFrom .release {} 50 0 exLateMessage = [] ∧ σ1.now = 0 ∧ σ2.now = 4000 ∧
    (σ2.net.server.conns.get 0).isSome = true ∧
    ((σ2.step .release {} 50 (.expire 0)).net.server.conns.get 0) = none := by decide +kernel

/-- For (c): a PINGREQ after 2000 ms keeps the connection open for 3000 ms more. -/
example :
    (({} : TimedNet).run .release {} 50 (exTimed ++ [.wait 2000, .net (.data 0 [0xC0, 0])])).heardFrom .release {} 50 0
      [.net (.turn 0 [] true), .wait 2500, .expire 0] ≠ [] ∧
    ((({} : TimedNet).run .release {} 50 (exTimed ++ [.wait 2000, .net (.data 0 [0xC0, 0])])).run .release {} 50
      [.net (.turn 0 [] true), .wait 2500, .expire 0]).now = 4500 ∧
    (((({} : TimedNet).run .release {} 50 (exTimed ++ [.wait 2000, .net (.data 0 [0xC0, 0])])).run .release {} 50
      [.net (.turn 0 [] true), .wait 2500, .expire 0]).net.server.conns.get 0).isSome = true := by decide +kernel

/-! ## What time does not end -/

/-- What does not happen on a connection leaves it alone. -/
theorem TimedInv.elsewhere (m : Mode) {cfg : AuthConfig} {σ : TimedNet} {es : List Event} (h : TimedInv cfg σ es)
    (e : NetEvent) {c : Nat} (hc : e.conn ≠ c) :
    (σ.onNet m cfg e).net.wires.get c = σ.net.wires.get c ∧ (σ.onNet m cfg e).clocks.get c = σ.clocks.get c := by
  refine ⟨(step_other m h.net e c (Ne.symm hc)).1, ?_⟩
  unfold TimedNet.onNet
  cases hx : TimedNet.heard m σ.net e with
  | none => rfl
  | some y =>
    obtain ⟨c1, k1⟩ := y
    have : c1 = e.conn := by
      cases e with
      | turn c2 uuid written =>
        simp only [TimedNet.heard] at hx
        split at hx
        · cases hx
        · split at hx
          · split at hx
            · rw [Option.some.injEq, Prod.mk.injEq] at hx
              exact hx.1.symm
            · cases hx
          · cases hx
      | _ => simp [TimedNet.heard] at hx
    simp only [Map.get_insert]
    rw [if_neg (by rw [this]; exact hc)]

/-- Neither does a write that gets stuck on another connection. -/
theorem TimedInv.elsewhere_step (m : Mode) {cfg : AuthConfig} (late : Nat) {σ : TimedNet} {es : List Event}
    (h : TimedInv cfg σ es) (e : TimedEvent) {c : Nat}
    (hc : match e with
      | .net e | .stick e => e.conn ≠ c
      | .resume d | .expire d => d ≠ c
      | .wait _ => True) :
    (σ.step m cfg late e).net.wires.get c = σ.net.wires.get c ∧
      (σ.step m cfg late e).clocks.get c = σ.clocks.get c := by
  cases e with
  | net e =>
    simp only [TimedNet.step]
    split
    · exact h.elsewhere m e hc
    · exact ⟨rfl, rfl⟩
  | stick e =>
    simp only [TimedNet.step]
    split
    · obtain ⟨h1, h2⟩ := h.elsewhere m e hc
      split
      · rename_i c0 answer hwr
        have hc0 : e.conn = c0 := by
          cases e <;> simp [TimedNet.writer] at hwr <;> exact hwr.1
        split
        · exact ⟨h1, h2⟩
        · split
          · refine ⟨h1, ?_⟩
            simp only [Map.get_insert]
            rw [if_neg (by rw [← hc0]; exact hc)]
            exact h2
          · exact ⟨h1, h2⟩
      · exact ⟨h1, h2⟩
    · exact ⟨rfl, rfl⟩
  | resume d =>
    simp only [TimedNet.step]
    split
    · split
      · exact ⟨rfl, rfl⟩
      · refine ⟨rfl, ?_⟩
        simp only [Map.get_insert]
        rw [if_neg hc]
    · exact ⟨rfl, rfl⟩
  | expire d =>
    simp only [TimedNet.step]
    split
    · split
      · exact h.elsewhere m (.close d) hc
      · exact ⟨rfl, rfl⟩
    · exact ⟨rfl, rfl⟩
  | wait ms =>
    simp only [TimedNet.step]
    split <;> exact ⟨rfl, rfl⟩

/-- C110 is false of a connection on which no packet has been completed, not even CONNECT (or, in the case of TLS,
not even the handshake): the server waits for it without a limit, whatever else happens and however long it takes; and
any amount of time can pass. -/
theorem C110_no_connect_false (m : Mode) (cfg : AuthConfig) (late : Nat) :
    (∀ (evs1 evs2 : List TimedEvent), (∀ e ∈ evs1 ++ evs2, e.Short) → ∀ (c : Nat) (w : Wire),
      (({} : TimedNet).run m cfg late evs1).net.wires.get c = some w → w.running = true →
      ({} : TimedNet).heardFrom m cfg late c evs1 = [] → (∀ e ∈ evs2, e.Elsewhere c) →
      ((({} : TimedNet).run m cfg late evs1).run m cfg late evs2).net.wires.get c = some w) ∧
    ∀ t, (({} : TimedNet).run m cfg late [.net (.accept 0), .wait t]).now = t ∧
      ((({} : TimedNet).run m cfg late [.net (.accept 0), .wait t]).net.wires.get 0).map (·.running) = some true := by
  refine ⟨fun evs1 evs2 hs c w hw hr hh he => ?_, fun t => ?_⟩
  · obtain ⟨es, h1, _, hq, _⟩ := (TimedInv.init cfg).run m late evs1 fun e he => hs e (List.mem_append_left _ he)
    rw [List.nil_append] at h1
    have hb : w.begun = false := by
      cases hb : w.begun with
      | false => rfl
      | true =>
        obtain ⟨p, hp, _⟩ := h1.net.kept c w hw hb
        rw [hq, hh] at hp
        cases hp
    generalize (({} : TimedNet).run m cfg late evs1) = σ at *
    induction evs2 using snoc_induction with
    | h0 => exact hw
    | hs evs e ih =>
      have ih := ih (fun e' he' => hs e' (by simp only [List.mem_append] at he' ⊢; rcases he' with h | h <;> simp [h]))
        fun e' he' => he e' (List.mem_append_left _ he')
      obtain ⟨ex, h2, _⟩ := h1.run m late evs fun e' he' => hs e' (by simp [he'])
      rw [TimedNet.run_snoc]
      have hclock : (σ.run m cfg late evs).clocks.get c = none := by
        cases hk : (σ.run m cfg late evs).clocks.get c with
        | none => rfl
        | some k =>
          obtain ⟨w', h3, h4⟩ := h2.owned c k hk
          rw [ih] at h3
          cases h3
          rw [hb] at h4
          cases h4
      have hel := he e (by simp)
      by_cases hc : (match e with
        | .net e | .stick e => e.conn ≠ c
        | .resume d | .expire d => d ≠ c
        | .wait _ => True)
      · rw [(h2.elsewhere_step m late e hc).1]; exact ih
      · cases e with
        | net e => exact absurd hel hc
        | stick e => exact absurd hel hc
        | wait ms => exact absurd trivial hc
        | resume d =>
          have : d = c := Decidable.not_not.mp hc
          subst this
          simp only [TimedNet.step, hclock]; exact ih
        | expire d =>
          have : d = c := Decidable.not_not.mp hc
          subst this
          simp only [TimedNet.step, hclock]; exact ih
  · constructor
    · simp [TimedNet.run, TimedNet.step, TimedNet.free, TimedNet.onNet, TimedNet.heard, TimedNet.patient, Net.step, Net.init,
        Map.get, Map.insert]
    · simp [TimedNet.run, TimedNet.step, TimedNet.free, TimedNet.onNet, TimedNet.heard, TimedNet.patient, Net.step, Net.init,
        Map.get, Map.insert]

/-- The peer of connection `c` does not take the bytes, and the socket does not fail. -/
def Spec.Clogged (c : Nat) (e : TimedEvent) : Prop :=
  e ≠ .resume c ∧ e ≠ .net (.close c) ∧ e ≠ .stick (.close c)

/-- A connection whose task is stuck in a write stays as it is. -/
theorem TimedInv.stuck_step (m : Mode) {cfg : AuthConfig} (late : Nat) {σ : TimedNet} {es : List Event}
    (h : TimedInv cfg σ es) {c : Nat} (hst : σ.Stuck c) {e : TimedEvent} (he : Clogged c e) :
    (σ.step m cfg late e).net.wires.get c = σ.net.wires.get c ∧ (σ.step m cfg late e).Stuck c := by
  obtain ⟨k, hk, hks⟩ := hst
  obtain ⟨w, hw, _⟩ := h.owned c k hk
  have hsome : k.stuck.isNone = false := by
    cases hx : k.stuck with
    | none => exact absurd hx hks
    | some b => rfl
  by_cases hc : (match e with
    | .net e | .stick e => e.conn ≠ c
    | .resume d | .expire d => d ≠ c
    | .wait _ => True)
  · obtain ⟨h1, h2⟩ := h.elsewhere_step m late e hc
    exact ⟨h1, k, by rw [h2]; exact hk, hks⟩
  · have same : σ.step m cfg late e = σ →
        (σ.step m cfg late e).net.wires.get c = σ.net.wires.get c ∧ (σ.step m cfg late e).Stuck c := by
      intro hx; rw [hx]; exact ⟨rfl, k, hk, hks⟩
    cases e with
    | net e =>
      have hc : e.conn = c := Decidable.not_not.mp hc
      cases e with
      | accept d =>
        obtain rfl : d = c := hc
        refine same ?_
        simp [TimedNet.step, TimedNet.free, TimedNet.onNet, TimedNet.heard, Net.step, NetEvent.conn, hw]
      | close d => obtain rfl : d = c := hc; exact absurd rfl he.2.1
      | data d b => obtain rfl : d = c := hc; exact same (by simp [TimedNet.step, TimedNet.free, NetEvent.conn, hk, hks])
      | turn d u wr => obtain rfl : d = c := hc; exact same (by simp [TimedNet.step, TimedNet.free, NetEvent.conn, hk, hks])
      | deliver d f => obtain rfl : d = c := hc; exact same (by simp [TimedNet.step, TimedNet.free, NetEvent.conn, hk, hks])
    | stick e =>
      have hc : e.conn = c := Decidable.not_not.mp hc
      cases e with
      | accept d =>
        obtain rfl : d = c := hc
        refine same ?_
        simp [TimedNet.step, TimedNet.free, TimedNet.onNet, TimedNet.heard, TimedNet.writer, Net.step, NetEvent.conn, hw]
      | close d => obtain rfl : d = c := hc; exact absurd rfl he.2.2
      | data d b => obtain rfl : d = c := hc; exact same (by simp [TimedNet.step, TimedNet.free, NetEvent.conn, hk, hks])
      | turn d u wr => obtain rfl : d = c := hc; exact same (by simp [TimedNet.step, TimedNet.free, NetEvent.conn, hk, hks])
      | deliver d f => obtain rfl : d = c := hc; exact same (by simp [TimedNet.step, TimedNet.free, NetEvent.conn, hk, hks])
    | wait ms => exact absurd trivial hc
    | resume d =>
      have : d = c := Decidable.not_not.mp hc
      subst this
      exact absurd rfl he.1
    | expire d =>
      have : d = c := Decidable.not_not.mp hc
      subst this
      exact same (by simp [TimedNet.step, hk, hks])

/-- C110: a failure of the socket ends a connection at once, whether a write is stuck or not. -/
theorem C110_failure_ends (m : Mode) (cfg : AuthConfig) (late : Nat) (evs : List TimedEvent)
    (hs : ∀ e ∈ evs, e.Short) (c : Nat) :
    ¬ ((({} : TimedNet).run m cfg late evs).step m cfg late (.net (.close c))).net.server.isOpen c := by
  obtain ⟨es, h1, _⟩ := (TimedInv.init cfg).run m late evs hs
  rw [List.nil_append] at h1
  simp only [TimedNet.step, TimedNet.free, if_true]
  show ¬ ((({} : TimedNet).run m cfg late evs).net.step m cfg (.close c)).server.isOpen c
  generalize (({} : TimedNet).run m cfg late evs) = σ at *
  have hno := not_open_close cfg σ.net es h1.net c
  intro ho
  simp only [Net.step, Net.onWire] at ho
  split at ho
  · rename_i hw
    obtain ⟨w, hw', _⟩ := (h1.net.opened c).mp ho
    rw [hw] at hw'
    cases hw'
  · rename_i w hw
    split at ho
    · unfold Net.act at ho
      simp only at ho
      split at ho
      · exact hno ho
      · obtain ⟨k0, hk0⟩ := ho
        simp [Server.step, Map.get_erase] at hk0
    · rename_i hr
      obtain ⟨w', hw', hr', _⟩ := (h1.net.opened c).mp ho
      rw [hw] at hw'
      cases hw'
      exact hr hr'

/-- Client `x` with keep-alive 1 connects and does not read the answer. -/
def exClogged : List TimedEvent :=
  [.net (.accept 0), .net (.data 0 [0x10, 14, 0, 4, 77, 81, 84, 84, 5, 2, 0, 1, 0, 0, 1, 120]),
   .stick (.turn 0 (str "u") true)]

/-- It is stuck then, and a failure of its socket ends its connection. -/
example : ((({} : TimedNet).run .debug {} 0 exClogged).clocks.get 0).map (·.stuck) = some (some true) ∧
    ((({} : TimedNet).run .debug {} 0 exClogged).net.server.conns.get 0).isSome = true ∧
    ((({} : TimedNet).run .debug {} 0 exClogged).step .debug {} 0 (.net (.close 0))).net.server.conns.get 0 = none := by
  decide +kernel

/-- C110 is false of a client that does not read what is sent to it: once a write does not return, the client stays
connected without a limit, whatever its keep-alive and whatever else happens; and any amount of time can pass. -/
theorem C110_not_reading_false (m : Mode) (cfg : AuthConfig) (late : Nat) :
    (∀ (evs1 evs2 : List TimedEvent), (∀ e ∈ evs1 ++ evs2, e.Short) → ∀ c : Nat,
      (({} : TimedNet).run m cfg late evs1).Stuck c → (({} : TimedNet).run m cfg late evs1).net.server.isOpen c →
      (∀ e ∈ evs2, Clogged c e) →
      ((({} : TimedNet).run m cfg late evs1).run m cfg late evs2).net.server.isOpen c) ∧
    ∀ t, (({} : TimedNet).run m {} late (exClogged ++ [.wait t])).now = t ∧
      (({} : TimedNet).run m {} late (exClogged ++ [.wait t])).net.server.isOpen 0 := by
  refine ⟨fun evs1 evs2 hs c hst ho he => ?_, fun t => ?_⟩
  · obtain ⟨es, h1, _⟩ := (TimedInv.init cfg).run m late evs1 fun e he => hs e (List.mem_append_left _ he)
    rw [List.nil_append] at h1
    generalize (({} : TimedNet).run m cfg late evs1) = σ at *
    have hall : (σ.run m cfg late evs2).net.wires.get c = σ.net.wires.get c ∧ (σ.run m cfg late evs2).Stuck c := by
      clear ho
      induction evs2 using snoc_induction with
      | h0 => exact ⟨rfl, hst⟩
      | hs evs e ih =>
        obtain ⟨i1, i2⟩ := ih
          (fun e' he' => hs e' (by simp only [List.mem_append] at he' ⊢; rcases he' with h | h <;> simp [h]))
          fun e' he' => he e' (List.mem_append_left _ he')
        obtain ⟨ex, h2, _⟩ := h1.run m late evs fun e' he' => hs e' (by simp [he'])
        rw [TimedNet.run_snoc]
        obtain ⟨j1, j2⟩ := h2.stuck_step m late i2 (he e (by simp))
        exact ⟨j1.trans i1, j2⟩
    obtain ⟨ex, h2, _⟩ := h1.run m late evs2 fun e he => hs e (List.mem_append_right _ he)
    rw [h2.net.opened, hall.1, ← h1.net.opened]
    exact ho
  · have hl : ({} : TimedNet).run m {} late exClogged = ({} : TimedNet).run m {} 0 exClogged := rfl
    rw [TimedNet.run_snoc, hl]
    have hpat : (({} : TimedNet).run m {} 0 exClogged).patient late
        ((({} : TimedNet).run m {} 0 exClogged).now + t) = true := by
      have h1 : (({} : TimedNet).run m {} 0 exClogged).net.wires.map (·.1) = [0] := by
        cases m <;> decide +kernel
      have h2 : ((({} : TimedNet).run m {} 0 exClogged).clocks.get 0).map (·.stuck) = some (some true) := by
        cases m <;> decide +kernel
      unfold TimedNet.patient
      rw [List.all_eq_true]
      rintro ⟨c, w⟩ hm
      have hc : c ∈ (({} : TimedNet).run m {} 0 exClogged).net.wires.map (·.1) := List.mem_map.mpr ⟨_, hm, rfl⟩
      rw [h1, List.mem_singleton] at hc
      subst hc
      cases hk : (({} : TimedNet).run m {} 0 exClogged).clocks.get 0 with
      | none => simp only [hk]
      | some k =>
        rw [hk] at h2
        simp only [Option.map_some, Option.some.injEq] at h2
        simp [hk, h2]
    simp only [TimedNet.step, hpat, if_true]
    have h0 : (({} : TimedNet).run m {} 0 exClogged).now = 0 := by cases m <;> rfl
    have ho : ((({} : TimedNet).run m {} 0 exClogged).net.server.conns.get 0).isSome = true := by
      cases m <;> decide +kernel
    refine ⟨by rw [h0, Nat.zero_add], ?_⟩
    obtain ⟨k, hk⟩ := Option.isSome_iff_exists.mp ho
    exact ⟨k, hk⟩

end Mercurio
