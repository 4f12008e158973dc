import Verif.Props.TimedWill

/-! # C51, C110: pings, and what the clock changes -/

namespace Mercurio

open Spec Server

/-- A packet is read as a PINGREQ only if it is one. -/
theorem received_pingReq {p : Packet} (h : p.received = .pingReq) : p = .pingReq := by
  cases p <;> first | rfl | (simp [Packet.received] at h)

/-- C51 is false of the server with a clock: of a client that has sent its first PINGREQ (after any packets, and
followed by anything, for instance a PINGREQ every second) the server takes no packet any more, and when one and a
half times its keep-alive have passed since then, and however late the runtime attends to timers, it is not connected
any more. -/
theorem C51_disconnected_false (m : Mode) (cfg : AuthConfig) (late : Nat) (evs1 evs2 : List TimedEvent)
    (hs : ∀ e ∈ evs1 ++ evs2, e.Short) (c : Nat) (w : Wire) (ps : List Packet) (bs tail : Buf) (hps : Sent ps bs)
    (hw : ((({} : TimedNet).run m cfg late evs1).run m cfg late evs2).net.wires.get c = some w)
    (hrcvd : w.rcvd = bs ++ 0xc0 :: 0 :: tail)
    (hping : .pingReq ∈ ({} : TimedNet).heardFrom m cfg late c evs1) :
    (({} : TimedNet).run m cfg late evs1).heardFrom m cfg late c evs2 = [] ∧
    ∀ p, (({} : TimedNet).heardFrom m cfg late c evs1).head? = some (.connect p) → p.keepalive ≠ 0 →
      ¬ (({} : TimedNet).run m cfg late evs1).Stuck c → (∀ e ∈ evs2, e.Calm c) →
      (({} : TimedNet).run m cfg late evs1).now < 1000 * 2 ^ 62 →
      (({} : TimedNet).run m cfg late evs1).now + 1000 * (3 * p.keepalive.toNat / 2) + late <
        ((({} : TimedNet).run m cfg late evs1).run m cfg late evs2).now →
      ¬ ((({} : TimedNet).run m cfg late evs1).run m cfg late evs2).net.server.isOpen c := by
  have hquiet : (({} : TimedNet).run m cfg late evs1).heardFrom m cfg late c evs2 = [] := by
    obtain ⟨es, h1, _, hq1, _⟩ := (TimedInv.init cfg).run m late evs1 fun e he => hs e (List.mem_append_left _ he)
    rw [List.nil_append] at h1
    obtain ⟨ex, h2, _, hq2, _⟩ := h1.run m late evs2 fun e he => hs e (List.mem_append_right _ he)
    have hon : SentOn (ps ++ [.pingReq]) (bs ++ 0xc0 :: 0 :: tail) := by
      clear hrcvd
      induction hps with
      | nil => exact .ping
      | cons hs he hf _ ih => rw [List.append_assoc]; exact .cons hs he hf ih
    obtain ⟨k, hk, _⟩ := h2.net.read c w hw _ _ [] hon (by rw [List.append_nil]; exact hrcvd)
    rw [packetsOf_append, hq1, hq2] at hk
    obtain ⟨a, b, hab⟩ := List.append_of_mem hping
    have hlen := congrArg List.length hk
    have hle : (ps ++ [Packet.pingReq]).length = ps.length + 1 := by simp
    simp only [List.length_append, List.length_map, List.length_take, hle] at hlen
    have ha : ps.length ≤ a.length := by
      refine Nat.le_of_not_lt fun hlt => ?_
      have hx := congrArg (·[a.length]?) hk
      simp only [hab, List.append_assoc, List.cons_append, List.getElem?_append_right (Nat.le_refl _), Nat.sub_self,
        List.getElem?_cons_zero, List.getElem?_map] at hx
      have hy := hx.symm
      rw [Option.map_eq_some_iff] at hy
      obtain ⟨q, hq, hr⟩ := hy
      cases received_pingReq hr
      rw [List.getElem?_take] at hq
      split at hq
      · rw [List.getElem?_append_left hlt] at hq
        exact hps.noPing (List.mem_of_getElem? hq)
      · cases hq
    rw [hab] at hlen
    simp only [List.length_append, List.length_cons] at hlen
    exact List.eq_nil_of_length_eq_zero (by omega)
  exact ⟨hquiet, fun p hp hk hfree hcalm hnow htime =>
    C110_silent_is_closed_partial m cfg late evs1 evs2 hs c p hp hk hfree hcalm hquiet hnow htime⟩

/-- Client `x` with keep-alive 2 (`exTimed`) sends a PINGREQ after one second. -/
def exFirstPing : List TimedEvent := exTimed ++ [.wait 1000, .net (.data 0 [0xC0, 0]), .net (.turn 0 [] true)]

/-- It goes on sending one every second, but is disconnected three seconds after the first. -/
def exMorePings : List TimedEvent :=
  [.wait 1000, .net (.data 0 [0xC0, 0]), .net (.turn 0 [] true), .wait 1000, .net (.data 0 [0xC0, 0]), .net (.turn 0 [] true),
   .wait 1000, .expire 0, .wait 1000]

example : (({} : TimedNet).heardFrom .release {} 50 0 exFirstPing).map exShown = [some (str "x", 2), none] ∧
    (({} : TimedNet).heardFrom .release {} 50 0 exFirstPing)[1]? = some .pingReq ∧
    (((({} : TimedNet).run .release {} 50 exFirstPing).run .release {} 50 exMorePings).net.wires.get 0).map (·.rcvd) =
      some ([0x10, 22, 0, 4, 77, 81, 84, 84, 5, 6, 0, 2, 0, 0, 1, 120, 0, 0, 1, 119, 0, 2, 98, 121] ++
        0xc0 :: 0 :: [0xc0, 0, 0xc0, 0]) ∧
    (({} : TimedNet).run .release {} 50 exFirstPing).now = 1000 ∧
    ((({} : TimedNet).run .release {} 50 exFirstPing).clocks.get 0).map (·.stuck) = some none ∧
    ((({} : TimedNet).run .release {} 50 exFirstPing).run .release {} 50 exMorePings).now = 5000 ∧
    ((({} : TimedNet).run .release {} 50 exFirstPing).net.server.conns.get 0).isSome = true ∧
    ((({} : TimedNet).run .release {} 50 exFirstPing).run .release {} 50 exMorePings).net.server.conns.get 0 = none := by
  decide +kernel

/-! ## What the clock changes -/

/-- C110 (e): the clock adds nothing to what the server does: whatever happens in a run with a clock also happens in
a run without one, with the same bytes read and written on each connection (so that what is said elsewhere about all
runs of the server on byte streams holds of it); and every run without a clock is one with a clock that stands
still. -/
theorem C110_same_server (m : Mode) (cfg : AuthConfig) (late : Nat) :
    (∀ evs : List TimedEvent, (∀ e ∈ evs, e.Short) → ∃ ns, ShortChunks ns ∧
      (({} : TimedNet).run m cfg late evs).net = Net.init.run m cfg ns) ∧
    (∀ ns : List NetEvent, (({} : TimedNet).run m cfg late (ns.map .net)).net = Net.init.run m cfg ns) := by
  constructor
  · intro evs
    induction evs using snoc_induction with
    | h0 => exact fun _ => ⟨[], (by intro c b hb; cases hb), rfl⟩
    | hs evs e ih =>
      intro hs
      obtain ⟨ns, hn, hr⟩ := ih fun e' he' => hs e' (List.mem_append_left _ he')
      rw [TimedNet.run_snoc]
      rcases TimedNet.step_net m cfg late (({} : TimedNet).run m cfg late evs) e 0 with h | ⟨e', h, _, h3, _⟩
      · exact ⟨ns, hn, h.trans hr⟩
      · refine ⟨ns ++ [e'], ?_, ?_⟩
        · intro c b hb
          rcases List.mem_append.mp hb with hb | hb
          · exact hn c b hb
          · exact h3 (hs e (by simp)) c b (List.mem_singleton.mp hb).symm
        · rw [h, hr]
          simp [Net.run]
  · intro ns
    suffices h : (({} : TimedNet).run m cfg late (ns.map .net)).net = Net.init.run m cfg ns ∧
        ∀ c k, (({} : TimedNet).run m cfg late (ns.map .net)).clocks.get c = some k → k.stuck = none from h.1
    induction ns using snoc_induction with
    | h0 => exact ⟨rfl, fun c k h => by cases h⟩
    | hs ns e ih =>
      rw [List.map_append, List.map_singleton, TimedNet.run_snoc]
      have hfree : (({} : TimedNet).run m cfg late (ns.map .net)).free e = true := by
        have hc : ∀ c, (((({} : TimedNet).run m cfg late (ns.map .net)).clocks.get c).bind (·.stuck)).isNone = true := by
          intro c
          cases hx : (({} : TimedNet).run m cfg late (ns.map .net)).clocks.get c with
          | none => rfl
          | some k => simp [ih.2 c k hx]
        cases e <;> first | rfl | exact hc _
      simp only [TimedNet.step, hfree, if_true, TimedNet.onNet]
      refine ⟨?_, fun c k hk => ?_⟩
      · rw [ih.1]
        simp [Net.run]
      · split at hk
        · rw [Map.get_insert] at hk
          split at hk
          · cases hk; rfl
          · exact ih.2 c k hk
        · exact ih.2 c k hk

end Mercurio
