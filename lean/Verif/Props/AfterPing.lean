import Verif.Props.Alive
import Verif.Props.Gone
import Verif.Props.WillSystem

/-!
# C99 and C103 for a client that has pinged
-/

namespace Mercurio

open Spec Server

/-! ## C99 -/

/-- C99 is false for every client whose ping timer has ticked once while it was connected: whatever it does
afterwards (`evs` is arbitrary: it may publish to valid topics, with every call returning normally, and disconnect),
none of the messages it publishes after the ping is among those the server publishes. -/
theorem C99_after_ping_false (m : Mode) (cfg : AuthConfig) (evs1 evs : List SysEvent) (c : Nat)
    (hord : ∀ e ∈ evs1 ++ evs, e.Ordinary) (u : Str) (hu : TextField u) (b : Bool) :
    let σ1 := System.init.run m cfg evs1
    let σ2 := σ1.run m cfg [.app c (.tick true), .serverRead c 2, .serverTurn c u b]
    let σ3 := σ2.run m cfg evs
    σ1.QuietUp c → σ1.Timed c → (∀ p, σ1.peers.get c = some p → ∀ l, p.loop = some l → l.pending = []) →
    (∃ p w, σ2.Up c p w) ∧ ∃ L, PublishedBetween σ2 σ3 L ∧ byClient c L = [] := by
  intro σ1 σ2 σ3 hq hka hpen
  have hord2 : ∀ e ∈ (evs1 ++ [.app c (.tick true), .serverRead c 2, .serverTurn c u b]) ++ evs, e.Ordinary := by
    intro e he
    simp only [List.append_assoc, List.cons_append, List.nil_append, List.mem_append, List.mem_cons] at he
    rcases he with he | rfl | rfl | rfl | he
    · exact hord e (List.mem_append_left _ he)
    · trivial
    · trivial
    · exact hu
    · exact hord e (List.mem_append_right _ he)
  have erun : σ2 = System.init.run m cfg (evs1 ++ [.app c (.tick true), .serverRead c 2, .serverTurn c u b]) := by
    show σ1.run m cfg _ = _
    simp only [σ1, System.run, List.foldl_append]
  obtain ⟨h1, cs, h2, h3⟩ := C75_deaf_after_ping_false m cfg evs1 evs c
    (fun e he => hord e (List.mem_append_left _ he)) u b hq hka hpen
  have hs := heard_since m cfg _ evs hord2 cs (by rw [← erun]; exact h2)
  rw [← erun] at hs
  refine ⟨h1, callsPub cs, hs.1, ?_⟩
  unfold byClient
  rw [List.map_eq_nil_iff, List.filter_eq_nil_iff]
  intro x hx
  unfold callsPub at hx
  obtain ⟨call, hm, hc⟩ := List.mem_filterMap.mp hx
  cases call with
  | publish s t mm =>
    cases hc
    simp only [decide_eq_true_eq]
    rintro rfl
    exact h3 _ _ hm
  | _ => cases hc

/-! ## C103 -/

/-- What became of the will of client `c`, whose connection is deaf. -/
def DeafWilled (cfg : AuthConfig) (c : Nat) (W : Option StoredWill) (σ : System) (es : List Event) : Prop :=
  ∃ p w, σ.peers.get c = some p ∧ σ.net.wires.get c = some w ∧ w.begun = true ∧
    (w.running = true → willsNow cfg c es = []) ∧ (w.running = false → willsNow cfg c es = callsOfWill c W)

theorem deafWilled_step {cfg : AuthConfig} {σ : System} {es : List Event} (h : SysInv cfg σ es) {c : Nat}
    {p : Peer} (hp : σ.peers.get c = some p) (hcl : p.opts.cleanStart = true) (hka : p.opts.keepAlive ≠ 0)
    (hdeaf : Deaf c σ.net)
    {e : SysEvent} (hap : σ.Apart c p) (hap' : (σ.step .release cfg e).Apart c p)
    {ex : List Event} (hg : Grows .release cfg σ (σ.step .release cfg e) ex)
    (h1 : SysInv cfg (σ.step .release cfg e) (es ++ ex))
    (hh : DeafWilled cfg c (p.opts.will.map fun w => ⟨w.topic, w.payload, w.qos, w.retain⟩) σ es) :
    DeafWilled cfg c (p.opts.will.map fun w => ⟨w.topic, w.payload, w.qos, w.retain⟩) (σ.step .release cfg e)
      (es ++ ex) := by
  obtain ⟨p0, w, hp0, hw, hb, hc1, hc2⟩ := hh
  rw [hp] at hp0; cases hp0
  obtain ⟨p', w', hp', hw', hev⟩ := step_evolved (moves .release cfg σ e) hg hp hw
  refine ⟨p', w', hp', hw', hev.begun hb, fun hr' => ?_, fun hr' => ?_⟩
  · refine (h1.running_wills hp' hw' hr' (hev.begun hb) ?_ (by rw [hev.opts]; exact hcl)).1
    intro d q hd hq hid
    unfold Peer.clientId at hid
    rw [hev.opts] at hid ⊢
    exact hap' d q hd hq hid
  · cases hr : w.running with
    | true =>
      obtain ⟨_, b⟩ := wills_end h hp hw hr hb (Or.inl rfl) hap hcl hka h1 hw' hr'
      rcases b with b | ⟨_, _, q, rest, b⟩
      · exact b.1
      · obtain ⟨w0, hw0, hz⟩ := hdeaf
        rw [hw] at hw0; cases hw0
        obtain ⟨_, t, ht⟩ := hz hr
        rw [ht] at b
        exact absurd b (parsePacket_zero _ _ _ _)
    | false =>
      rw [wills_closed h hw hr hg]
      exact hc2 hr

theorem deafWilled_run {cfg : AuthConfig} {c : Nat} (evs : List SysEvent) (hord : ∀ e ∈ evs, e.Ordinary) :
    ∀ {σ : System} {es : List Event} {p : Peer}, SysInv cfg σ es → σ.peers.get c = some p →
      p.opts.cleanStart = true → p.opts.keepAlive ≠ 0 → (σ.run .release cfg evs).Apart c p → Deaf c σ.net →
      DeafWilled cfg c (p.opts.will.map fun w => ⟨w.topic, w.payload, w.qos, w.retain⟩) σ es →
      ∃ ext, SysInv cfg (σ.run .release cfg evs) (es ++ ext) ∧
        DeafWilled cfg c (p.opts.will.map fun w => ⟨w.topic, w.payload, w.qos, w.retain⟩) (σ.run .release cfg evs)
          (es ++ ext) := by
  induction evs with
  | nil =>
    intro σ es p h _ _ _ _ _ hh
    exact ⟨[], by rw [List.append_nil]; exact h, by rw [List.append_nil]; exact hh⟩
  | cons e evs ih =>
    intro σ es p h hp hcl hka hap hd hh
    obtain ⟨ex, hg, h1⟩ := h.step (hord e (by simp)) (moves .release cfg σ e)
    have hap0 : σ.Apart c p := apart_before h (e :: evs) hord rfl hap
    have hap1 : (σ.step .release cfg e).Apart c p :=
      apart_before h1 evs (fun x hx => hord x (by simp [hx])) rfl hap
    have hh1 := deafWilled_step h hp hcl hka hd hap0 hap1 hg h1 hh
    have hd1 := (deaf_run (m := .release) (cfg := cfg) [e] hd).1
    obtain ⟨_, w, _, hw, _⟩ := hh
    obtain ⟨p', w', hp', hw', hev⟩ := step_evolved (moves .release cfg σ e) hg hp hw
    obtain ⟨ext, a, b⟩ := ih (fun x hx => hord x (by simp [hx])) h1 hp' (by rw [hev.opts]; exact hcl) (by rw [hev.opts]; exact hka)
      (by intro d q hd hq hid
          unfold Peer.clientId at hid
          rw [hev.opts] at hid ⊢
          exact hap d q hd hq hid)
      hd1 (by rw [hev.opts]; exact hh1)
    exact ⟨ex ++ ext, by rw [← List.append_assoc]; exact a, by rw [← List.append_assoc, ← hev.opts]; exact b⟩

/-- C103 is false for every client whose ping timer has ticked once while it was connected (in a release build):
whatever happens afterwards, once the server has closed the connection the will of this client has been published,
even if its application has called `disconnect`, the call has returned normally and the server has read every byte of
it.  As in C103, the client starts clean and does not share its session. -/
theorem C103_after_ping_false (cfg : AuthConfig) (evs1 evs : List SysEvent) (c : Nat)
    (hord : ∀ e ∈ evs1 ++ evs, e.Ordinary) (u : Str) (hu : TextField u) (b : Bool) :
    let σ1 := System.init.run .release cfg evs1
    let σ2 := σ1.run .release cfg [.app c (.tick true), .serverRead c 2, .serverTurn c u b]
    let σ3 := σ2.run .release cfg evs
    σ1.QuietUp c → σ1.Timed c → (∀ p, σ1.peers.get c = some p → ∀ l, p.loop = some l → l.pending = []) →
    ∃ L, PublishedBetween σ2 σ3 L ∧
      ∀ p3 w3, σ3.peers.get c = some p3 → σ3.net.wires.get c = some w3 → σ3.Apart c p3 → p3.opts.cleanStart = true →
        w3.running = false → willsOf c L = p3.will := by
  intro σ1 σ2 σ3 hq hka hpen
  have hord2 : ∀ e ∈ (evs1 ++ [.app c (.tick true), .serverRead c 2, .serverTurn c u b]) ++ evs, e.Ordinary := by
    intro e he
    simp only [List.append_assoc, List.cons_append, List.nil_append, List.mem_append, List.mem_cons] at he
    rcases he with he | rfl | rfl | rfl | he
    · exact hord e (List.mem_append_left _ he)
    · trivial
    · trivial
    · exact hu
    · exact hord e (List.mem_append_right _ he)
  have hordb : ∀ e ∈ evs, e.Ordinary := fun e he => hord e (List.mem_append_right _ he)
  have erun : σ2 = System.init.run .release cfg
      (evs1 ++ [.app c (.tick true), .serverRead c 2, .serverTurn c u b]) := by
    show σ1.run .release cfg _ = _
    simp only [σ1, System.run, List.foldl_append]
  obtain ⟨⟨p2, w2, hup⟩, hdeaf⟩ := deaf_after_ping .release cfg evs1 c
    (fun e he => hord e (List.mem_append_left _ he)) u b hq hka hpen
  obtain ⟨cs, h2, _⟩ := (deaf_run (m := .release) (cfg := cfg) evs hdeaf).2
  have hs := heard_since .release cfg _ evs hord2 cs (by rw [← erun]; exact h2)
  rw [← erun] at hs
  refine ⟨callsPub cs, hs.1, fun p3 w3 hp3 hw3 hap hcl hr3 => ?_⟩
  obtain ⟨es, hx⟩ := history (m := .release) _ (fun e he => hord2 e (List.mem_append_left _ he)) (sysInv_init cfg)
  rw [← erun] at hx
  have hi : SysInv cfg σ2 es := hx.inv
  obtain ⟨ext0, hxb⟩ := history (m := .release) evs hordb hi
  obtain ⟨p', w', hp', _, hev⟩ := hxb.peer c p2 w2 hup.peer hup.wire
  have e1 : p3 = p' := Option.some.inj (hp3.symm.trans hp')
  subst e1
  have hb : w2.begun = true := by
    obtain ⟨w0, hw0, hz⟩ := hdeaf
    have := Option.some.inj (hup.wire.symm.trans hw0)
    subst this
    exact (hz hup.server).1
  have hap2 : (σ2.run .release cfg evs).Apart c p2 := by
    intro x q hx hqx hid
    unfold Peer.clientId at hid
    rw [← hev.opts] at hid ⊢
    exact hap x q hx hqx hid
  have hcl2 : p2.opts.cleanStart = true := by rw [← hev.opts]; exact hcl
  have hka2 : p2.opts.keepAlive ≠ 0 := by
    obtain ⟨p1, w1, hup1, _⟩ := hq
    obtain ⟨es1, hx1⟩ := history (m := .release) evs1 (fun e he => hord e (List.mem_append_left _ he)) (sysInv_init cfg)
    obtain ⟨_, hx2⟩ := history (m := .release) [.app c (.tick true), .serverRead c 2, .serverTurn c u b]
      (fun e he => hord2 e (List.mem_append_left _ (List.mem_append_right _ he))) hx1.inv
    obtain ⟨p', _, hp', _, hev'⟩ := hx2.peer c p1 w1 hup1.peer hup1.wire
    have := Option.some.inj (hup.peer.symm.trans hp')
    subst this
    rw [hev'.opts]
    exact hka p1 hup1.peer
  have h0 := (hi.running_wills hup.peer hup.wire hup.server hb (apart_before hi evs hordb rfl hap2) hcl2).1
  obtain ⟨ext, hi3, p4, w4, _, hw4, _, _, hc2⟩ := deafWilled_run (cfg := cfg) evs hordb hi hup.peer hcl2 hka2 hap2 hdeaf
    ⟨p2, w2, hup.peer, hup.wire, hb, fun _ => h0, fun h => by rw [hup.server] at h; cases h⟩
  have e4 : w4 = w3 := Option.some.inj (hw4.symm.trans hw3)
  subst e4
  have hnow := hc2 hr3
  unfold willsNow at hnow h0
  rw [← hi3.net.server] at hnow
  rw [← hi.net.server] at h0
  have h2' : (σ2.run .release cfg evs).net.server.world.log = σ2.net.server.world.log ++ cs := h2
  rw [h2', willPublications_append, h0, List.nil_append] at hnow
  rw [willsOf_calls, hnow, willsOf_will]
  unfold Peer.will
  rw [hev.opts]

/-! ## Examples -/

/-- The client with the will pings, publishes, disconnects; the server reads everything and then the end of the stream;
the subscriber gets the will, and not the message. -/
def exPingedLeaves : List SysEvent := [
  .app 1 (.publish (str "a/b") (str "hi") .atMostOnce false true), .app 1 (.disconnect true),
  .serverRead 1 4096, .serverTurn 1 (str "v") true, .serverTurn 1 (str "v") true, .serverRead 1 4096,
  .deliver 0 (str "a/+"), .deliver 0 (str "a/+"), .clientRead 0 4096, .clientTurn 0 true, .clientTurn 0 true]

def exPinged1 : System := System.init.run .release {} exWilled
def exPinged3 : System := exPinged1.run .release {}
  ([.app 1 (.tick true), .serverRead 1 2, .serverTurn 1 (str "v") true] ++ exPingedLeaves)

theorem exPinged_ordinary : ∀ e ∈ exPingedLeaves, e.Ordinary := by
  simp only [exPingedLeaves, List.forall_mem_cons]
  refine ⟨⟨by decide, by simp, by decide⟩, trivial, trivial, (by decide : TextField _), (by decide : TextField _),
    trivial, trivial, trivial, trivial, trivial, trivial, by simp⟩

example : exPinged1.QuietUp 1 ∧ exPinged1.Timed 1 ∧ ((exPinged1.peers.get 1).bind (·.loop)).map (·.pending) = some [] ∧
    (∃ p w, exPinged3.peers.get 1 = some p ∧ exPinged3.net.wires.get 1 = some w ∧ w.running = false ∧
      w.rcvd = p.wrote ∧ p.left ∧ exPinged3.Apart 1 p ∧ p.opts.cleanStart = true ∧
      p.published = [⟨str "a/b", str "hi", .atMostOnce, false⟩] ∧
      p.will = [⟨str "a/w", str "gone", .atMostOnce, false⟩]) ∧
    (exPinged3.peers.get 0).map (·.heard) = some [⟨str "a/+", str "gone", .atMostOnce, false⟩] := by
  refine ⟨?_, timed_check (by decide +kernel), by decide +kernel, ?_, by decide +kernel⟩
  · have hq : exPinged1.Quiet .release {} 1 :=
      quiet_check (fs := []) (by decide +kernel) (by decide +kernel) (by decide +kernel)
    exact hq.1
  have h : (match exPinged3.peers.get 1, exPinged3.net.wires.get 1 with
    | some p, some w => !w.running && p.opts.cleanStart && p.will == [⟨str "a/w", str "gone", .atMostOnce, false⟩] &&
        w.rcvd == p.wrote && p.published == [⟨str "a/b", str "hi", .atMostOnce, false⟩] &&
        p.history.any fun x => match x.1 with
          | .disconnect _ => x.2.result == some .done
          | _ => false
    | _, _ => false) = true := by decide +kernel
  split at h
  · rename_i p w hp hw
    simp only [Bool.and_eq_true, Bool.not_eq_true', beq_iff_eq] at h
    obtain ⟨⟨⟨⟨⟨h1, h2⟩, h3⟩, h5⟩, h6⟩, h4⟩ := h
    refine ⟨p, w, hp, hw, h1, h5, ?_, apart_check hp (by decide +kernel), h2, h6, h3⟩
    obtain ⟨⟨i, o⟩, hx, hy⟩ := List.any_eq_true.mp h4
    cases i with
    | disconnect ok => exact ⟨ok, o, hx, by simpa using hy⟩
    | _ => cases hy
  · cases h

end Mercurio
