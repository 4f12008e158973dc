import Verif.Lemmas.Net
import Verif.Spec.Timed

/-! # The server with time: what the clocks have to do with the packets -/

namespace Mercurio

open Spec Server

theorem mem_of_get {K V : Type} [DecidableEq K] {l : Map K V} {c : K} {v : V} (h : l.get c = some v) :
    (c, v) ∈ (l : List (K × V)) := by
  induction l with
  | nil => simp [Map.get] at h
  | cons a l ih =>
    obtain ⟨k, x⟩ := a
    simp only [Map.get] at h
    split at h
    · rename_i hk
      cases h
      rw [hk]
      exact List.mem_cons_self
    · exact List.mem_cons_of_mem _ (ih h)

/-! ## Deadlines -/

theorem sleepUntil_ge {k : UInt16} (hk : k ≠ 0) (now : Nat) : now + keepAliveTimeout k ≤ sleepUntil now (keepAliveTimeout k) := by
  unfold sleepUntil instantAdd
  split
  · rename_i t h
    split at h
    · cases h; exact Nat.le_refl _
    · cases h
  · unfold farFuture keepAliveTimeout
    rw [if_neg hk]
    have := k.toNat_lt
    omega

theorem sleepUntil_le (k : UInt16) {now : Nat} (hn : now < 1000 * 2 ^ 62) :
    sleepUntil now (keepAliveTimeout k) ≤ now + keepAliveTimeout k := by
  unfold sleepUntil instantAdd
  split
  · rename_i t h
    split at h
    · cases h; exact Nat.le_refl _
    · cases h
  · rename_i h
    split at h
    · cases h
    · rename_i h'
      unfold farFuture
      unfold keepAliveTimeout at h' ⊢
      unfold instantMaxSecs at h'
      split
      · omega
      · rename_i hk
        rw [if_neg hk] at h'
        have := k.toNat_lt
        omega

/-! ## One step on byte streams -/

theorem act_wires (cfg : AuthConfig) (n : Net) (c : Nat) (w : Wire) (e : Event) (c' : Nat) :
    (n.act cfg c w e).wires.get c' = if c = c' then
      some { w with sent := w.sent ++ (writePackets (n.server.step cfg e).2.sent).1,
                    running := ((n.act cfg c w e).server.conns.get c).isSome }
    else n.wires.get c' := by
  unfold Net.act
  simp only [Map.get_insert]

/-- What one event does to a connection. -/
theorem wire_once (m : Mode) (cfg : AuthConfig) (n : Net) (e : NetEvent) (c : Nat) {w' : Wire}
    (h : (n.step m cfg e).wires.get c = some w') :
    (∃ w, n.wires.get c = some w ∧ (w'.running = true → w.running = true) ∧ w'.begun = w.begun ∧ w'.keepalive = w.keepalive ∧
      ∀ k, TimedNet.heard m n e ≠ some (c, k)) ∨
    (n.wires.get c = none ∧ w'.begun = false) ∨
    (∃ w p rest uuid written, e = .turn c uuid written ∧ n.wires.get c = some w ∧ w.running = true ∧
      parsePacket m w.buf = .packet p rest ∧ w'.begun = true ∧
      w'.keepalive = (if w.begun then w.keepalive else Net.keepaliveOf p)) := by
  by_cases hh : ∃ k, TimedNet.heard m n e = some (c, k)
  · obtain ⟨k, hk⟩ := hh
    right; right
    cases e with
    | turn c1 uuid written =>
      simp only [TimedNet.heard] at hk
      split at hk
      · cases hk
      · rename_i w hw
        split at hk
        · rename_i hrun
          split at hk
          · rename_i p rest hp
            rw [Option.some.injEq, Prod.mk.injEq] at hk
            obtain ⟨rfl, _⟩ := hk
            rw [Net.turn_packet cfg hw hrun hp, act_wires, if_pos rfl, Option.some.injEq] at h
            subst h
            exact ⟨w, p, rest, uuid, written, rfl, hw, hrun, hp, rfl, rfl⟩
          · cases hk
        · cases hk
    | _ => simp [TimedNet.heard] at hk
  · have hno : ∀ k, TimedNet.heard m n e ≠ some (c, k) := fun k hk => hh ⟨k, hk⟩
    have same : (n.wires.get c = some w') → (∃ w, n.wires.get c = some w ∧ (w'.running = true → w.running = true) ∧ w'.begun = w.begun ∧
        w'.keepalive = w.keepalive ∧ ∀ k, TimedNet.heard m n e ≠ some (c, k)) ∨
        (n.wires.get c = none ∧ w'.begun = false) := fun h0 => Or.inl ⟨w', h0, id, rfl, rfl, hno⟩
    have put : ∀ c1 w0 w1, n.wires.get c1 = some w0 → w0.running = true →
        Map.get (n.wires.insert c1 w1) c = some w' → w1.begun = w0.begun → w1.keepalive = w0.keepalive →
        (∃ w, n.wires.get c = some w ∧ (w'.running = true → w.running = true) ∧ w'.begun = w.begun ∧
          w'.keepalive = w.keepalive ∧ ∀ k, TimedNet.heard m n e ≠ some (c, k)) ∨
          (n.wires.get c = none ∧ w'.begun = false) := by
      intro c1 w0 w1 h0 hr0 h' hb hka
      rw [Map.get_insert] at h'
      split at h'
      · rename_i hc
        subst hc
        cases h'
        exact Or.inl ⟨w0, h0, fun _ => hr0, hb, hka, hno⟩
      · exact same h'
    suffices hs : (∃ w, n.wires.get c = some w ∧ (w'.running = true → w.running = true) ∧ w'.begun = w.begun ∧
        w'.keepalive = w.keepalive ∧ ∀ k, TimedNet.heard m n e ≠ some (c, k)) ∨
        (n.wires.get c = none ∧ w'.begun = false) from
      hs.elim Or.inl fun x => Or.inr (Or.inl x)
    cases e with
    | accept c1 =>
      simp only [Net.step] at h
      split at h
      · exact same h
      · rename_i hw
        simp only [Map.get_insert] at h
        split at h
        · rename_i hc
          subst hc
          cases h
          exact Or.inr ⟨hw, rfl⟩
        · exact same h
    | data c1 b =>
      simp only [Net.step, Net.onWire] at h
      split at h
      · exact same h
      · rename_i w hw
        split at h
        · rename_i hrun
          split at h
          · split at h
            · exact put c1 w _ hw hrun h rfl rfl
            · exact put c1 w _ hw hrun h rfl rfl
          · exact same h
        · exact same h
    | turn c1 uuid written =>
      simp only [Net.step, Net.onWire] at h
      split at h
      · exact same h
      · rename_i w hw
        split at h
        · rename_i hrun
          split at h
          · exact same h
          · rename_i p rest hp
            have h' := h
            simp only [Net.act, Map.get_insert] at h'
            split at h'
            · rename_i hc
              subst hc
              exact absurd (by simp [TimedNet.heard, hw, hrun, hp]) (hno (if w.begun then w.keepalive else Net.keepaliveOf p))
            · exact same h'
          · exact put c1 w _ hw hrun h rfl rfl
          · exact put c1 w _ hw hrun h rfl rfl
        · exact same h
    | deliver c1 f =>
      simp only [Net.step, Net.onWire] at h
      split at h
      · exact same h
      · rename_i w hw
        split at h
        · rename_i hrun
          split at h
          · exact put c1 w _ hw hrun h rfl rfl
          · exact same h
        · exact same h
    | close c1 =>
      simp only [Net.step, Net.onWire] at h
      split at h
      · exact same h
      · rename_i w hw
        split at h
        · rename_i hrun
          exact put c1 w _ hw hrun h rfl rfl
        · exact same h

/-- Connections are never forgotten. -/
theorem wire_stays (m : Mode) (cfg : AuthConfig) (n : Net) (e : NetEvent) (c : Nat) {w : Wire}
    (h : n.wires.get c = some w) : ∃ w', (n.step m cfg e).wires.get c = some w' := by
  have put : ∀ c1 w1, ∃ w', Map.get (n.wires.insert c1 w1) c = some w' := by
    intro c1 w1
    rw [Map.get_insert]
    split
    · exact ⟨_, rfl⟩
    · exact ⟨w, h⟩
  have on : ∀ c1 (f : Wire → Net), (∀ w1, ∃ w', (f w1).wires.get c = some w') →
      ∃ w', (n.onWire c1 f).wires.get c = some w' := by
    intro c1 f hf
    unfold Net.onWire
    split
    · exact ⟨w, h⟩
    · split
      · exact hf _
      · exact ⟨w, h⟩
  cases e with
  | accept c1 =>
    simp only [Net.step]
    split
    · exact ⟨w, h⟩
    · exact put _ _
  | data c1 b =>
    refine on c1 _ fun w1 => ?_
    split
    · split
      · exact put _ _
      · exact put _ _
    · exact ⟨w, h⟩
  | turn c1 uuid written =>
    refine on c1 _ fun w1 => ?_
    split
    · exact ⟨w, h⟩
    · exact put _ _
    · exact put _ _
    · exact put _ _
  | deliver c1 f =>
    refine on c1 _ fun w1 => ?_
    split
    · exact put _ _
    · exact ⟨w, h⟩
  | close c1 => exact on c1 _ fun w1 => put _ _

theorem begun_stays (m : Mode) (cfg : AuthConfig) (n : Net) (e : NetEvent) (c : Nat) {w : Wire}
    (h : n.wires.get c = some w) (hb : w.begun = true) :
    ∃ w', (n.step m cfg e).wires.get c = some w' ∧ w'.begun = true := by
  obtain ⟨w', hw'⟩ := wire_stays m cfg n e c h
  refine ⟨w', hw', ?_⟩
  rcases wire_once m cfg n e c hw' with ⟨w1, h1, _, h2, _⟩ | ⟨h1, _⟩ | ⟨_, _, _, _, _, _, _, _, _, h1, _⟩
  · rw [h] at h1
    cases h1
    rw [h2, hb]
  · rw [h] at h1; cases h1
  · exact h1

/-! ## One step with time -/

/-- The history `es` of packets explains the state, and the clocks of open connections are not too far ahead. -/
structure TimedInv (cfg : AuthConfig) (σ : TimedNet) (es : List Event) : Prop where
  net : NetInv cfg σ.net es
  clock : ∀ c w, σ.net.wires.get c = some w → w.running = true → w.begun = true →
    ∃ k, σ.clocks.get c = some k ∧ (σ.now < 1000 * 2 ^ 62 → k.deadline ≤ σ.now + keepAliveTimeout w.keepalive)
  owned : ∀ c k, σ.clocks.get c = some k → ∃ w, σ.net.wires.get c = some w ∧ w.begun = true
  once : ∀ c a b p u w, es = a ++ Event.first c p u w :: b → packetsOf c a = []

/-- What the clock `k'` of an open connection has to do with what was read on it (`qs`) in the last step. -/
def Ticks (σ : TimedNet) (c : Nat) (w' : Wire) (k' : Clock) (qs : List Packet) (calm : Prop) : Prop :=
  (qs ≠ [] ∧ k'.deadline = sleepUntil σ.now (keepAliveTimeout w'.keepalive)) ∨
  (qs = [] ∧ ∃ w k, σ.net.wires.get c = some w ∧ w.running = true ∧ w.begun = true ∧
    w.keepalive = w'.keepalive ∧ σ.clocks.get c = some k ∧
    (k'.deadline = k.deadline ∨ k'.deadline = sleepUntil σ.now (keepAliveTimeout w'.keepalive)) ∧
    (calm → k.stuck = none → k' = k))

theorem took_none {m : Mode} {n : Net} {c : Nat} {e : NetEvent} :
    n.took m c e = none ↔ ∀ k, TimedNet.heard m n e ≠ some (c, k) := by
  cases e with
  | turn c1 uuid written =>
    simp only [Net.took, TimedNet.heard]
    by_cases hc : c1 = c
    · subst hc
      rw [if_pos rfl]
      cases hw : n.wires.get c1 with
      | none => simp
      | some w =>
        cases hr : w.running with
        | false => simp [hr]
        | true => cases hp : parsePacket m w.buf <;> simp [hr, hp]
    · rw [if_neg hc]
      refine ⟨fun _ k hk => ?_, fun _ => rfl⟩
      split at hk
      · cases hk
      · split at hk
        · split at hk
          · rw [Option.some.injEq, Prod.mk.injEq] at hk
            exact hc hk.1
          · cases hk
        · cases hk
  | _ => simp [Net.took, TimedNet.heard]

/-- Every event keeps the invariant, and adds the packet it takes. -/
theorem NetInv.step_heard (m : Mode) {cfg : AuthConfig} {n : Net} {es : List Event} (h : NetInv cfg n es)
    (e : NetEvent) (hd : ∀ c b, e = .data c b → b.length ≤ 2 ^ 31) :
    ∃ ex, Extends n e ex ∧ NetInv cfg (n.step m cfg e) (es ++ ex) ∧
      ∀ c, packetsOf c ex = (n.took m c e).toList := by
  have none' : ∀ ex, Extends n e ex → (∀ c u w, e ≠ .turn c u w) → ∀ c, packetsOf c ex = [] := by
    rintro ex (rfl | ⟨x, hx, h⟩) hne c
    · rfl
    · have : packetsOf c [x] = [] := by
        cases hx with
        | first => exact absurd rfl (hne _ _ _)
        | recv => exact absurd rfl (hne _ _ _)
        | _ => rfl
      rcases h with rfl | rfl
      · exact this
      · rw [show ∀ a b : Event, [a, b] = [a] ++ [b] from fun _ _ => rfl, packetsOf_snoc, this]; rfl
  by_cases ht : ∃ c u w, e = .turn c u w
  · obtain ⟨c, uuid, written, rfl⟩ := ht
    have same : n.step m cfg (.turn c uuid written) = n →
        (∀ c', n.took m c' (.turn c uuid written) = none) →
        ∃ ex, Extends n (.turn c uuid written) ex ∧ NetInv cfg (n.step m cfg (.turn c uuid written)) (es ++ ex) ∧
          ∀ c', packetsOf c' ex = (n.took m c' (.turn c uuid written)).toList := by
      intro h1 h2
      exact ⟨[], Or.inl rfl, by rw [h1, List.append_nil]; exact h, fun c' => by rw [h2 c']; rfl⟩
    have took0 : n.took m c (.turn c uuid written) = none → ∀ c', n.took m c' (.turn c uuid written) = none := by
      intro h0 c'
      by_cases hc : c = c'
      · subst hc; exact h0
      · simp [Net.took, hc]
    cases hw : n.wires.get c with
    | none => exact same (by simp [Net.step, Net.onWire, hw]) (took0 (by simp [Net.took, hw]))
    | some w =>
      cases hr : w.running with
      | false => exact same (by simp [Net.step, Net.onWire, hw, hr]) (took0 (by simp [Net.took, hw, hr]))
      | true =>
        have ending : ∀ e', e'.conn = some c → (∀ c', packetsOf c' [e'] = []) → ¬ (n.server.step cfg e').1.isOpen c →
            Stands n (.turn c uuid written) e' → n.step m cfg (.turn c uuid written) = n.act cfg c w e' →
            (∀ c', n.took m c' (.turn c uuid written) = none) →
            ∃ ex, Extends n (.turn c uuid written) ex ∧
              NetInv cfg (n.step m cfg (.turn c uuid written)) (es ++ ex) ∧
              ∀ c', packetsOf c' ex = (n.took m c' (.turn c uuid written)).toList := by
          intro e' he hp hno hst heq hh
          obtain ⟨ex, h1, h2⟩ := h.act (w := w) hw hr he rfl (fun ho => absurd ho hno) (by
              intro ps bs future hs hf
              obtain ⟨k, h1, _⟩ := h.read c w hw ps bs future hs hf
              exact ⟨k, by rw [hp, List.append_nil]; exact h1, fun ho => absurd ho hno⟩)
            (fun hb => by rw [hp, List.append_nil]; exact h.begun c w hw hb)
            (fun hb => by rw [hp, List.append_nil]; exact h.kept c w hw hb)
            (fun _ hz => by rw [hp, List.append_nil]; exact h.zero c w hw hr hz)
          refine ⟨ex, Or.inr ⟨e', hst, h1⟩, by rw [heq]; exact h2, fun c' => ?_⟩
          rw [hh c']
          rcases h1 with rfl | rfl
          · exact hp c'
          · rw [show ∀ a b : Event, [a, b] = [a] ++ [b] from fun _ _ => rfl, packetsOf_snoc, hp]; rfl
        cases hp : parsePacket m w.buf with
        | needMore => exact same (by simp [Net.step, Net.onWire, hw, hr, hp]) (took0 (by simp [Net.took, hw, hr, hp]))
        | packet p rest =>
          obtain ⟨ex, h1, h2, h3⟩ := h.reads_packet m hw hr hp uuid written
          refine ⟨ex, h1, h3, fun c' => ?_⟩
          by_cases hc : c' = c
          · subst hc
            rw [h2]
            simp [Net.took, hw, hr, hp]
          · rw [show n.took m c' (.turn c uuid written) = none by simp [Net.took, Ne.symm hc]]
            · rcases h1 with rfl | ⟨x, hx, h1⟩
              · rfl
              · have := packetsOf_other hx.conn hc
                rcases h1 with rfl | rfl
                · exact this
                · rw [show ∀ a b : Event, [a, b] = [a] ++ [b] from fun _ _ => rfl, packetsOf_snoc, this]; rfl
        | error er =>
          exact ending _ rfl (fun _ => rfl) (not_open_close cfg n es h c) .close
            (by simp only [Net.step, Net.onWire, hw, hr, hp, if_true]) (took0 (by simp [Net.took, hw, hr, hp]))
        | panicked =>
          refine ending _ rfl (fun _ => rfl) ?_ .abort
            (by simp only [Net.step, Net.onWire, hw, hr, hp, if_true]; rfl) (took0 (by simp [Net.took, hw, hr, hp]))
          rintro ⟨k, hk⟩
          simp [Server.step, Map.get_erase, NetEvent.conn] at hk
  · have hne : ∀ c u w, e ≠ .turn c u w := fun c u w he => ht ⟨c, u, w, he⟩
    obtain ⟨ex, h1, h2⟩ := h.step m e hd
    refine ⟨ex, h1, h2, fun c => ?_⟩
    rw [none' ex h1 hne c]
    cases e with
    | turn => exact absurd rfl (hne _ _ _)
    | _ => rfl

/-- Only the first packet of a connection opens it. -/
theorem once_extends {cfg : AuthConfig} {n : Net} {es ex : List Event} (h : NetInv cfg n es) {e : NetEvent}
    (hx : Extends n e ex) (ho : ∀ c a b p u w, es = a ++ Event.first c p u w :: b → packetsOf c a = []) :
    ∀ c a b p u w, es ++ ex = a ++ Event.first c p u w :: b → packetsOf c a = [] := by
  have snoc : ∀ (l : List Event) (x : Event), (∀ c a b p u w, l = a ++ Event.first c p u w :: b → packetsOf c a = []) →
      (∀ c p u w, x = .first c p u w → packetsOf c l = []) →
      ∀ c a b p u w, l ++ [x] = a ++ Event.first c p u w :: b → packetsOf c a = [] := by
    intro l x h1 h2 c a b p u w heq
    rcases List.eq_nil_or_concat b with rfl | ⟨b', y, rfl⟩
    · obtain ⟨rfl, h⟩ := List.append_inj' heq rfl
      cases h
      exact h2 _ _ _ _ rfl
    · rw [List.concat_eq_append, show a ++ Event.first c p u w :: (b' ++ [y]) = (a ++ Event.first c p u w :: b') ++ [y] by simp] at heq
      obtain ⟨rfl, _⟩ := List.append_inj' heq rfl
      exact h1 _ _ _ _ _ _ rfl
  rcases hx with rfl | ⟨x, hs, hx⟩
  · rw [List.append_nil]; exact ho
  · have h1 := snoc es x ho (by
      rintro c p u w rfl
      cases hs with
      | first hw _ hb => exact h.begun _ _ hw hb)
    rcases hx with rfl | rfl
    · exact h1
    · rw [show es ++ [x, Event.abort e.conn] = (es ++ [x]) ++ [.abort e.conn] by simp]
      exact snoc _ _ h1 (by intro c p u w hx; cases hx)

/-- Something happens on a connection. -/
theorem TimedInv.onNet (m : Mode) {cfg : AuthConfig} {σ : TimedNet} {es : List Event} (h : TimedInv cfg σ es)
    (e : NetEvent) (hd : ∀ c b, e = .data c b → b.length ≤ 2 ^ 31) :
    ∃ ex, Extends σ.net e ex ∧ TimedInv cfg (σ.onNet m cfg e) (es ++ ex) ∧
      (∀ c, packetsOf c ex = (σ.net.took m c e).toList) ∧
      ∀ c w', (σ.onNet m cfg e).net.wires.get c = some w' → w'.running = true → w'.begun = true →
        ∃ k', (σ.onNet m cfg e).clocks.get c = some k' ∧ Ticks σ c w' k' (packetsOf c ex) True := by
  obtain ⟨ex, hext, hnet, hread⟩ := h.net.step_heard m e hd
  have key : ∀ c w', (σ.net.step m cfg e).wires.get c = some w' → w'.running = true → w'.begun = true →
        ∃ k', (σ.onNet m cfg e).clocks.get c = some k' ∧ Ticks σ c w' k' (packetsOf c ex) True := by
    intro c w' hw' hr' hb'
    rcases wire_once m cfg σ.net e c hw' with ⟨w, hw, hr, hb, hka, hno⟩ | ⟨_, hb⟩ |
        ⟨w, p, rest, uuid, written, rfl, hw, hr, hp, _, hka⟩
    · have hr := hr hr'
      obtain ⟨k, hk, _⟩ := h.clock c w hw hr (by rw [← hb]; exact hb')
      refine ⟨k, ?_, Or.inr ⟨?_, w, k, hw, hr, by rw [← hb]; exact hb', hka.symm, hk, Or.inl rfl, fun _ _ => rfl⟩⟩
      · unfold TimedNet.onNet
        cases hx : TimedNet.heard m σ.net e with
        | none => simpa [hx] using hk
        | some y =>
          obtain ⟨c1, k1⟩ := y
          have hne : c1 ≠ c := by rintro rfl; exact hno k1 hx
          simp only [Map.get_insert, if_neg hne]
          exact hk
      · exact (by rw [hread c, took_none.mpr hno]; rfl)
    · rw [hb'] at hb; cases hb
    · refine ⟨{ deadline := sleepUntil σ.now (keepAliveTimeout w'.keepalive) }, ?_, Or.inl ⟨?_, rfl⟩⟩
      · unfold TimedNet.onNet
        simp only [TimedNet.heard, hw, hr, if_true, hp, Map.get_insert, hka]
      · intro hx
        refine took_none.mp (by
          rw [hread c] at hx
          cases ht : σ.net.took m c (.turn c uuid written) with
          | none => rfl
          | some q => rw [ht] at hx; cases hx) (if w.begun then w.keepalive else Net.keepaliveOf p) ?_
        simp only [TimedNet.heard, hw, hr, if_true, hp]
  refine ⟨ex, hext, ⟨hnet, ?_, ?_, once_extends h.net hext h.once⟩, hread, key⟩
  rotate_left
  · intro c k hk
    have old : ∀ k, σ.clocks.get c = some k → ∃ w, (σ.net.step m cfg e).wires.get c = some w ∧ w.begun = true := by
      intro k hk
      obtain ⟨w, hw, hb⟩ := h.owned c k hk
      exact begun_stays m cfg σ.net e c hw hb
    unfold TimedNet.onNet at hk ⊢
    cases hx : TimedNet.heard m σ.net e with
    | none => rw [hx] at hk; exact old k hk
    | some y =>
      obtain ⟨c1, k1⟩ := y
      rw [hx] at hk
      simp only [Map.get_insert] at hk
      split at hk
      · rename_i hc
        subst hc
        cases hw0 : σ.net.wires.get c1 with
        | none =>
          cases e with
          | turn c2 uuid written =>
            simp only [TimedNet.heard] at hx
            split at hx
            · cases hx
            · rename_i w hw
              split at hx
              · split at hx
                · rw [Option.some.injEq, Prod.mk.injEq] at hx
                  rw [hx.1, hw0] at hw
                  cases hw
                · cases hx
              · cases hx
          | _ => simp [TimedNet.heard] at hx
        | some w =>
          obtain ⟨w', hw'⟩ := wire_stays m cfg σ.net e c1 hw0
          refine ⟨w', hw', ?_⟩
          rcases wire_once m cfg σ.net e c1 hw' with ⟨_, _, _, _, _, hno⟩ | ⟨h1, _⟩ | ⟨_, _, _, _, _, _, _, _, _, h1, _⟩
          · exact absurd hx (hno k1)
          · rw [hw0] at h1; cases h1
          · exact h1
      · exact old k hk
  intro c w' hw' hr' hb'
  obtain ⟨k', hk', ht⟩ := key c w' hw' hr' hb'
  refine ⟨k', hk', fun hn => ?_⟩
  have hn : σ.now < 1000 * 2 ^ 62 := hn
  show k'.deadline ≤ σ.now + _
  rcases ht with ⟨_, hd'⟩ | ⟨_, w, k, hw, hr, hb, hka, hk, hd', _⟩
  · rw [hd']; exact sleepUntil_le _ hn
  · rcases hd' with hd' | hd'
    · obtain ⟨k1, hk1, h1⟩ := h.clock c w hw hr hb
      rw [hk] at hk1
      cases hk1
      rw [hd', ← hka]
      exact h1 hn
    · rw [hd']; exact sleepUntil_le _ hn

theorem TimedInv.bound {cfg : AuthConfig} {σ : TimedNet} {es : List Event} (h : TimedInv cfg σ es) {c : Nat} {w' : Wire}
    {k' : Clock} {qs : List Packet} {calm : Prop} (ht : Ticks σ c w' k' qs calm) (hn : σ.now < 1000 * 2 ^ 62) :
    k'.deadline ≤ σ.now + keepAliveTimeout w'.keepalive := by
  rcases ht with ⟨_, hd'⟩ | ⟨_, w, k, hw, hr, hb, hka, hk, hd', _⟩
  · rw [hd']; exact sleepUntil_le _ hn
  · rcases hd' with hd' | hd'
    · obtain ⟨k1, hk1, h1⟩ := h.clock c w hw hr hb
      rw [hk] at hk1
      cases hk1
      rw [hd', ← hka]
      exact h1 hn
    · rw [hd']; exact sleepUntil_le _ hn

/-- Every event keeps the invariant; and what it does to the clocks. -/
theorem TimedInv.step (m : Mode) {cfg : AuthConfig} (late : Nat) {σ : TimedNet} {es : List Event}
    (h : TimedInv cfg σ es) (e : TimedEvent) (hd : e.Short) :
    ∃ ex, TimedInv cfg (σ.step m cfg late e) (es ++ ex) ∧ σ.now ≤ (σ.step m cfg late e).now ∧
      (∀ c, packetsOf c ex = (σ.took m c e).toList) ∧
      ∀ c w', (σ.step m cfg late e).net.wires.get c = some w' → w'.running = true → w'.begun = true →
        ∃ k', (σ.step m cfg late e).clocks.get c = some k' ∧ Ticks σ c w' k' (packetsOf c ex) (e.Calm c) ∧
          ((σ.step m cfg late e).now = σ.now ∨
            (k'.stuck = none → (σ.step m cfg late e).now ≤ k'.deadline + late)) := by
  -- nothing happens to the connections
  have still : ∀ c w', σ.net.wires.get c = some w' → w'.running = true → w'.begun = true →
      ∃ k', σ.clocks.get c = some k' ∧ Ticks σ c w' k' (packetsOf c []) (e.Calm c) := by
    intro c w' hw hr hb
    obtain ⟨k, hk, _⟩ := h.clock c w' hw hr hb
    exact ⟨k, hk, Or.inr ⟨rfl, w', k, hw, hr, hb, rfl, hk, Or.inl rfl, fun _ _ => rfl⟩⟩
  have nothing : σ.step m cfg late e = σ → (∀ c, σ.took m c e = none) →
      ∃ ex, TimedInv cfg (σ.step m cfg late e) (es ++ ex) ∧ σ.now ≤ (σ.step m cfg late e).now ∧
      (∀ c, packetsOf c ex = (σ.took m c e).toList) ∧
      ∀ c w', (σ.step m cfg late e).net.wires.get c = some w' → w'.running = true → w'.begun = true →
        ∃ k', (σ.step m cfg late e).clocks.get c = some k' ∧ Ticks σ c w' k' (packetsOf c ex) (e.Calm c) ∧
          ((σ.step m cfg late e).now = σ.now ∨
            (k'.stuck = none → (σ.step m cfg late e).now ≤ k'.deadline + late)) := by
    intro he htk
    rw [he]
    refine ⟨[], by rw [List.append_nil]; exact h, Nat.le_refl _, fun c => by rw [htk c]; rfl, fun c w' hw hr hb => ?_⟩
    obtain ⟨k, h1, h2⟩ := still c w' hw hr hb
    exact ⟨k, h1, h2, Or.inl rfl⟩
  -- something happens to a connection
  have on : ∀ e', (∀ c b, e' = .data c b → b.length ≤ 2 ^ 31) → σ.step m cfg late e = σ.onNet m cfg e' →
      (∀ c, σ.took m c e = σ.net.took m c e') →
      ∃ ex, TimedInv cfg (σ.step m cfg late e) (es ++ ex) ∧ σ.now ≤ (σ.step m cfg late e).now ∧
      (∀ c, packetsOf c ex = (σ.took m c e).toList) ∧
      ∀ c w', (σ.step m cfg late e).net.wires.get c = some w' → w'.running = true → w'.begun = true →
        ∃ k', (σ.step m cfg late e).clocks.get c = some k' ∧ Ticks σ c w' k' (packetsOf c ex) (e.Calm c) ∧
          ((σ.step m cfg late e).now = σ.now ∨
            (k'.stuck = none → (σ.step m cfg late e).now ≤ k'.deadline + late)) := by
    intro e' hd' he htk
    rw [he]
    obtain ⟨ex, _, h1, h0, h2⟩ := h.onNet m e' hd'
    refine ⟨ex, h1, Nat.le_refl _, fun c => by rw [h0 c, htk c], fun c w' hw hr hb => ?_⟩
    obtain ⟨k, h3, h4⟩ := h2 c w' hw hr hb
    refine ⟨k, h3, ?_, Or.inl rfl⟩
    rcases h4 with h4 | ⟨h4, w, k0, a1, a2, a3, a4, a5, a6, a7⟩
    · exact Or.inl h4
    · exact Or.inr ⟨h4, w, k0, a1, a2, a3, a4, a5, a6, fun _ => a7 trivial⟩
  cases e with
  | net e' =>
    cases hf : σ.free e' with
    | false => exact nothing (by simp [TimedNet.step, hf]) (by simp [TimedNet.took, hf])
    | true =>
      exact on e' (by rintro c b rfl; exact hd) (by simp [TimedNet.step, hf]) (by simp [TimedNet.took, hf])
  | stick e' =>
    have hd' : ∀ c b, e' = .data c b → b.length ≤ 2 ^ 31 := by rintro c b rfl; exact hd
    cases hf : σ.free e' with
    | false => exact nothing (by simp [TimedNet.step, hf]) (by simp [TimedNet.took, hf])
    | true =>
      cases hwr : TimedNet.writer e' with
      | none => exact on e' hd' (by simp [TimedNet.step, hf, hwr]) (by simp [TimedNet.took, hf])
      | some y =>
        obtain ⟨c0, answer⟩ := y
        by_cases ho : TimedNet.output (σ.onNet m cfg e').net c0 = TimedNet.output σ.net c0
        · exact on e' hd' (by simp [TimedNet.step, hf, hwr, ho]) (by simp [TimedNet.took, hf])
        · cases hk : (σ.onNet m cfg e').clocks.get c0 with
          | none => exact on e' hd' (by simp [TimedNet.step, hf, hwr, ho, hk]) (by simp [TimedNet.took, hf])
          | some k0 =>
            have hc0 : e'.conn = c0 := by
              cases e' <;> simp [TimedNet.writer] at hwr <;> exact hwr.1
            have he : σ.step m cfg late (.stick e') = { σ.onNet m cfg e' with
                clocks := (σ.onNet m cfg e').clocks.insert c0 { k0 with stuck := some answer } } := by
              simp [TimedNet.step, hf, hwr, ho, hk]
            rw [he]
            obtain ⟨ex, _, h1, h0, h2⟩ := h.onNet m e' hd'
            have key : ∀ c w', (σ.onNet m cfg e').net.wires.get c = some w' → w'.running = true → w'.begun = true →
                ∃ k', Map.get ((σ.onNet m cfg e').clocks.insert c0 { k0 with stuck := some answer }) c = some k' ∧
                  Ticks σ c w' k' (packetsOf c ex) (TimedEvent.Calm c (.stick e')) := by
              intro c w' hw hr hb
              obtain ⟨k, h3, h4⟩ := h2 c w' hw hr hb
              rw [Map.get_insert]
              by_cases hc : c0 = c
              · rw [if_pos hc]
                subst hc
                rw [hk] at h3
                cases h3
                refine ⟨_, rfl, ?_⟩
                rcases h4 with h4 | ⟨h4, w, k1, a1, a2, a3, a4, a5, a6, a7⟩
                · exact Or.inl h4
                · exact Or.inr ⟨h4, w, k1, a1, a2, a3, a4, a5, a6, fun hx => absurd hc0 hx⟩
              · rw [if_neg hc]
                refine ⟨k, h3, ?_⟩
                rcases h4 with h4 | ⟨h4, w, k1, a1, a2, a3, a4, a5, a6, a7⟩
                · exact Or.inl h4
                · exact Or.inr ⟨h4, w, k1, a1, a2, a3, a4, a5, a6, fun _ => a7 trivial⟩
            refine ⟨ex, ⟨h1.net, ?_, ?_, h1.once⟩, Nat.le_refl _, fun c => by rw [h0 c]; simp [TimedNet.took, hf],
              fun c w' hw hr hb => ?_⟩
            rotate_left
            · intro c k hx
              simp only [Map.get_insert] at hx
              split at hx
              · rename_i hc
                subst hc
                exact h1.owned _ _ hk
              · exact h1.owned c k hx
            rotate_left
            · intro c w' hw hr hb
              obtain ⟨k, h3, h4⟩ := key c w' hw hr hb
              exact ⟨k, h3, fun hn => h.bound h4 hn⟩
            · obtain ⟨k, h3, h4⟩ := key c w' hw hr hb
              exact ⟨k, h3, h4, Or.inl rfl⟩
  | resume c0 =>
    cases hk : σ.clocks.get c0 with
    | none => exact nothing (by simp [TimedNet.step, hk]) fun _ => rfl
    | some k0 =>
      cases hw0 : σ.net.wires.get c0 with
      | none => exact nothing (by simp [TimedNet.step, hk, hw0]) fun _ => rfl
      | some w0 =>
        cases hs : k0.stuck with
        | none => exact nothing (by simp [TimedNet.step, hk, hw0, hs]) fun _ => rfl
        | some answer =>
          obtain ⟨d, hdd⟩ : ∃ d, d = (if answer then sleepUntil σ.now (keepAliveTimeout w0.keepalive) else k0.deadline) :=
            ⟨_, rfl⟩
          have he : σ.step m cfg late (.resume c0) = { σ with clocks := σ.clocks.insert c0 { deadline := d } } := by
            simp [TimedNet.step, hk, hw0, hs, hdd]
          rw [he]
          have key : ∀ c w', σ.net.wires.get c = some w' → w'.running = true → w'.begun = true →
              ∃ k', Map.get (σ.clocks.insert c0 { deadline := d }) c = some k' ∧
                Ticks σ c w' k' (packetsOf c []) (TimedEvent.Calm c (.resume c0)) := by
            intro c w' hw hr hb
            rw [Map.get_insert]
            by_cases hc : c0 = c
            · rw [if_pos hc]
              subst hc
              rw [hw0] at hw
              cases hw
              refine ⟨_, rfl, Or.inr ⟨rfl, w0, k0, hw0, hr, hb, rfl, hk, ?_, fun _ hx => ?_⟩⟩
              · cases answer
                · exact Or.inl hdd
                · exact Or.inr hdd
              · rw [hs] at hx; cases hx
            · rw [if_neg hc]
              exact still c w' hw hr hb
          refine ⟨[], ⟨by rw [List.append_nil]; exact h.net, ?_, ?_, by rw [List.append_nil]; exact h.once⟩, Nat.le_refl _, fun _ => rfl,
            fun c w' hw hr hb => ?_⟩
          rotate_left
          · intro c k hx
            simp only [Map.get_insert] at hx
            split at hx
            · rename_i hc
              subst hc
              exact h.owned _ _ hk
            · exact h.owned c k hx
          rotate_left
          · intro c w' hw hr hb
            obtain ⟨k, h3, h4⟩ := key c w' hw hr hb
            exact ⟨k, h3, fun hn => h.bound h4 hn⟩
          · obtain ⟨k, h3, h4⟩ := key c w' hw hr hb
            exact ⟨k, h3, h4, Or.inl rfl⟩
  | expire c0 =>
    cases hk : σ.clocks.get c0 with
    | none => exact nothing (by simp [TimedNet.step, hk]) fun _ => rfl
    | some k0 =>
      cases hx : (k0.stuck.isNone && decide (k0.deadline ≤ σ.now)) with
      | false => exact nothing (by simp only [TimedNet.step, hk, hx]; rfl) fun _ => rfl
      | true => exact on (.close c0) (by intro c b hb; cases hb) (by simp only [TimedNet.step, hk, hx]; rfl) fun _ => rfl
  | wait ms =>
    cases hp : σ.patient late (σ.now + ms) with
    | false => exact nothing (by simp [TimedNet.step, hp]) fun _ => rfl
    | true =>
      have he : σ.step m cfg late (.wait ms) = { σ with now := σ.now + ms } := by simp [TimedNet.step, hp]
      rw [he]
      refine ⟨[], ⟨by rw [List.append_nil]; exact h.net, ?_, h.owned, by rw [List.append_nil]; exact h.once⟩, Nat.le_add_right _ _, fun _ => rfl,
        fun c w' hw hr hb => ?_⟩
      · intro c w' hw hr hb
        obtain ⟨k, h3, h4⟩ := h.clock c w' hw hr hb
        refine ⟨k, h3, fun hn => ?_⟩
        have hn : σ.now + ms < 1000 * 2 ^ 62 := hn
        show k.deadline ≤ σ.now + ms + _
        have := h4 (by omega)
        omega
      · obtain ⟨k, h3, h4⟩ := still c w' hw hr hb
        refine ⟨k, h3, h4, Or.inr fun hs => ?_⟩
        have := List.all_eq_true.mp hp (c, w') (mem_of_get hw)
        simpa [h3, hr, hb, hs] using this

theorem TimedNet.run_snoc (m : Mode) (cfg : AuthConfig) (late : Nat) (σ : TimedNet) (es : List TimedEvent)
    (e : TimedEvent) : σ.run m cfg late (es ++ [e]) = (σ.run m cfg late es).step m cfg late e := by
  simp [TimedNet.run]

theorem TimedInv.init (cfg : AuthConfig) : TimedInv cfg {} [] :=
  ⟨NetInv.init cfg, fun c w hw => by simp [Net.init, Map.get] at hw, fun c k hk => by simp [Map.get] at hk,
    fun c a b p u w he => by simp at he⟩

theorem heardFrom_append (m : Mode) (cfg : AuthConfig) (late c : Nat) (xs ys : List TimedEvent) : ∀ σ : TimedNet,
    σ.heardFrom m cfg late c (xs ++ ys) =
      σ.heardFrom m cfg late c xs ++ (σ.run m cfg late xs).heardFrom m cfg late c ys := by
  induction xs with
  | nil => intro σ; rfl
  | cons e xs ih =>
    intro σ
    simp only [List.cons_append, TimedNet.heardFrom, ih, List.append_assoc]
    rfl

/-- A history keeps the invariant; and what it does to the clocks. -/
theorem TimedInv.run (m : Mode) {cfg : AuthConfig} (late : Nat) {σ : TimedNet} {es : List Event}
    (h : TimedInv cfg σ es) (evs : List TimedEvent) (hd : ∀ e ∈ evs, e.Short) :
    ∃ ex, TimedInv cfg (σ.run m cfg late evs) (es ++ ex) ∧ σ.now ≤ (σ.run m cfg late evs).now ∧
      (∀ c, packetsOf c ex = σ.heardFrom m cfg late c evs) ∧
      ∀ c w', (σ.run m cfg late evs).net.wires.get c = some w' → w'.running = true → w'.begun = true →
        ∃ k', (σ.run m cfg late evs).clocks.get c = some k' ∧
          (σ.heardFrom m cfg late c evs = [] → ∃ w k, σ.net.wires.get c = some w ∧ w.running = true ∧
            w.begun = true ∧ w.keepalive = w'.keepalive ∧ σ.clocks.get c = some k ∧
            (k.stuck = none → (∀ e ∈ evs, e.Calm c) → k' = k ∧
              ((σ.run m cfg late evs).now = σ.now ∨ (σ.run m cfg late evs).now ≤ k.deadline + late))) ∧
          (σ.heardFrom m cfg late c evs ≠ [] → w'.keepalive ≠ 0 →
            σ.now + keepAliveTimeout w'.keepalive ≤ k'.deadline) := by
  induction evs using snoc_induction with
  | h0 =>
    refine ⟨[], by rw [List.append_nil]; exact h, Nat.le_refl _, fun _ => rfl, fun c w' hw hr hb => ?_⟩
    obtain ⟨k, hk, _⟩ := h.clock c w' hw hr hb
    exact ⟨k, hk, fun _ => ⟨w', k, hw, hr, hb, rfl, hk, fun _ _ => ⟨rfl, Or.inl rfl⟩⟩, fun hx => absurd rfl hx⟩
  | hs evs e ih =>
    obtain ⟨ex, h1, h2, h3, h4⟩ := ih fun e' he' => hd e' (List.mem_append_left _ he')
    obtain ⟨ey, i1, i2, i3, i4⟩ := h1.step m late e (hd e (by simp))
    have hrun : σ.run m cfg late (evs ++ [e]) = (σ.run m cfg late evs).step m cfg late e := TimedNet.run_snoc _ _ _ _ _ _
    have hh : ∀ c, σ.heardFrom m cfg late c (evs ++ [e]) = σ.heardFrom m cfg late c evs ++ packetsOf c ey := by
      intro c
      rw [heardFrom_append, i3 c]
      simp [TimedNet.heardFrom]
    rw [hrun]
    refine ⟨ex ++ ey, by rw [← List.append_assoc]; exact i1, Nat.le_trans h2 i2, fun c => ?_, fun c w' hw hr hb => ?_⟩
    · rw [hh, ← h3 c]
      simp [packetsOf]
    · obtain ⟨k', hk', ht, hnow⟩ := i4 c w' hw hr hb
      refine ⟨k', hk', fun hnil => ?_, fun hne hka => ?_⟩
      · rw [hh, List.append_eq_nil_iff] at hnil
        obtain ⟨n1, n2⟩ := hnil
        rcases ht with ⟨hq, _⟩ | ⟨_, w, k, hw1, hr1, hb1, hka1, hk1, _, hcalm⟩
        · exact absurd n2 hq
        · obtain ⟨k2, hk2, a, _⟩ := h4 c w hw1 hr1 hb1
          rw [hk1] at hk2
          cases hk2
          obtain ⟨w0, k0, b1, b2, b3, b4, b5, b6⟩ := a n1
          refine ⟨w0, k0, b1, b2, b3, b4.trans hka1, b5, fun hs hc => ?_⟩
          obtain ⟨rfl, b7⟩ := b6 hs fun e' he' => hc e' (List.mem_append_left _ he')
          have hkk := hcalm (hc e (by simp)) hs
          subst hkk
          refine ⟨rfl, ?_⟩
          rcases hnow with hnow | hnow
          · rw [hnow]; exact b7
          · exact Or.inr (hnow hs)
      · rcases ht with ⟨hq, hdl⟩ | ⟨hq, w, k, hw1, hr1, hb1, hka1, hk1, hdl, _⟩
        · rw [hdl]
          exact Nat.le_trans (Nat.add_le_add_right h2 _) (sleepUntil_ge hka _)
        · rcases hdl with hdl | hdl
          · obtain ⟨k2, hk2, _, a⟩ := h4 c w hw1 hr1 hb1
            rw [hk1] at hk2
            cases hk2
            rw [hdl, ← hka1]
            refine a ?_ (by rw [hka1]; exact hka)
            intro hx
            rw [hh, hx, hq] at hne
            exact hne rfl
          · rw [hdl]
            exact Nat.le_trans (Nat.add_le_add_right h2 _) (sleepUntil_ge hka _)

/-! ## Messages do not move the deadline -/

/-- A turn of the event loop that does not take a packet writes nothing. -/
theorem turn_silent {m : Mode} {cfg : AuthConfig} {n : Net} {c : Nat} {u : Str} {b : Bool}
    (h : n.took m c (.turn c u b) = none) : TimedNet.output (n.step m cfg (.turn c u b)) c = TimedNet.output n c := by
  have close : ∀ (w : Wire) (e : Event), n.wires.get c = some w → (n.server.step cfg e).2.sent = [] →
      TimedNet.output (n.act cfg c w e) c = TimedNet.output n c := by
    intro w e hw he
    simp [TimedNet.output, Net.act, Map.get_insert, he, writePackets, hw]
  simp only [Net.step, Net.onWire]
  cases hw : n.wires.get c with
  | none => rfl
  | some w =>
    simp only
    cases hr : w.running with
    | false => rfl
    | true =>
      simp only [if_true]
      cases hp : parsePacket m w.buf with
      | needMore => rfl
      | packet p rest => simp [Net.took, hw, hr, hp] at h
      | error e =>
        refine close w _ hw ?_
        simp only [Server.step, Server.onConn]
        split
        · rfl
        · split <;> rfl
      | panicked => exact close w _ hw rfl

/-- While nothing is heard from a client its deadline stays, unless an answer to it was stuck. -/
theorem clock_kept {m : Mode} {cfg : AuthConfig} {late : Nat} {σ : TimedNet} {c : Nat} {e : TimedEvent} {k : Clock}
    (h : σ.took m c e = none) (hk : σ.clocks.get c = some k) (hs : k.stuck ≠ some true) :
    ∃ k', (σ.step m cfg late e).clocks.get c = some k' ∧ k'.deadline = k.deadline ∧ k'.stuck ≠ some true := by
  have same : ∃ k', σ.clocks.get c = some k' ∧ k'.deadline = k.deadline ∧ k'.stuck ≠ some true := ⟨k, hk, rfl, hs⟩
  have on : ∀ ne, σ.net.took m c ne = none → (σ.onNet m cfg ne).clocks.get c = some k := by
    intro ne hn
    have hn := took_none.mp hn
    simp only [TimedNet.onNet]
    split
    · rename_i d x hx
      rw [Map.get_insert, if_neg]
      · exact hk
      · rintro rfl; exact hn x hx
    · exact hk
  cases e with
  | net ne =>
    simp only [TimedNet.step]
    split
    · rename_i hf
      exact ⟨k, on ne (by simpa [TimedNet.took, hf] using h), rfl, hs⟩
    · exact same
  | stick ne =>
    simp only [TimedNet.step]
    split
    · rename_i hf
      have hn : σ.net.took m c ne = none := by simpa [TimedNet.took, hf] using h
      have hon := on ne hn
      split
      · rename_i d answer hwr
        split
        · exact ⟨k, hon, rfl, hs⟩
        · rename_i hout
          split
          · rename_i k0 hk0
            by_cases hd : d = c
            · subst hd
              rw [hon] at hk0
              cases hk0
              refine ⟨{ k with stuck := some answer }, by rw [Map.get_insert, if_pos rfl], rfl, ?_⟩
              cases ne with
              | turn d' u b =>
                simp only [TimedNet.writer, Option.some.injEq, Prod.mk.injEq] at hwr
                obtain ⟨rfl, rfl⟩ := hwr
                exact absurd (turn_silent hn) hout
              | deliver d' f =>
                simp only [TimedNet.writer, Option.some.injEq, Prod.mk.injEq] at hwr
                obtain ⟨rfl, rfl⟩ := hwr
                simp
              | _ => cases hwr
            · exact ⟨k, by rw [Map.get_insert, if_neg hd]; exact hon, rfl, hs⟩
          · exact ⟨k, hon, rfl, hs⟩
      · exact ⟨k, hon, rfl, hs⟩
    · exact same
  | resume d =>
    simp only [TimedNet.step]
    split
    · rename_i k0 w0 hk0 hw0
      split
      · exact same
      · rename_i answer ha
        simp only [Map.get_insert]
        split
        · rename_i hd
          subst hd
          rw [hk] at hk0
          cases hk0
          refine ⟨_, rfl, ?_, by simp⟩
          cases answer with
          | true => exact absurd ha hs
          | false => rfl
        · exact same
    · exact same
  | expire d =>
    simp only [TimedNet.step]
    split
    · split
      · exact ⟨k, on (.close d) rfl, rfl, hs⟩
      · exact same
    · exact same
  | wait ms =>
    simp only [TimedNet.step]
    split <;> exact same

theorem clock_kept_run {m : Mode} {cfg : AuthConfig} {late c : Nat} (evs : List TimedEvent) : ∀ {σ : TimedNet} {k : Clock},
    σ.heardFrom m cfg late c evs = [] → σ.clocks.get c = some k → k.stuck ≠ some true →
    ∃ k', (σ.run m cfg late evs).clocks.get c = some k' ∧ k'.deadline = k.deadline ∧ k'.stuck ≠ some true := by
  induction evs with
  | nil => intro σ k _ hk hs; exact ⟨k, hk, rfl, hs⟩
  | cons e evs ih =>
    intro σ k h hk hs
    simp only [TimedNet.heardFrom, List.append_eq_nil_iff, Option.toList_eq_nil_iff] at h
    obtain ⟨k1, a, b, d⟩ := clock_kept (cfg := cfg) (late := late) h.1 hk hs
    obtain ⟨k2, a2, b2, d2⟩ := ih h.2 a d
    exact ⟨k2, a2, b2.trans b, d2⟩

end Mercurio
