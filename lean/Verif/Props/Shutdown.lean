import Verif.Model.Shutdown
import Verif.Props.Net
import Verif.Props.Will

/-! # C79: shutdown -/

namespace Mercurio

open Spec Server

namespace Process

/-- The process can be reached: some history from the start, its chunks not longer than 2 GiB. -/
def Reachable (m : Mode) (cfg : AuthConfig) (p : Process) : Prop :=
  ∃ es, (∀ c b, ProcEvent.net (.data c b) ∈ es → b.length ≤ 2 ^ 31) ∧ p = Process.init.run m cfg es

theorem run_append (m : Mode) (cfg : AuthConfig) (p : Process) (es fs : List ProcEvent) :
    p.run m cfg (es ++ fs) = (p.run m cfg es).run m cfg fs := by
  simp [run, List.foldl_append]

theorem step_net (m : Mode) (cfg : AuthConfig) (p : Process) (e : ProcEvent) :
    (p.step m cfg e).net = p.net ∨ (∃ x, e = .net x ∧ (p.step m cfg e).net = p.net.step m cfg x) ∨
    ∃ c, e = .notice c ∧ (p.step m cfg e).net = p.net.step m cfg (.close c) := by
  cases e with
  | net x =>
    cases x with
    | accept c =>
      simp only [step]
      split
      · exact Or.inr (Or.inl ⟨_, rfl, rfl⟩)
      · exact Or.inl rfl
    | _ => exact Or.inr (Or.inl ⟨_, rfl, rfl⟩)
  | shutdown => exact Or.inl rfl
  | notice c =>
    simp only [step]
    split
    · exact Or.inl rfl
    · split
      · split
        · exact Or.inr (Or.inr ⟨c, rfl, rfl⟩)
        · exact Or.inl rfl
      · exact Or.inl rfl

/-- To the connections a history of the process is an ordinary history. -/
theorem net_run (m : Mode) (cfg : AuthConfig) (p : Process) (es : List ProcEvent) :
    ∃ ns, (p.run m cfg es).net = p.net.run m cfg ns ∧
      ∀ c b, NetEvent.data c b ∈ ns → ProcEvent.net (.data c b) ∈ es := by
  induction es using snoc_induction with
  | h0 => exact ⟨[], rfl, by simp⟩
  | hs l e ih =>
    obtain ⟨ns, h1, h2⟩ := ih
    have hrun : p.run m cfg (l ++ [e]) = (p.run m cfg l).step m cfg e := by simp [run]
    rw [hrun]
    rcases step_net m cfg (p.run m cfg l) e with h | ⟨x, rfl, h⟩ | ⟨c, rfl, h⟩
    · exact ⟨ns, h.trans h1, fun c b hb => List.mem_append_left _ (h2 c b hb)⟩
    · refine ⟨ns ++ [x], by rw [h, h1, Net.run_snoc], fun c b hb => ?_⟩
      rcases List.mem_append.mp hb with hb | hb
      · exact List.mem_append_left _ (h2 c b hb)
      · simp only [List.mem_singleton] at hb
        subst hb
        exact List.mem_append_right _ (by simp)
    · refine ⟨ns ++ [.close c], by rw [h, h1, Net.run_snoc], fun c b hb => ?_⟩
      rcases List.mem_append.mp hb with hb | hb
      · exact List.mem_append_left _ (h2 c b hb)
      · simp at hb

theorem Reachable.netInv {m : Mode} {cfg : AuthConfig} {p : Process} (h : p.Reachable m cfg) :
    ∃ es, NetInv cfg p.net es := by
  obtain ⟨es, hd, rfl⟩ := h
  obtain ⟨ns, h1, h2⟩ := net_run m cfg Process.init es
  rw [h1]
  exact netInv_run m cfg ns (fun c b hb => hd c b (h2 c b hb))

theorem step_down (m : Mode) (cfg : AuthConfig) {p : Process} (h : p.up = false) (e : ProcEvent) :
    (p.step m cfg e).up = false := by
  cases e with
  | net x => cases x <;> simp [step, h]
  | shutdown => rfl
  | notice c =>
    simp only [step]
    split
    · exact h
    · split
      · split <;> exact h
      · exact h

/-- The connections there are: an event adds none but by accepting it. -/
theorem net_step_wires (m : Mode) (cfg : AuthConfig) (n : Net) (e : NetEvent)
    (he : ∀ c, e ≠ .accept c) (c : Nat) :
    ((n.step m cfg e).wires.get c).isSome = (n.wires.get c).isSome := by
  have act : ∀ d w x, n.wires.get d = some w → ∀ w' : Wire,
      ((n.act cfg d w' x).wires.get c).isSome = (n.wires.get c).isSome := by
    intro d w x hd w'
    simp only [Net.act, Map.get_insert]
    by_cases hcd : d = c
    · subst hcd; simp [hd]
    · simp [hcd]
  have on : ∀ d (f : Wire → Net), (∀ w, n.wires.get d = some w →
      ((f w).wires.get c).isSome = (n.wires.get c).isSome) →
      ((n.onWire d f).wires.get c).isSome = (n.wires.get c).isSome := by
    intro d f hf
    unfold Net.onWire
    cases hd : n.wires.get d with
    | none => rfl
    | some w =>
      simp only
      split
      · exact hf w hd
      · rfl
  cases e with
  | accept d => exact absurd rfl (he d)
  | data d b =>
    refine on d _ fun w hw => ?_
    split
    · split
      · exact act d w _ hw _
      · simp only [Map.get_insert]
        by_cases hcd : d = c
        · subst hcd; simp [hw]
        · simp [hcd]
    · rfl
  | turn d u b =>
    refine on d _ fun w hw => ?_
    split
    · rfl
    · exact act d w _ hw _
    · exact act d w _ hw _
    · exact act d w _ hw _
  | deliver d f =>
    refine on d _ fun w hw => ?_
    split
    · exact act d w _ hw _
    · rfl
  | close d => exact on d _ fun w hw => act d w _ hw _

/-- A connection that has ended has ended for good. -/
theorem net_step_ended (m : Mode) (cfg : AuthConfig) (n : Net) (e : NetEvent) {c : Nat} {w : Wire}
    (hw : n.wires.get c = some w) (hr : w.running = false) :
    (n.step m cfg e).wires.get c = some w := by
  have on : ∀ d (f : Wire → Net), (∀ w', n.wires.get d = some w' → d ≠ c → (f w').wires.get c = some w) →
      (n.onWire d f).wires.get c = some w := by
    intro d f hf
    unfold Net.onWire
    cases hd : n.wires.get d with
    | none => exact hw
    | some w' =>
      simp only
      split
      · rename_i hr'
        refine hf w' hd ?_
        rintro rfl
        cases hd.symm.trans hw
        simp [hr] at hr'
      · exact hw
  have act : ∀ d w' x, d ≠ c → (n.act cfg d w' x).wires.get c = some w := by
    intro d w' x hne
    simp only [Net.act, Map.get_insert, if_neg hne, hw]
  cases e with
  | accept d =>
    simp only [Net.step]
    cases hd : n.wires.get d with
    | some _ => exact hw
    | none =>
      have hne : c ≠ d := by rintro rfl; cases hd.symm.trans hw
      simp only [Map.get_insert, if_neg (Ne.symm hne), hw]
  | data d b =>
    refine on d _ fun w' hw' hne => ?_
    split
    · split
      · exact act d w' _ hne
      · simp only [Map.get_insert, if_neg hne, hw]
    · exact hw
  | turn d u b =>
    refine on d _ fun w' hw' hne => ?_
    split
    · exact hw
    · exact act d _ _ hne
    · exact act d _ _ hne
    · exact act d _ _ hne
  | deliver d f =>
    refine on d _ fun w' hw' hne => ?_
    split
    · exact act d _ _ hne
    · exact hw
  | close d => exact on d _ fun w' hw' hne => act d _ _ hne

theorem run_ended (m : Mode) (cfg : AuthConfig) (es : List ProcEvent) : ∀ (p : Process) {c : Nat} {w : Wire},
    p.net.wires.get c = some w → w.running = false → (p.run m cfg es).net.wires.get c = some w := by
  induction es with
  | nil => intro p c w h _; exact h
  | cons e es ih =>
    intro p c w h hr
    refine ih (p.step m cfg e) ?_ hr
    rcases step_net m cfg p e with h' | ⟨x, rfl, h'⟩ | ⟨d, rfl, h'⟩
    · rw [h']; exact h
    · rw [h']; exact net_step_ended m cfg p.net x h hr
    · rw [h']; exact net_step_ended m cfg p.net _ h hr

theorem Reachable.run {m : Mode} {cfg : AuthConfig} {p : Process} (h : p.Reachable m cfg)
    {es : List ProcEvent} (hd : ∀ c b, ProcEvent.net (.data c b) ∈ es → b.length ≤ 2 ^ 31) :
    (p.run m cfg es).Reachable m cfg := by
  obtain ⟨es0, h0, rfl⟩ := h
  refine ⟨es0 ++ es, fun c b hb => ?_, (run_append m cfg _ _ _).symm⟩
  rcases List.mem_append.mp hb with hb | hb
  · exact h0 c b hb
  · exact hd c b hb

end Process

open Process

/-- C79: once the server has been told to shut down no new connection is accepted, whatever happens. -/
theorem C79_no_new_connections (m : Mode) (cfg : AuthConfig) (p : Process) (es : List ProcEvent) (c : Nat)
    (hnew : p.net.wires.get c = none) :
    ((p.step m cfg .shutdown).run m cfg es).net.wires.get c = none := by
  have key : ∀ es : List ProcEvent, ∀ q : Process, q.up = false → q.net.wires.get c = none →
      (q.run m cfg es).net.wires.get c = none := by
    intro es
    induction es with
    | nil => intro q _ h; exact h
    | cons e es ih =>
      intro q hq h
      refine ih (q.step m cfg e) (step_down m cfg hq e) ?_
      have none_of : ∀ x : NetEvent, (∀ d, x ≠ .accept d) →
          (q.net.step m cfg x).wires.get c = none := by
        intro x hx
        have := net_step_wires m cfg q.net x hx c
        rw [h] at this
        simpa using this
      cases e with
      | net x =>
        cases x with
        | accept d => simp only [Process.step, hq, Bool.false_eq_true, if_false]; exact h
        | data d b => exact none_of _ (by intro _ hx; cases hx)
        | turn d u b => exact none_of _ (by intro _ hx; cases hx)
        | deliver d f => exact none_of _ (by intro _ hx; cases hx)
        | close d => exact none_of _ (by intro _ hx; cases hx)
      | shutdown => exact h
      | notice d =>
        simp only [Process.step, hq, Bool.false_eq_true, if_false]
        split
        · split
          · exact none_of _ (by intro _ hx; cases hx)
          · exact h
        · exact h
  exact key es _ rfl hnew

/-- C79: after a shutdown every connection with a client can end; when it notices, its will (if it still
has one) is published with the topic, payload, QoS and retain flag it has, the client is sent nothing
more, and the other connections go on for the time being. -/
theorem C79_notice (m : Mode) (cfg : AuthConfig) (p : Process) (hp : p.Reachable m cfg)
    (hdown : p.up = false) (c : Nat) (s : Session) (hs : p.net.server.at c = some s) :
    let p' := p.step m cfg (.notice c)
    ¬ p'.net.server.isOpen c ∧
    (∃ w w', p.net.wires.get c = some w ∧ p'.net.wires.get c = some w' ∧ w'.running = false ∧
      w'.sent = w.sent) ∧
    p'.net.server.world.log = p.net.server.world.log ++
      (match s.will with
        | some w => [.publish (.will c) w.topic ⟨none, w.topic, false, w.qos, w.retain, some w.payload⟩]
        | none => []) ∧
    ∀ d, d ≠ c → (p'.net.server.isOpen d ↔ p.net.server.isOpen d) ∧
      p'.net.wires.get d = p.net.wires.get d := by
  intro p'
  obtain ⟨es, hi⟩ := hp.netInv
  obtain ⟨k, hk, hh⟩ := at_eq_some.mp hs
  obtain ⟨w, hw, hr, hb⟩ := (hi.opened c).mp ⟨k, hk⟩
  have hstep : p'.net = p.net.act cfg c w (.close c) := by
    show (p.step m cfg (.notice c)).net = _
    simp only [Process.step, hdown, hw, hb, if_true, Bool.false_eq_true, if_false, Net.step, Net.onWire, hr]
  have hclose : p.net.server.step cfg (.close c) = (p.net.server.finish c k.session s, {}) := by
    simp only [Server.step, onConn, hk, hh]
  have hserver : p'.net.server = p.net.server.finish c k.session s := by
    rw [hstep]; simp [Net.act, hclose, writePackets, Net.resets]
  have hconns : (p.net.server.finish c k.session s).conns = p.net.server.conns.erase c := by
    unfold finish; cases s.will <;> rfl
  refine ⟨?_, ⟨w, _, hw, by rw [hstep]; simp only [Net.act, Map.get_insert]; rfl, ?_, ?_⟩, ?_, ?_⟩
  · rw [hserver]
    rintro ⟨k', hk'⟩
    rw [hconns, Map.get_erase, if_pos rfl] at hk'
    cases hk'
  · simp [hclose, writePackets, Net.resets, hconns, Map.get_erase]
  · simp [hclose, writePackets]
  · rw [hserver]
    unfold finish
    cases s.will with
    | none => simp [put]
    | some x => rfl
  · intro d hd
    constructor
    · unfold isOpen
      rw [hserver, hconns, Map.get_erase, if_neg (Ne.symm hd)]
    · rw [hstep]; simp only [Net.act, Map.get_insert, if_neg (Ne.symm hd)]

/-- C79: a connection that has noticed the shutdown stays closed, whatever happens before and after; so
when all have noticed, no client that was connected at the shutdown is connected any more. -/
theorem C79_all_end_partial (m : Mode) (cfg : AuthConfig) (p : Process) (hp : p.Reachable m cfg)
    (es : List ProcEvent) (hd : ∀ c b, ProcEvent.net (.data c b) ∈ es → b.length ≤ 2 ^ 31)
    (hall : ∀ c, p.net.server.isOpen c → .notice c ∈ es) (c : Nat) (ho : p.net.server.isOpen c) :
    ¬ ((p.step m cfg .shutdown).run m cfg es).net.server.isOpen c := by
  obtain ⟨es1, es2, rfl⟩ := List.append_of_mem (hall c ho)
  have hd1 : ∀ c b, ProcEvent.net (.data c b) ∈ es1 → b.length ≤ 2 ^ 31 := fun c b h =>
    hd c b (List.mem_append_left _ h)
  have hp0 : (p.step m cfg .shutdown).Reachable m cfg :=
    Reachable.run (es := [.shutdown]) hp (by simp)
  have hp1 := Reachable.run hp0 hd1
  have hpe := Reachable.run hp0 hd
  have hdown1 : ((p.step m cfg .shutdown).run m cfg es1).up = false := by
    have : ∀ (l : List ProcEvent) (q : Process), q.up = false → (q.run m cfg l).up = false := by
      intro l
      induction l with
      | nil => intro q h; exact h
      | cons e l ih => intro q h; exact ih _ (step_down m cfg h e)
    exact this _ _ rfl
  -- the connection is there and has begun, before the notice
  obtain ⟨i0, hi0⟩ := hp.netInv
  obtain ⟨i1, hi1⟩ := hp1.netInv
  obtain ⟨ie, hie⟩ := hpe.netInv
  obtain ⟨w0, hw0, _, hb0⟩ := (hi0.opened c).mp ho
  have hbeg : ∀ (l : List ProcEvent) (q : Process) (w : Wire), q.net.wires.get c = some w → w.begun = true →
      ∃ w', (q.run m cfg l).net.wires.get c = some w' ∧ w'.begun = true := by
    intro l
    induction l with
    | nil => intro q w h hb; exact ⟨w, h, hb⟩
    | cons e l ih =>
      intro q w h hb
      have one : ∀ x : NetEvent, ∃ w', (q.net.step m cfg x).wires.get c = some w' ∧ w'.begun = true := by
        intro x
        have on : ∀ d (f : Wire → Net), (∀ w', q.net.wires.get d = some w' →
            ∃ w'', (f w').wires.get c = some w'' ∧ w''.begun = true) →
            ∃ w', (q.net.onWire d f).wires.get c = some w' ∧ w'.begun = true := by
          intro d f hf
          unfold Net.onWire
          cases hd : q.net.wires.get d with
          | none => exact ⟨w, h, hb⟩
          | some w' =>
            simp only
            split
            · exact hf w' hd
            · exact ⟨w, h, hb⟩
        have act : ∀ d w' x, (d = c → w'.begun = true) →
            ∃ w'', (q.net.act cfg d w' x).wires.get c = some w'' ∧ w''.begun = true := by
          intro d w' x hw'
          simp only [Net.act, Map.get_insert]
          by_cases hcd : d = c
          · subst hcd; rw [if_pos rfl]; exact ⟨_, rfl, hw' rfl⟩
          · rw [if_neg hcd]; exact ⟨w, h, hb⟩
        have same : ∀ {d w'}, q.net.wires.get d = some w' → d = c → w'.begun = true := by
          rintro d w' h' rfl
          cases h'.symm.trans h; exact hb
        cases x with
        | accept d =>
          simp only [Net.step]
          cases hd : q.net.wires.get d with
          | some _ => exact ⟨w, h, hb⟩
          | none =>
            have hne : c ≠ d := by rintro rfl; cases hd.symm.trans h
            exact ⟨w, by simp only [Map.get_insert, if_neg (Ne.symm hne), h], hb⟩
        | data d b =>
          refine on d _ fun w' hw' => ?_
          split
          · split
            · exact act d w' _ (same hw')
            · simp only [Map.get_insert]
              by_cases hcd : d = c
              · subst hcd; rw [if_pos rfl]; have hb' := same hw' rfl; exact ⟨_, rfl, hb'⟩
              · rw [if_neg hcd]; exact ⟨w, h, hb⟩
          · exact ⟨w, h, hb⟩
        | turn d u b =>
          refine on d _ fun w' hw' => ?_
          split
          · exact ⟨w, h, hb⟩
          · exact act d _ _ (fun _ => rfl)
          · exact act d _ _ (same hw')
          · exact act d _ _ (same hw')
        | deliver d f =>
          refine on d _ fun w' hw' => ?_
          split
          · exact act d _ _ (same hw')
          · exact ⟨w, h, hb⟩
        | close d => exact on d _ fun w' hw' => act d _ _ (same hw')
      rcases step_net m cfg q e with h' | ⟨x, rfl, h'⟩ | ⟨d, rfl, h'⟩
      · exact ih (q.step m cfg e) w (by rw [h']; exact h) hb
      · obtain ⟨w', h1, h2⟩ := one x
        exact ih (q.step m cfg _) w' (by rw [h']; exact h1) h2
      · obtain ⟨w', h1, h2⟩ := one (.close d)
        exact ih (q.step m cfg _) w' (by rw [h']; exact h1) h2
  obtain ⟨w1, hw1, hb1⟩ := hbeg es1 (p.step m cfg .shutdown) w0 hw0 hb0
  -- after the notice it has ended
  have hended : ∃ w2, (((p.step m cfg .shutdown).run m cfg es1).step m cfg (.notice c)).net.wires.get c = some w2 ∧
      w2.running = false := by
    cases hr : w1.running with
    | false =>
      refine ⟨w1, ?_, hr⟩
      exact run_ended m cfg [.notice c] _ hw1 hr
    | true =>
      obtain ⟨k, hk⟩ := (hi1.opened c).mpr ⟨w1, hw1, hr, hb1⟩
      have hinv : Inv ((p.step m cfg .shutdown).run m cfg es1).net.server :=
        Reachable.inv (cfg := cfg) ⟨i1, hi1.server⟩
      obtain ⟨s, hs⟩ : ∃ s, ((p.step m cfg .shutdown).run m cfg es1).net.server.heap.get k.session = some s := by
        have := (hinv.conns c k hk).2
        exact this
      obtain ⟨_, ⟨_, w', _, h1, h2, _⟩, _⟩ := C79_notice m cfg _ hp1 hdown1 c s (at_eq_some.mpr ⟨k, hk, hs⟩)
      exact ⟨w', h1, h2⟩
  obtain ⟨w2, hw2, hr2⟩ := hended
  have hfin := run_ended m cfg es2 _ hw2 hr2
  have hrun : (p.step m cfg .shutdown).run m cfg (es1 ++ .notice c :: es2) =
      (((p.step m cfg .shutdown).run m cfg es1).step m cfg (.notice c)).run m cfg es2 := by
    simp [Process.run, List.foldl_append]
  rw [← hrun] at hfin
  intro hopen
  obtain ⟨w, hw, hr, _⟩ := (hie.opened c).mp hopen
  cases hw.symm.trans hfin
  simp [hr2] at hr

/-- C79 is false for a connection on which the client has not said anything yet, always: it never
notices the shutdown, and when the CONNECT comes afterwards, the client is let in as usual. -/
theorem C79_silent_connection_false (m : Mode) (cfg : AuthConfig) (p : Process) (hp : p.Reachable m cfg)
    (hdown : p.up = false) (c : Nat) (hw : p.net.wires.get c = some {}) :
    p.step m cfg (.notice c) = p ∧
    ∀ (q : ConnectPacket) (bytes : Buf) (uuid : Str), (Packet.connect q).Survives →
      (Packet.connect q).encode = .ok bytes → FitsMqtt bytes → bytes.length ≤ 2 ^ 31 →
      q.payload.clientId ≠ [] → q.flags.cleanStart = true →
      (cfg.requireAuth = true → ∃ u pw v, q.payload.userName = some u ∧
        q.payload.password = some pw ∧ cfg.validator = some v ∧ v u pw = true) →
      let p' := p.run m cfg [.net (.data c bytes), .net (.turn c uuid true)]
      p'.net.server.clientOf c = some q.payload.clientId ∧
      ∃ w, p'.net.wires.get c = some w ∧ w.running = true ∧ w.sent = welcome q.protocolVersion := by
  constructor
  · simp only [Process.step, hdown, hw, Bool.false_eq_true, if_false]
  · intro q bytes uuid hs he hf hlen hid hclean hcred p'
    have hp1 : (p.run m cfg [.net (.data c bytes)]).Reachable m cfg := Reachable.run hp (by
      intro c' b hb
      simp only [List.mem_singleton, ProcEvent.net.injEq, NetEvent.data.injEq] at hb
      rw [hb.2]; exact hlen)
    obtain ⟨es, hi⟩ := hp1.netInv
    have hne : bytes ≠ [] := encode_ne_nil he
    have hempty : parsePacket m [] = .needMore := by cases m <;> rfl
    have hw1 : (p.run m cfg [.net (.data c bytes)]).net.wires.get c = some { buf := bytes, rcvd := bytes } := by
      show (p.net.step m cfg (.data c bytes)).wires.get c = _
      simp only [Net.step, Net.onWire, hw, if_true, hempty, if_neg hne, Map.get_insert, List.nil_append]
    obtain ⟨h1, h2⟩ := accepted m hi hs he hf hid hclean hcred uuid hw1
    exact ⟨h2, _, h1, rfl, rfl⟩

/-- Client `x` has connected, connection 1 is silent; then the shutdown comes, client `x` is
disconnected without a word, connection 2 is not accepted, and client `y` gets in on connection 1. -/
def exShutdown : List ProcEvent :=
  exChunks.map .net ++ [.net (.accept 1), .shutdown, .notice 0, .notice 1, .net (.accept 2),
    .net (.data 1 [0x10, 14, 0, 4, 77, 81, 84, 84, 5, 2, 0, 60, 0, 0, 1, 121]), .net (.turn 1 (str "u") true)]

example : let p := Process.init.run .debug {} exShutdown
    p.up = false ∧
    (p.net.wires.get 0).map (fun w => (w.running, w.sent)) =
      some (false, [0x20, 3, 0, 0, 0, 0x90, 4, 0, 1, 0, 0]) ∧
    p.net.server.clientOf 0 = none ∧ p.net.wires.get 2 = none ∧
    p.net.server.clientOf 1 = some (str "y") ∧
    (p.net.wires.get 1).map (fun w => (w.running, w.sent)) = some (true, [0x20, 3, 0, 0, 0]) := by
  decide +kernel

/-- The state before the notices meets the hypotheses of `C79_notice` and
`C79_silent_connection_false`. -/
example : let p := Process.init.run .debug {} (exChunks.map .net ++ [.net (.accept 1), .shutdown])
    p.up = false ∧ (p.net.server.at 0).isSome ∧ p.net.wires.get 1 = some {} ∧ p.net.wires.get 2 = none := by
  decide +kernel

end Mercurio
