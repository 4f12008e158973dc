import Verif.Props.Timed
import Verif.Lemmas.WillSystem

/-! # C110: the will of a client that falls silent -/

namespace Mercurio

open Spec Server

/-- What an event does to the connections: nothing, or what an event on byte streams does. -/
theorem TimedNet.step_net (m : Mode) (cfg : AuthConfig) (late : Nat) (σ : TimedNet) (e : TimedEvent) (c : Nat) :
    (σ.step m cfg late e).net = σ.net ∨ ∃ e', (σ.step m cfg late e).net = σ.net.step m cfg e' ∧
      σ.took m c e = σ.net.took m c e' ∧ (e.Short → ∀ c b, e' = .data c b → b.length ≤ 2 ^ 31) ∧
      (σ.net.panics m cfg c e' → σ.panics m cfg c e) := by
  cases e with
  | net e =>
    by_cases hf : σ.free e = true
    · exact Or.inr ⟨e, by simp [TimedNet.step, hf, TimedNet.onNet], by simp [TimedNet.took, hf],
        by rintro hs c b rfl; exact hs, id⟩
    · exact Or.inl (by simp [TimedNet.step, hf])
  | stick e =>
    by_cases hf : σ.free e = true
    · refine Or.inr ⟨e, ?_, by simp [TimedNet.took, hf], by rintro hs c b rfl; exact hs, id⟩
      simp only [TimedNet.step, hf, if_true]
      split
      · split
        · rfl
        · split <;> rfl
      · rfl
    · exact Or.inl (by simp [TimedNet.step, hf])
  | resume d =>
    left
    simp only [TimedNet.step]
    split
    · split <;> rfl
    · rfl
  | expire d =>
    simp only [TimedNet.step]
    split
    · split
      · exact Or.inr ⟨.close d, rfl, rfl, by intro _ c b hx; (cases hx), id⟩
      · exact Or.inl rfl
    · exact Or.inl rfl
  | wait ms =>
    left
    simp only [TimedNet.step]
    split <;> rfl

/-- What an event does to the server if connection `c` neither sends a packet nor panics in it. -/
theorem NetInv.quiet_cases (m : Mode) {cfg : AuthConfig} {n : Net} {es : List Event} (h : NetInv cfg n es)
    (e : NetEvent) (hd : ∀ c b, e = .data c b → b.length ≤ 2 ^ 31) {c : Nat} (ht : n.took m c e = none)
    (hp : ¬ n.panics m cfg c e) :
    (n.step m cfg e).server = n.server ∨
    (∃ xs, (∀ x ∈ xs, ∃ d, x.conn = some d ∧ d ≠ c) ∧ (n.step m cfg e).server = Server.run cfg n.server xs) ∨
    (n.step m cfg e).server = (n.server.step cfg (.close c)).1 ∨
    ∃ f, (n.step m cfg e).server = (n.server.step cfg (.deliver c f)).1 ∧
      (n.server.step cfg (.deliver c f)).2.panicked = false := by
  by_cases hc : e.conn = c
  · have close : ∀ w, (n.act cfg c w (.close c)).server = (n.server.step cfg (.close c)).1 := by
      intro w
      have h0 : (n.server.step cfg (.close c)).2.sent = [] := by
        simp only [Server.step, Server.onConn]
        repeat' split
        all_goals rfl
      simp [Net.act, h0, writePackets, Net.resets]
    cases e with
    | accept d =>
      left
      simp only [Net.step]
      split <;> rfl
    | data d b =>
      obtain rfl : d = c := hc
      simp only [Net.step, Net.onWire]
      split
      · exact Or.inl rfl
      · split
        · split
          · split
            · exact Or.inr (Or.inr (Or.inl (close _)))
            · exact Or.inl rfl
          · exact Or.inl rfl
        · exact Or.inl rfl
    | turn d uuid written =>
      obtain rfl : d = c := hc
      simp only [Net.step, Net.onWire]
      split
      · exact Or.inl rfl
      · rename_i w hw
        split
        · rename_i hr
          split
          · exact Or.inl rfl
          · rename_i p rest hpk
            simp [Net.took, hw, hr, hpk] at ht
          · exact Or.inr (Or.inr (Or.inl (close _)))
          · rename_i hpk
            exact absurd ⟨rfl, w, hw, hpk⟩ hp
        · exact Or.inl rfl
    | deliver d f =>
      obtain rfl : d = c := hc
      have h1 : (n.server.step cfg (.deliver d f)).2.panicked = false := by
        cases hx : (n.server.step cfg (.deliver d f)).2.panicked with
        | false => rfl
        | true => exact absurd ⟨rfl, Or.inl hx⟩ hp
      have h2 : (writePackets (n.server.step cfg (.deliver d f)).2.sent).2 = true := by
        cases hx : (writePackets (n.server.step cfg (.deliver d f)).2.sent).2 with
        | true => rfl
        | false => exact absurd ⟨rfl, Or.inr hx⟩ hp
      simp only [Net.step, Net.onWire]
      split
      · exact Or.inl rfl
      · split
        · split
          · exact Or.inr (Or.inr (Or.inr ⟨f, by simp [Net.act, h2, Net.resets], h1⟩))
          · exact Or.inl rfl
        · exact Or.inl rfl
    | close d =>
      obtain rfl : d = c := hc
      simp only [Net.step, Net.onWire]
      split
      · exact Or.inl rfl
      · split
        · exact Or.inr (Or.inr (Or.inl (close _)))
        · exact Or.inl rfl
  · right; left
    obtain ⟨ex, hx, h1, _⟩ := h.step_heard m e hd
    refine ⟨ex, ?_, ?_⟩
    · rcases hx with rfl | ⟨x, hs, rfl | rfl⟩
      · intro x hx; cases hx
      · intro y hy
        rw [List.mem_singleton] at hy
        exact ⟨e.conn, by rw [hy]; exact hs.conn, hc⟩
      · intro y hy
        simp only [List.mem_cons, List.not_mem_nil, or_false] at hy
        rcases hy with rfl | rfl
        · exact ⟨e.conn, hs.conn, hc⟩
        · exact ⟨e.conn, rfl, hc⟩
    · rw [h1.server, h.server]
      simp [Server.run]

/-- Events of other connections publish no will of `c` and leave it as it is. -/
theorem others_wills (cfg : AuthConfig) {c : Nat} (xs : List Event) : ∀ {srv : Server},
    (∀ x ∈ xs, ∃ d, x.conn = some d ∧ d ≠ c) →
    (Server.run cfg srv xs).conns.get c = srv.conns.get c ∧
      willPublications c (Server.run cfg srv xs).world.log = willPublications c srv.world.log := by
  induction xs with
  | nil => intro srv _; exact ⟨rfl, rfl⟩
  | cons x xs ih =>
    intro srv hx
    obtain ⟨d, hd, hne⟩ := hx x (by simp)
    obtain ⟨h1, h2⟩ := ih (srv := (srv.step cfg x).1) fun y hy => hx y (by simp [hy])
    rw [run_cons, h1, h2, conns_other cfg srv hd (Ne.symm hne), step_log, willPublications_append,
      willPublications_foreign cfg srv c x (Or.inl (by rintro ⟨⟩ <;> exact hne (Option.some.inj hd).symm)), List.append_nil]
    exact ⟨rfl, rfl⟩

/-- An event in which connection `c` neither sends a packet nor panics: the will is published if and only if the event
ends the connection. -/
theorem NetInv.quiet_will (m : Mode) {cfg : AuthConfig} {n : Net} {es : List Event} (h : NetInv cfg n es)
    (e : NetEvent) (hd : ∀ c b, e = .data c b → b.length ≤ 2 ^ 31) {c : Nat} (ht : n.took m c e = none)
    (hp : ¬ n.panics m cfg c e) (W : Option StoredWill)
    (hopen : ∀ s, n.server.at c = some s → s.will = W ∧ willPublications c n.server.world.log = [])
    (hclosed : ¬ n.server.isOpen c → willPublications c n.server.world.log = callsOfWill c W) :
    ¬ (n.step m cfg e).server.isOpen c →
      willPublications c (n.step m cfg e).server.world.log = callsOfWill c W := by
  intro hno
  have hreach : n.server.Reachable cfg := ⟨es, h.server⟩
  have none_of : ¬ n.server.isOpen c → n.server.at c = none := by
    intro hn
    cases ha : n.server.at c with
    | none => rfl
    | some s => exact absurd (isOpen_of_at ha) hn
  rcases h.quiet_cases m e hd ht hp with hq | ⟨xs, hx, hq⟩ | hq | ⟨f, hq, hpan⟩
  · rw [hq] at hno ⊢; exact hclosed hno
  · obtain ⟨h1, h2⟩ := others_wills cfg xs (srv := n.server) hx
    rw [hq] at hno ⊢
    rw [h2]
    refine hclosed ?_
    rintro ⟨k, hk⟩
    exact hno ⟨k, by rw [h1]; exact hk⟩
  · rw [hq, step_log, willPublications_append]
    by_cases ho : n.server.isOpen c
    · obtain ⟨s, hs⟩ := at_of_isOpen hreach.inv ho
      obtain ⟨h1, h2⟩ := hopen s hs
      rw [h2, List.nil_append]
      simp only [eventCalls, hs]
      rw [willPublications_own, willCalls_eq, h1]
    · rw [willPublications_foreign cfg n.server c _ (Or.inr (none_of ho)), List.append_nil]
      exact hclosed ho
  · rw [hq] at hno
    rw [hq, step_log, willPublications_append]
    by_cases ho : n.server.isOpen c
    · exfalso
      obtain ⟨s, hs⟩ := at_of_isOpen hreach.inv ho
      obtain ⟨k, hk⟩ := ho
      obtain ⟨k', hk', hs', e'⟩ := onConn_at hs (fun r s => n.server.deliver c r s f)
      have e' : n.server.step cfg (.deliver c f) = n.server.deliver c k'.session s f := e'
      rw [e', Server.deliver] at hno hpan
      cases hpo : s.processOutgoing n.server.world.broker.tree f with
      | idle => rw [hpo] at hno; exact hno ⟨k, hk⟩
      | packet s' p => rw [hpo] at hno; exact hno ⟨k, hk⟩
      | panicked s' => rw [hpo] at hpan; simp at hpan
    · rw [willPublications_foreign cfg n.server c _ (Or.inr (none_of ho)), List.append_nil]
      exact hclosed ho

/-- What is known of a client from what the server has heard. -/
theorem TimedInv.solo {cfg : AuthConfig} {σ : TimedNet} {es : List Event} (h : TimedInv cfg σ es) {c : Nat}
    {p : ConnectPacket} (hp : (packetsOf c es).head? = some (.connect p)) :
    (∀ q u w, Event.first c q u w ∈ es → q = .connect p) ∧
    ((∀ d, d ≠ c → ∀ q, Packet.connect q ∈ packetsOf d es → q.payload.clientId ≠ p.payload.clientId) →
      Solo c p.payload.clientId p.protocolVersion es) := by
  have own : ∀ q u w, Event.first c q u w ∈ es → q = .connect p := by
    intro q u w hm
    obtain ⟨a, b, rfl⟩ := List.append_of_mem hm
    have h0 := h.once c a b q u w rfl
    rw [packetsOf_append, h0] at hp
    simpa [packetsOf] using hp
  refine ⟨own, fun ho => ⟨fun q u w hm => ⟨p, own q u w hm, rfl, rfl⟩, fun d q u w hd hm hid => ?_⟩⟩
  refine absurd hid (ho d hd q ?_)
  obtain ⟨a, b, rfl⟩ := List.append_of_mem hm
  rw [packetsOf_append]
  refine List.mem_append_right _ ?_
  simp [packetsOf]

/-- The will of a client that sends nothing more is published when its connection ends. -/
theorem TimedInv.quiet_wills (m : Mode) {cfg : AuthConfig} (late : Nat) {σ : TimedNet} {es : List Event}
    (h : TimedInv cfg σ es) {c : Nat} {p : ConnectPacket} (hp : (packetsOf c es).head? = some (.connect p))
    (hclean : p.flags.cleanStart = true) (ho : σ.net.server.isOpen c) (evs : List TimedEvent)
    (hs : ∀ e ∈ evs, e.Short) (hsilent : σ.heardFrom m cfg late c evs = [])
    (hother : ∀ d, d ≠ c → ∀ q, Packet.connect q ∈ packetsOf d es ++ σ.heardFrom m cfg late d evs →
      q.payload.clientId ≠ p.payload.clientId)
    (hnp : ∀ a e b, evs = a ++ e :: b → ¬ (σ.run m cfg late a).panics m cfg c e) :
    ((σ.run m cfg late evs).net.server.isOpen c →
      willPublications c (σ.run m cfg late evs).net.server.world.log = []) ∧
    (¬ (σ.run m cfg late evs).net.server.isOpen c →
      willPublications c (σ.run m cfg late evs).net.server.world.log = callsOfWill c (willOfConnect p)) := by
  have opened : ∀ evs', (∃ b, evs = evs' ++ b) → ∀ s, (σ.run m cfg late evs').net.server.at c = some s →
      s.will = willOfConnect p ∧ willPublications c (σ.run m cfg late evs').net.server.world.log = [] := by
    rintro evs' ⟨b, rfl⟩ s hs'
    obtain ⟨ex, h1, _, hq, _⟩ := h.run m late evs' fun e he => hs e (List.mem_append_left _ he)
    have hp' : (packetsOf c (es ++ ex)).head? = some (.connect p) := by
      rw [packetsOf_append]; exact head?_grow hp
    obtain ⟨o1, o2⟩ := h1.solo hp'
    have hsolo := o2 fun d hd q hq' => hother d hd q (by
      rw [packetsOf_append, hq] at hq'
      rw [heardFrom_append]
      simp only [List.mem_append] at hq' ⊢
      rcases hq' with h | h
      · exact Or.inl h
      · exact Or.inr (Or.inl h))
    rw [h1.net.server] at hs' ⊢
    obtain ⟨a1, a2, _⟩ := (solo_will cfg (willOfConnect p) (es ++ ex) hsolo (h1.once c) (by
      intro q u w hm
      cases o1 _ u w hm
      exact ⟨hclean, rfl⟩)).2 s hs'
    exact ⟨a1, a2⟩
  have reach : ∀ evs', (∃ b, evs = evs' ++ b) → (σ.run m cfg late evs').net.server.Reachable cfg := by
    rintro evs' ⟨b, rfl⟩
    obtain ⟨ex, h1, _⟩ := h.run m late evs' fun e he => hs e (List.mem_append_left _ he)
    exact ⟨_, h1.net.server⟩
  refine ⟨fun hx => ?_, ?_⟩
  · obtain ⟨s, hs'⟩ := at_of_isOpen (reach evs ⟨[], by simp⟩).inv hx
    exact (opened evs ⟨[], by simp⟩ s hs').2
  · have key : ∀ evs' b, evs = evs' ++ b → ¬ (σ.run m cfg late evs').net.server.isOpen c →
        willPublications c (σ.run m cfg late evs').net.server.world.log = callsOfWill c (willOfConnect p) := by
      intro evs'
      induction evs' using snoc_induction with
      | h0 => intro b _ hx; exact absurd ho hx
      | hs l e ih =>
        intro b hb
        have hb' : evs = l ++ e :: b := by rw [hb]; simp
        obtain ⟨ex, h1, _⟩ := h.run m late l fun e' he' => hs e' (by rw [hb']; simp [he'])
        have htook : (σ.run m cfg late l).took m c e = none := by
          rw [hb', heardFrom_append, List.append_eq_nil_iff] at hsilent
          have := hsilent.2
          simp only [TimedNet.heardFrom, List.append_eq_nil_iff] at this
          cases hx : (σ.run m cfg late l).took m c e with
          | none => rfl
          | some q => rw [hx] at this; cases this.1
        rw [TimedNet.run_snoc]
        rcases TimedNet.step_net m cfg late (σ.run m cfg late l) e c with hn | ⟨e', hn, ht, hd, hpan⟩
        · rw [hn]; exact ih (e :: b) hb'
        · rw [hn]
          exact h1.net.quiet_will m e' (hd (hs e (by rw [hb']; simp))) (by rw [← ht]; exact htook)
            (fun hx => hnp l e b hb' (hpan hx)) _ (opened l ⟨e :: b, hb'⟩) (ih (e :: b) hb')
    exact key evs [] (by simp)

/-- C110 (d): the will of a client with keep-alive `k` that falls silent is published, exactly once, with the topic,
payload, QoS and retain flag of its CONNECT, at the latest when it has been silent for one and a half times `k`
seconds and however late the runtime attends to timers.  For clients that have started clean and that do not share
their identifier, and unless the server panics on the client's bytes or on a message for it (then the will is lost,
see C42); and, as for (a), unless a write to the client gets stuck. -/
theorem C110_will_in_time_partial (m : Mode) (cfg : AuthConfig) (late : Nat) (evs1 evs2 : List TimedEvent)
    (hs : ∀ e ∈ evs1 ++ evs2, e.Short) (c : Nat) (p : ConnectPacket)
    (hp : (({} : TimedNet).heardFrom m cfg late c evs1).head? = some (.connect p)) (hk : p.keepalive ≠ 0)
    (hclean : p.flags.cleanStart = true) (t : Str) (payload : Buf) (hwf : p.flags.willFlag = true)
    (hwt : p.payload.willTopic = some t) (hwp : p.payload.willPayload = some payload)
    (hother : ∀ d, d ≠ c → ∀ q, Packet.connect q ∈ ({} : TimedNet).heardFrom m cfg late d (evs1 ++ evs2) →
      q.payload.clientId ≠ p.payload.clientId)
    (hopen : (({} : TimedNet).run m cfg late evs1).net.server.isOpen c)
    (hfree : ¬ (({} : TimedNet).run m cfg late evs1).Stuck c) (hcalm : ∀ e ∈ evs2, e.Calm c)
    (hnp : ∀ a e b, evs2 = a ++ e :: b → ¬ ((({} : TimedNet).run m cfg late evs1).run m cfg late a).panics m cfg c e)
    (hsilent : (({} : TimedNet).run m cfg late evs1).heardFrom m cfg late c evs2 = [])
    (hnow : (({} : TimedNet).run m cfg late evs1).now < 1000 * 2 ^ 62)
    (htime : (({} : TimedNet).run m cfg late evs1).now + 1000 * (3 * p.keepalive.toNat / 2) + late <
      ((({} : TimedNet).run m cfg late evs1).run m cfg late evs2).now) :
    willPublications c (({} : TimedNet).run m cfg late evs1).net.server.world.log = [] ∧
    willPublications c ((({} : TimedNet).run m cfg late evs1).run m cfg late evs2).net.server.world.log =
      [.publish (.will c) t ⟨none, t, false, p.flags.willQos, p.flags.willRetain, some payload⟩] := by
  have hclosed := C110_silent_is_closed_partial m cfg late evs1 evs2 hs c p hp hk hfree hcalm hsilent hnow htime
  obtain ⟨es, h1, _, hq, _⟩ := (TimedInv.init cfg).run m late evs1 fun e he => hs e (List.mem_append_left _ he)
  rw [List.nil_append] at h1
  have hp' : (packetsOf c es).head? = some (.connect p) := by rw [hq]; exact hp
  have hother' : ∀ d, d ≠ c → ∀ q, Packet.connect q ∈ packetsOf d es ++
      (({} : TimedNet).run m cfg late evs1).heardFrom m cfg late d evs2 → q.payload.clientId ≠ p.payload.clientId := by
    intro d hd q hq'
    rw [hq, ← heardFrom_append] at hq'
    exact hother d hd q hq'
  constructor
  · refine (h1.quiet_wills m late hp' hclean hopen [] (by simp) rfl ?_ (by simp)).1 hopen
    intro d hd q hq'
    refine hother' d hd q ?_
    simp only [TimedNet.heardFrom, List.append_nil] at hq'
    exact List.mem_append_left _ hq'
  · rw [(h1.quiet_wills m late hp' hclean hopen evs2 (fun e he => hs e (List.mem_append_right _ he)) hsilent hother'
      hnp).2 hclosed]
    simp [callsOfWill, willOfConnect, hwf, hwt, hwp]

/-- What a CONNECT says about the will. -/
def exWillShown : Packet → Option (Option Str × Option Str)
  | .connect p => if p.flags.cleanStart && p.flags.willFlag then some (p.payload.willTopic, p.payload.willPayload) else none
  | _ => none

/-- The client of `exSilence` has a will. -/
example : (({} : TimedNet).heardFrom .release {} 50 0 exTimed).map exWillShown =
      [some (some (str "w"), some (str "by"))] ∧
    (({} : TimedNet).heardFrom .release {} 50 1 (exTimed ++ exSilence)).map exShown = [some (str "y", 60), none] ∧
    (∀ a e b, exSilence = a ++ e :: b →
      ¬ ((({} : TimedNet).run .release {} 50 exTimed).run .release {} 50 a).panics .release {} 0 e) ∧
    willPublications 0 ((({} : TimedNet).run .release {} 50 exTimed).run .release {} 50 exSilence).net.server.world.log =
      [.publish (.will 0) (str "w") ⟨none, str "w", false, .atMostOnce, false, some (str "by")⟩] := by
  refine ⟨by decide +kernel, by decide +kernel, fun a e b hab => ?_, by decide +kernel⟩
  have he : e ∈ exSilence := by rw [hab]; simp
  simp only [exSilence, List.mem_cons, List.not_mem_nil, or_false] at he
  rcases he with rfl | rfl | rfl | rfl | rfl | rfl | rfl | rfl | rfl <;> simp [TimedNet.panics, Net.panics]

end Mercurio
