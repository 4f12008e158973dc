import Verif.Props.Writing

/-! # C137: what the server writes begins with its one CONNACK -/

namespace Mercurio

open Spec Server

/-! ## Specification -/

/-- The packets a server may send after the CONNACK. -/
def Spec.FollowsConnAck : Packet → Prop
  | .publish _ | .pubAck _ | .pubRec _ | .pubRel _ | .pubComp _ | .subAck _ | .unsubAck _ | .pingResp | .auth _ => True
  | _ => False

/-- What may be written on a connection: nothing, and then its first packet has not been acted on or the connection is over; a CONNACK
with an error, and then the connection is over; or a CONNACK that reports success, followed by other packets. -/
def Spec.Greeted (w : Wire) (ps : List Packet) : Prop :=
  (ps = [] ∧ (w.running = true → w.begun = false)) ∨
  (∃ a, ps = [.connAck a] ∧ a.reasonCode ≠ .success ∧ w.running = false ∧ w.begun = true) ∨
  ∃ a rest, ps = .connAck a :: rest ∧ a.reasonCode = .success ∧ (∀ q ∈ rest, FollowsConnAck q) ∧ w.begun = true

/-- The packets a client may send after its CONNECT. -/
def Spec.FollowsConnect : Packet → Prop
  | .publish _ | .pubAck _ | .pubRec _ | .pubRel _ | .pubComp _ | .subscribe _ | .unsubscribe _ | .pingReq | .disconnect _ | .auth _ => True
  | _ => False

/-! ## Lemmas -/

/-- The server answers with packets that may follow a CONNACK. -/
theorem answers_follow (cfg : AuthConfig) (srv : Server) (e : Event) (he : ∀ c p u w, e ≠ .first c p u w) :
    ∀ p ∈ (srv.step cfg e).2.sent, FollowsConnAck p := by
  have on : ∀ (c : Nat) (f : Nat → Session → Server × Out), (∀ r s, ∀ p ∈ (f r s).2.sent, FollowsConnAck p) →
      ∀ p ∈ (srv.onConn c f).2.sent, FollowsConnAck p := by
    intro c f hf p hp
    unfold Server.onConn at hp
    split at hp
    · cases hp
    · split at hp
      · cases hp
      · exact hf _ _ p hp
  intro p hp
  cases e with
  | first c q u w => exact absurd rfl (he c q u w)
  | recv c q =>
    refine on c _ ?_ p hp
    intro r s p hp
    have answer : ∀ q res, (s.processIncoming srv.world cfg.manager c q).result = .ok (some res) → (∀ d, q ≠ .disconnect d) →
        FollowsConnAck res := by
      intro q res h hd
      cases q with
      | publish q =>
        simp only [Session.processIncoming, Session.handlePublish] at h
        split at h
        · cases h
        · simp only [Session.publishResponse] at h
          split at h <;> cases h <;> trivial
      | pubAck q => cases h
      | pubRec q => cases h; trivial
      | pubRel q => cases h; trivial
      | pubComp q => cases h
      | subscribe q => cases h; trivial
      | unsubscribe q => cases h; trivial
      | pingReq => cases h; trivial
      | disconnect q => exact absurd rfl (hd q)
      | auth q =>
        simp only [Session.processIncoming, Session.handleAuth] at h
        split at h
        · cases h
        · simp only at h
          split at h
          · simp only [Session.authStart] at h
            repeat' split at h
            all_goals cases h
            all_goals trivial
          · simp only [Session.authContinue] at h
            repeat' split at h
            all_goals cases h
            all_goals trivial
          · cases h
      | connect q => cases h
      | connAck q => cases h
      | subAck q => cases h
      | unsubAck q => cases h
      | pingResp => cases h
    unfold Server.recv at hp
    split at hp
    · cases hp
    · rename_i hd
      simp only at hp
      split at hp
      · cases hp
      · rename_i res hres
        cases res with
        | none => cases hp
        | some res =>
          rw [List.mem_singleton.mp hp]
          exact answer _ res hres fun d e => hd d e
  | deliver c f =>
    refine on c _ ?_ p hp
    intro r s p hp
    unfold Server.deliver at hp
    split at hp
    · cases hp
    · rw [List.mem_singleton.mp hp]; trivial
    · cases hp
  | close c => exact on c _ (fun r s p hp => by cases hp) p hp
  | abort c => cases hp
  | restart => cases hp

theorem close_silent (cfg : AuthConfig) (srv : Server) (c : Nat) : (srv.step cfg (.close c)).2.sent = [] := by
  simp only [Server.step, Server.onConn]
  split
  · rfl
  · split <;> rfl

/-- The answer to a first packet. -/
theorem first_answer (cfg : AuthConfig) (srv : Server) (c : Nat) (p : Packet) (u : Str) (w : Bool) (hk : srv.conns.get c = none) :
    ((srv.step cfg (.first c p u w)).2.sent = [] ∧ (srv.step cfg (.first c p u w)).1.conns.get c = none) ∨
    (∃ a, (srv.step cfg (.first c p u w)).2.sent = [.connAck a] ∧ a.reasonCode ≠ .success ∧
      (srv.step cfg (.first c p u w)).1.conns.get c = none) ∨
    ∃ a rest, (srv.step cfg (.first c p u w)).2.sent = .connAck a :: rest ∧ a.reasonCode = .success ∧ ∀ q ∈ rest, FollowsConnAck q := by
  by_cases hq : ∃ q, p = .connect q
  · obtain ⟨q, rfl⟩ := hq
    simp only [Server.step, hk, Option.isSome_none, Bool.false_eq_true, if_false, Server.connect]
    split
    · exact .inr (.inl ⟨_, rfl, by simp, hk⟩)
    · unfold Server.start
      cases w with
      | true =>
        refine .inr (.inr ⟨_, _, rfl, ?_, ?_⟩)
        · unfold Session.begin
          split <;> rfl
        · intro x hx
          obtain ⟨i, _, rfl⟩ := List.mem_map.mp hx
          trivial
      | false =>
        left
        simp only [Bool.false_eq_true, if_false, conns_put]
        have : ((srv.discard q.payload.clientId q.flags.cleanStart).enter q).1.conns = srv.conns := by
          unfold Server.enter Server.discard
          repeat' split
          all_goals rfl
        exact ⟨trivial, by rw [this]; exact hk⟩
  · rw [C46_first_packet cfg srv c p u w fun x e => hq ⟨x, e⟩]
    exact .inl ⟨rfl, hk⟩

/-- There are packets whose encodings are the bytes on the wire. -/
def Greets (w : Wire) : Prop :=
  ∃ (ps : List Packet) (bs : List Buf), ps.map Packet.encode = bs.map Res.ok ∧ w.sent = bs.flatten ∧ Greeted w ps

/-- A wire on which nothing is written stays as it should, if it does not begin. -/
theorem Greets.silent {w w' : Wire} (h : Greets w) (hr : w.running = true) (hs : w'.sent = w.sent) (hb : w'.begun = w.begun) : Greets w' := by
  obtain ⟨ps, bs, h1, h2, h3⟩ := h
  refine ⟨ps, bs, h1, by rw [hs, h2], ?_⟩
  rcases h3 with ⟨rfl, h⟩ | ⟨a, _, _, h, _⟩ | ⟨a, rest, h4, h5, h6, h7⟩
  · exact .inl ⟨rfl, fun _ => by rw [hb]; exact h hr⟩
  · rw [hr] at h; cases h
  · exact .inr (.inr ⟨a, rest, h4, h5, h6, by rw [hb]; exact h7⟩)

/-- On a running connection that has begun, other packets may follow. -/
theorem Greets.follow {w w' : Wire} (h : Greets w) (hr : w.running = true) (hb : w.begun = true) (hb' : w'.begun = true)
    {qs : List Packet} {bs : List Buf} (he : qs.map Packet.encode = bs.map Res.ok) (hf : ∀ q ∈ qs, FollowsConnAck q)
    (hs : w'.sent = w.sent ++ bs.flatten) : Greets w' := by
  obtain ⟨ps, cs, h1, h2, h3⟩ := h
  refine ⟨ps ++ qs, cs ++ bs, by simp [h1, he], by simp [hs, h2], ?_⟩
  rcases h3 with ⟨rfl, h⟩ | ⟨a, _, _, h, _⟩ | ⟨a, rest, rfl, h5, h6, _⟩
  · rw [hb] at h; cases h hr
  · rw [hr] at h; cases h
  · refine .inr (.inr ⟨a, rest ++ qs, rfl, h5, ?_, hb'⟩)
    intro q hq
    rcases List.mem_append.mp hq with hq | hq
    · exact h6 q hq
    · exact hf q hq

/-! ## The theorem -/

/-- C137: whatever bytes the clients send and whatever happens, what the server has written on a connection is nothing, or a CONNACK with
an error, after which the connection is over, or a CONNACK that reports success and then packets that may follow it: there is no second
CONNACK, and nothing is written before it.  (The identifiers the server makes up have at most 65535 bytes.) -/
theorem C137_stream (m : Mode) (cfg : AuthConfig) (ns : List NetEvent) (hd : ShortChunks ns)
    (hu : ∀ c u w, NetEvent.turn c u w ∈ ns → u.length ≤ 65535) (c : Nat) (w : Wire)
    (hw : (Net.init.run m cfg ns).wires.get c = some w) :
    ∃ (ps : List Packet) (bs : List Buf), ps.map Packet.encode = bs.map Res.ok ∧ w.sent = bs.flatten ∧ Greeted w ps := by
  suffices h : ∀ c w, (Net.init.run m cfg ns).wires.get c = some w → Greets w from h c w hw
  clear hw w c
  induction ns using snoc_induction with
  | h0 => intro c w hw; simp [Net.run, Net.init, Map.get] at hw
  | hs ns e ih =>
    have ih := ih (fun c b hb => hd c b (by simp [hb])) (fun c u w h => hu c u w (by simp [h]))
    obtain ⟨es, hN⟩ := netInv_run m cfg ns (fun c b hb => hd c b (by simp [hb]))
    have hrun : Net.init.run m cfg (ns ++ [e]) = (Net.init.run m cfg ns).step m cfg e := by simp [Net.run]
    rw [hrun]
    have hue : ∀ c u w, e = .turn c u w → u.length ≤ 65535 := fun c u w h => hu c u w (by simp [h])
    generalize Net.init.run m cfg ns = n at *
    intro d v hv
    -- what acting on a wire does
    have acts : ∀ (c : Nat) (w : Wire) (x : Event), ((n.act cfg c w x).wires.get d = some v) →
        (c ≠ d → n.wires.get d = some v) ∧ (c = d → v = { w with
          sent := w.sent ++ (writePackets (n.server.step cfg x).2.sent).1
          running := v.running } ∧
          ((writePackets (n.server.step cfg x).2.sent).2 = true → Net.resets w x = true →
            v.running = ((n.server.step cfg x).1.conns.get c).isSome)) := by
      intro c w x hx
      simp only [Net.act, Map.get_insert] at hx
      refine ⟨fun hc => by rw [if_neg hc] at hx; exact hx, fun hc => ?_⟩
      rw [if_pos hc] at hx
      cases hx
      refine ⟨rfl, fun h1 h2 => ?_⟩
      simp [h1, h2]
    have onw : ∀ (c : Nat) (f : Wire → Net), (n.onWire c f).wires.get d = some v →
        n.wires.get d = some v ∨ ∃ w, n.wires.get c = some w ∧ w.running = true ∧ (f w).wires.get d = some v := by
      intro c f hx
      unfold Net.onWire at hx
      cases hc : n.wires.get c with
      | none => rw [hc] at hx; exact .inl hx
      | some w =>
        rw [hc] at hx
        simp only at hx
        split at hx
        · rename_i hr; exact .inr ⟨w, rfl, hr, hx⟩
        · exact .inl hx
    -- events that write nothing
    have quiet : ∀ (c : Nat) (w : Wire) (x : Event), n.wires.get c = some w → w.running = true →
        (n.server.step cfg x).2.sent = [] → (n.act cfg c w x).wires.get d = some v → Greets v := by
      intro c w x hw hr hs hx
      by_cases hc : c = d
      · have := ((acts c w x hx).2 hc).1
        rw [hs] at this
        exact (ih c w hw).silent hr (by rw [this]; simp [writePackets]) (by rw [this])
      · exact ih d v ((acts c w x hx).1 hc)
    -- events on a connection that has begun
    have goes : ∀ (c : Nat) (w w1 : Wire) (x : Event), n.wires.get c = some w → w.running = true → w.begun = true →
        w1.begun = true → w1.sent = w.sent → (∀ c p u w, x ≠ .first c p u w) → (n.act cfg c w1 x).wires.get d = some v → Greets v := by
      intro c w w1 x hw hr hb hb1 hs1 hne hx
      by_cases hc : c = d
      · have := ((acts c w1 x hx).2 hc).1
        obtain ⟨bs, g1, g2⟩ := writePackets_all (C136_server cfg n.server x fun c p u w h => absurd h (hne c p u w))
        rw [g2] at this
        exact (ih c w hw).follow hr hb (by rw [this]; exact hb1) g1 (answers_follow cfg n.server x hne) (by rw [this]; simp [hs1])
      · exact ih d v ((acts c w1 x hx).1 hc)
    cases e with
    | accept c =>
      simp only [Net.step] at hv
      split at hv
      · exact ih d v hv
      · simp only [Map.get_insert] at hv
        split at hv
        · cases hv
          exact ⟨[], [], rfl, rfl, .inl ⟨rfl, fun _ => rfl⟩⟩
        · exact ih d v hv
    | data c bytes =>
      rcases onw c _ hv with h | ⟨w, hw, hr, h⟩
      · exact ih d v h
      · split at h
        · split at h
          · exact quiet c w _ hw hr (close_silent cfg n.server c) h
          · simp only [Map.get_insert] at h
            split at h
            · cases h
              exact (ih c w hw).silent hr rfl rfl
            · exact ih d v h
        · exact ih d v h
    | turn c u wr =>
      rcases onw c _ hv with h | ⟨w, hw, hr, h⟩
      · exact ih d v h
      · split at h
        · exact ih d v h
        · rename_i p rest _
          cases hb : w.begun with
          | true =>
            simp only [hb, if_true] at h
            exact goes c w { w with buf := rest, begun := true } (.recv c p) hw hr hb rfl rfl (by rintro _ _ _ _ ⟨⟩) h
          | false =>
            simp only [hb, Bool.false_eq_true, if_false] at h
            by_cases hc : c = d
            · have hk : n.server.conns.get c = none := by
                cases hk : n.server.conns.get c with
                | none => rfl
                | some k =>
                  obtain ⟨w0, h0, _, h1⟩ := (hN.opened c).mp ⟨k, hk⟩
                  rw [hw] at h0
                  cases h0
                  rw [hb] at h1
                  cases h1
              obtain ⟨e1, e2⟩ := (acts c _ _ h).2 hc
              obtain ⟨bs, g1, g2⟩ := writePackets_all (C136_server cfg n.server (.first c p u wr)
                (by rintro _ _ _ _ ⟨⟩; exact hue _ _ _ rfl))
              rw [g2] at e1 e2
              have hrun := e2 rfl rfl
              obtain ⟨ps, cs, i1, i2, i3⟩ := ih c w hw
              have hnil : ps = [] := by
                rcases i3 with ⟨h, _⟩ | ⟨_, _, _, _, h⟩ | ⟨_, _, _, _, _, h⟩
                · exact h
                · rw [hb] at h; cases h
                · rw [hb] at h; cases h
              have hs : w.sent = [] := by
                subst hnil
                cases cs with
                | nil => exact i2
                | cons => cases i1
              refine ⟨_, bs, g1, by rw [e1]; simp [hs], ?_⟩
              have hbeg : v.begun = true := by rw [e1]
              rcases first_answer cfg n.server c p u wr hk with ⟨f1, f2⟩ | ⟨a, f1, f2, f3⟩ | ⟨a, rest, f1, f2, f3⟩
              · rw [f2] at hrun
                exact .inl ⟨f1, fun h => by rw [hrun] at h; cases h⟩
              · rw [f3] at hrun
                exact .inr (.inl ⟨a, f1, f2, hrun, hbeg⟩)
              · exact .inr (.inr ⟨a, rest, f1, f2, f3, hbeg⟩)
            · exact ih d v ((acts c _ _ h).1 hc)
        · exact quiet c w _ hw hr (close_silent cfg n.server c) h
        · exact quiet c w _ hw hr rfl h
    | deliver c f =>
      rcases onw c _ hv with h | ⟨w, hw, hr, h⟩
      · exact ih d v h
      · split at h
        · rename_i hb
          exact goes c w w (.deliver c f) hw hr hb hb rfl (by rintro _ _ _ _ ⟨⟩) h
        · exact ih d v h
    | close c =>
      rcases onw c _ hv with h | ⟨w, hw, hr, h⟩
      · exact ih d v h
      · exact quiet c w _ hw hr (close_silent cfg n.server c) h

/-- A client that connects and pings: a CONNACK and a PINGRESP. -/
example : (((Net.init.run .debug {} [.accept 0, .data 0 ([0x10, 14, 0, 4, 77, 81, 84, 84, 5, 2, 0, 60, 0, 0, 1, 99] ++ [0xc0, 0]),
      .turn 0 (str "u") true, .turn 0 (str "u") true]).wires.get 0).map fun w => (w.running, w.begun, w.sent)) =
    some (true, true, [0x20, 3, 0, 0, 0] ++ [0xd0, 0]) := by decide +kernel

/-- One that is refused gets its CONNACK, and what it sent in advance is not answered. -/
example : (((Net.init.run .debug { requireAuth := true } [.accept 0,
      .data 0 ([0x10, 14, 0, 4, 77, 81, 84, 84, 5, 2, 0, 60, 0, 0, 1, 99] ++ [0xc0, 0]),
      .turn 0 (str "u") true, .turn 0 (str "u") true]).wires.get 0).map fun w => (w.running, w.begun, w.sent)) =
    some (false, true, [0x20, 3, 0, 0x86, 0]) := by decide +kernel

/-- C137: once a connection is over the server writes nothing more on it, and reads nothing more, whatever happens. -/
theorem C137_over (m : Mode) (cfg : AuthConfig) (c : Nat) (w : Wire) (hr : w.running = false) (ns : List NetEvent) :
    ∀ n : Net, n.wires.get c = some w → (n.run m cfg ns).wires.get c = some w := by
  induction ns with
  | nil => exact fun n h => h
  | cons e ns ih =>
    intro n hw
    refine ih (n.step m cfg e) ?_
    have onw : ∀ (d : Nat) (f : Wire → Net), (∀ v, n.wires.get d = some v → d ≠ c → (f v).wires.get c = some w) →
        (n.onWire d f).wires.get c = some w := by
      intro d f hf
      unfold Net.onWire
      cases hd : n.wires.get d with
      | none => exact hw
      | some v =>
        simp only
        split
        · rename_i hv
          refine hf v hd fun e => ?_
          rw [e, hw] at hd
          cases hd
          rw [hr] at hv
          cases hv
        · exact hw
    have other : ∀ (d : Nat) (v : Wire) (x : Event), d ≠ c → (n.act cfg d v x).wires.get c = some w := by
      intro d v x hd
      simp only [Net.act, Map.get_insert, if_neg hd]
      exact hw
    cases e with
    | accept d =>
      simp only [Net.step]
      split
      · exact hw
      · rename_i hd
        have : d ≠ c := by rintro rfl; rw [hw] at hd; cases hd
        simp only [Map.get_insert, if_neg this]
        exact hw
    | data d bytes =>
      refine onw d _ fun v _ hd => ?_
      split
      · split
        · exact other d v _ hd
        · simp only [Map.get_insert, if_neg hd]
          exact hw
      · exact hw
    | turn d u wr =>
      refine onw d _ fun v _ hd => ?_
      split
      · exact hw
      · exact other d _ _ hd
      · exact other d _ _ hd
      · exact other d _ _ hd
    | deliver d f =>
      refine onw d _ fun v _ hd => ?_
      split
      · exact other d _ _ hd
      · exact hw
    | close d => exact onw d _ fun v _ hd => other d _ _ hd

/-! ## The client -/

theorem called_sent {c : Client} {p q : Packet} {ok : Bool} {r : CallResult} (h : (c.call p ok r).2.sent = some q) : q = p := by
  unfold Client.call at h
  split at h <;> cases h
  rfl

/-- One turn writes a packet that may follow the CONNECT; a DISCONNECT ends the loop. -/
theorem client_sends {c : Client} {i : ClientIn} {q : Packet} (h : (c.step i).2.sent = some q) :
    FollowsConnect q ∧ ((∃ d, q = .disconnect d) → (c.step i).1.running = false) := by
  by_cases hi : i = .recv
  · subst hi
    simp only [Client.step, if_true, Client.take] at h
    split at h <;> cases h
  by_cases hb : c.blocked
  · simp [Client.step, hi, hb] at h
  cases hr : c.running with
  | false =>
    have : c.step i = c.refuse i := by simp [Client.step, hi, hb, hr]
    rw [this] at h
    cases i <;> cases h
  | true =>
    have : c.step i = c.turn i := by simp [Client.step, hi, hb, hr]
    rw [this] at h ⊢
    cases i with
    | read x ok =>
      cases x with
      | packet p =>
        simp only [Client.turn, Client.incoming] at h
        split at h
        · split at h
          · split at h <;> cases h
            exact ⟨trivial, by rintro ⟨d, ⟨⟩⟩⟩
          · cases h
        · cases h
        · cases h
      | closed => cases h
      | error => cases h
      | panicked => cases h
    | publish t pl q' r ok =>
      have := called_sent h
      subst this
      exact ⟨trivial, by rintro ⟨d, ⟨⟩⟩⟩
    | subscribe l ok =>
      have := called_sent h
      subst this
      exact ⟨trivial, by rintro ⟨d, ⟨⟩⟩⟩
    | unsubscribe l ok =>
      have := called_sent h
      subst this
      exact ⟨trivial, by rintro ⟨d, ⟨⟩⟩⟩
    | disconnect ok =>
      have := called_sent h
      subst this
      exact ⟨trivial, fun _ => rfl⟩
    | tick ok =>
      simp only [Client.turn] at h
      split at h <;> cases h
      exact ⟨trivial, by rintro ⟨d, ⟨⟩⟩⟩
    | recv => exact absurd rfl hi

/-- C137 for the client: whatever the application calls and whatever arrives, a connected client writes only packets that may follow its
CONNECT (so no second CONNECT), and nothing after a DISCONNECT. -/
theorem C137_client (is : List ClientIn) : ∀ c : Client,
    (∀ q ∈ (c.run is).2.filterMap (·.sent), FollowsConnect q) ∧
    ∀ before d after, (c.run is).2.filterMap (·.sent) = before ++ .disconnect d :: after → after = [] := by
  induction is with
  | nil => exact fun c => ⟨by simp [Client.run], by simp [Client.run]⟩
  | cons i is ih =>
    intro c
    obtain ⟨h1, h2⟩ := ih (c.step i).1
    have hrun : (c.run (i :: is)).2 = (c.step i).2 :: ((c.step i).1.run is).2 := rfl
    rw [hrun]
    cases hs : (c.step i).2.sent with
    | none => simpa [List.filterMap_cons, hs] using ⟨by simpa using h1, h2⟩
    | some q =>
      obtain ⟨g1, g2⟩ := client_sends hs
      have e : ((c.step i).2 :: ((c.step i).1.run is).2).filterMap (·.sent) = q :: ((c.step i).1.run is).2.filterMap (·.sent) := by
        simp [List.filterMap_cons, hs]
      rw [e]
      refine ⟨?_, ?_⟩
      · intro x hx
        rcases List.mem_cons.mp hx with rfl | hx
        · exact g1
        · exact h1 x hx
      · intro before d after he
        cases before with
        | nil =>
          simp only [List.nil_append, List.cons.injEq] at he
          have hend := g2 ⟨d, he.1⟩
          rw [← he.2]
          refine List.filterMap_eq_nil_iff.mpr fun o ho => ?_
          exact ((C81_after_the_end is _ hend).2.1 o ho).1
        | cons b before =>
          simp only [List.cons_append, List.cons.injEq] at he
          exact h2 before d after he.2

/-- A client that publishes, disconnects and is asked to publish again. -/
example : (Client.run {} [.publish (str "a") [] .atMostOnce false true, .disconnect true,
      .publish (str "b") [] .atMostOnce false true]).2.filterMap (·.sent) =
    [.publish { dup := false, qos := .atMostOnce, retain := false, topicName := str "a", packetId := none, payload := some [] },
     .disconnect { reason := .normalDisconnection }] := by decide +kernel

end Mercurio
