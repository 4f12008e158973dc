import Verif.Props.AfterPing

/-!
# C103: the will of a client with keep-alive 0
-/

namespace Mercurio

open Spec Server

theorem mem_client_of_byClient {d : Nat} {cs : List Call} (h : byClient d (callsPub cs) ≠ []) :
    ∃ t mm, Call.publish (.client d) t mm ∈ cs := by
  induction cs with
  | nil => exact absurd rfl h
  | cons x cs ih =>
    have hx : callsPub (x :: cs) = callsPub [x] ++ callsPub cs := callsPub_append [x] cs
    rw [hx, byClient_append] at h
    cases x with
    | publish s t mm =>
      by_cases hs : s = .client d
      · subst hs
        exact ⟨t, mm, by simp⟩
      · have : byClient d (callsPub [Call.publish s t mm]) = [] := by simp [byClient, callsPub, callPub, hs]
        rw [this] at h
        obtain ⟨t', m', hm⟩ := ih h
        exact ⟨t', m', List.mem_cons_of_mem _ hm⟩
    | _ =>
      obtain ⟨t', m', hm⟩ := ih h
      exact ⟨t', m', List.mem_cons_of_mem _ hm⟩

/-- A client with keep-alive 0: the broker has no message of it, or the server has ended the connection and has not
published the will. -/
def ZeroWill (cfg : AuthConfig) (c : Nat) (σ : System) (es : List Event) : Prop :=
  byClient c (callsPub (Server.run cfg Server.init es).world.log) = [] ∨
    ∃ w, σ.net.wires.get c = some w ∧ w.running = false ∧ willsNow cfg c es = []

theorem zeroWill_step {m : Mode} {cfg : AuthConfig} {σ : System} {es : List Event} (h : SysInv cfg σ es) {c : Nat}
    {e : SysEvent} {ex : List Event} (hg : Grows m cfg σ (σ.step m cfg e) ex)
    (h1 : SysInv cfg (σ.step m cfg e) (es ++ ex)) {p' : Peer} (he : e.Ordinary)
    (hp' : (σ.step m cfg e).peers.get c = some p') (hka : p'.opts.keepAlive = 0)
    (hcl : p'.opts.cleanStart = true) (hap : (σ.step m cfg e).Apart c p')
    (hz : ZeroWill cfg c σ es) : ZeroWill cfg c (σ.step m cfg e) (es ++ ex) := by
  obtain ⟨w', hw'⟩ := Option.isSome_iff_exists.mp ((h1.ends c).mpr (by rw [hp']; rfl))
  rcases hz with hz | ⟨w, hw, hr, hn⟩
  · by_cases hb : byClient c (callsPub (Server.run cfg Server.init (es ++ ex)).world.log) = []
    · exact Or.inl hb
    -- one event, and perhaps an abort
    have one : ∃ x, (ex = [x] ∨ ∃ d, ex = [x, .abort d]) := by
      rcases hg with ⟨rfl, _⟩ | ⟨ne, hx, _⟩
      · rw [List.append_nil] at hb; exact absurd hz hb
      · rcases hx with rfl | ⟨x, _, rfl | rfl⟩
        · rw [List.append_nil] at hb; exact absurd hz hb
        · exact ⟨x, Or.inl rfl⟩
        · exact ⟨x, Or.inr ⟨_, rfl⟩⟩
    obtain ⟨x, hx⟩ := one
    generalize hsrv : Server.run cfg Server.init es = srv at *
    have hlog : (Server.run cfg Server.init (es ++ ex)).world.log = srv.world.log ++ eventCalls cfg srv x := by
      rcases hx with rfl | ⟨d, rfl⟩
      · rw [run_snoc, step_log, hsrv]
      · have : es ++ [x, Event.abort d] = (es ++ [x]) ++ [Event.abort d] := by simp
        rw [this, run_snoc, step_log, run_snoc, step_log, hsrv]
        simp [eventCalls]
    rw [hlog, callsPub_append, byClient_append, hz, List.nil_append] at hb
    obtain ⟨t, mm, hm⟩ := mem_client_of_byClient hb
    -- it is a packet of the client
    have hrecv : ∃ q, x = .recv c q := by
      refine Classical.byContradiction fun hne => ?_
      exact eventCalls_other (cfg := cfg) (srv := srv) (fun q hq => hne ⟨q, hq⟩) t mm hm
    obtain ⟨q, rfl⟩ := hrecv
    have hpk : packetsOf c (es ++ ex) = packetsOf c es ++ [q] := by
      rw [packetsOf_append]
      rcases hx with rfl | ⟨d, rfl⟩ <;> simp [packetsOf]
    have hat : ∃ s, srv.at c = some s := by
      cases ha : srv.at c with
      | none => simp [eventCalls, ha] at hm
      | some s => exact ⟨s, rfl⟩
    obtain ⟨s, hs⟩ := hat
    have hqq : ∃ P, q = .publish P ∧ ValidTopic P.topicName := by
      simp only [eventCalls, hs] at hm
      rcases List.mem_append.mp hm with hm | hm
      · cases q with
        | publish P =>
          simp only [packetCalls] at hm
          split at hm
          · exact ⟨P, rfl, by assumption⟩
          · simp at hm
        | subscribe P => simp [packetCalls] at hm
        | _ => simp [packetCalls] at hm
      · exfalso
        split at hm
        · simp at hm
        · unfold willCalls at hm
          split at hm <;> simp at hm
    obtain ⟨P, rfl, hv⟩ := hqq
    -- the client sent it
    obtain ⟨k, hk⟩ := h1.packets hp'
    have hmem : Packet.publish P ∈ (p'.outgoing.take k).map Packet.received := by
      rw [← hk, hpk]; simp
    obtain ⟨y, hy, hyq⟩ := List.mem_map.mp hmem
    have hys : ∃ Q, y = .publish Q := by
      cases y <;> first | exact ⟨_, rfl⟩ | cases hyq
    obtain ⟨Q, rfl⟩ := hys
    have hsent : Packet.publish Q ∈ p'.sents := by
      have := List.mem_of_mem_take hy
      simp only [Peer.outgoing, List.mem_cons] at this
      exact this.resolve_left (by simp)
    have hgood := ((h1.peer c p' hp').okFrom _ hsent).good
    have hopen : (srv.step cfg (.recv c (.publish P))).1.isOpen c := by
      rw [← hyq]
      refine recv_stays hs (Or.inl ?_) hgood
      cases hyq
      exact hv
    -- no will before, and none now
    have ho : σ.net.server.isOpen c := by rw [h.net.server, hsrv]; exact isOpen_of_at hs
    obtain ⟨w, hw, hr, hbeg⟩ := (h.net.opened c).mp ho
    obtain ⟨p, hp⟩ := Option.isSome_iff_exists.mp ((h.ends c).mp (by rw [hw]; rfl))
    obtain ⟨p2, _, hp2, _, hev⟩ := step_evolved (moves m cfg σ e) hg hp hw
    have := Option.some.inj (hp2.symm.trans hp')
    subst this
    have hap0 : σ.Apart c p := apart_before h [e] (by simpa using he) hev.opts hap
    have h0 := (h.running_wills hp hw hr hbeg hap0 (by rw [← hev.opts]; exact hcl)).1
    refine Or.inr ⟨w', hw', ?_, ?_⟩
    · cases hr' : w'.running with
      | false => rfl
      | true =>
        exfalso
        have hb' : w'.begun = true := by
          cases hbb : w'.begun with
          | true => rfl
          | false =>
            have := h1.net.begun c w' hw' hbb
            rw [hpk] at this
            simp at this
        have hl := h1.net.zero c w' hw' hr' (by rw [h1.keepalive hp' hw' hb']; exact hka)
        obtain ⟨y, hy, _⟩ := h.net.kept c w hw hbeg
        rw [hpk] at hl
        cases hpe : packetsOf c es with
        | nil => rw [hpe] at hy; cases hy
        | cons a l => rw [hpe] at hl; simp at hl
    · unfold willsNow at h0 ⊢
      rw [hsrv] at h0
      rw [hlog, willPublications_append, h0, List.nil_append]
      simp only [eventCalls, hs]
      rw [willPublications_append, willPublications_packet, if_pos (Or.inr hopen)]
      rfl
  · exact Or.inr ⟨w', hw', stays_ended hg hw hr hw', by rw [wills_closed h hw hr hg]; exact hn⟩

theorem zeroWill_run {m : Mode} {cfg : AuthConfig} (evs : List SysEvent) (hord : ∀ e ∈ evs, e.Ordinary) :
    ∃ es, SysInv cfg (System.init.run m cfg evs) es ∧
      ∀ c p, (System.init.run m cfg evs).peers.get c = some p → p.opts.keepAlive = 0 → p.opts.cleanStart = true →
        (System.init.run m cfg evs).Apart c p → ZeroWill cfg c (System.init.run m cfg evs) es := by
  induction evs using snoc_induction with
  | h0 => exact ⟨[], sysInv_init cfg, fun c p hp => by simp [System.run, System.init, Map.get] at hp⟩
  | hs evs e ih =>
    obtain ⟨es, hi, hz⟩ := ih fun x hx => hord x (List.mem_append_left _ hx)
    have erun : System.init.run m cfg (evs ++ [e]) = (System.init.run m cfg evs).step m cfg e := by
      simp [System.run]
    rw [erun]
    generalize System.init.run m cfg evs = σ at *
    have he : e.Ordinary := hord e (by simp)
    obtain ⟨ex, hg, h1⟩ := hi.step he (moves m cfg σ e)
    refine ⟨es ++ ex, h1, fun c p' hp' hka hcl hap => ?_⟩
    refine zeroWill_step hi hg h1 he hp' hka hcl hap ?_
    cases hw : σ.net.wires.get c with
    | none =>
      left
      have := (hi.log c).1
      rw [(hi.net.unused c hw).1] at this
      exact List.prefix_nil.mp this
    | some w =>
      obtain ⟨p, hp⟩ := Option.isSome_iff_exists.mp ((hi.ends c).mp (by rw [hw]; rfl))
      obtain ⟨p2, _, hp2, _, hev⟩ := step_evolved (moves m cfg σ e) hg hp hw
      have := Option.some.inj (hp2.symm.trans hp')
      subst this
      exact hz c p hp (by rw [← hev.opts]; exact hka) (by rw [← hev.opts]; exact hcl)
        (apart_before hi [e] (by simpa using he) hev.opts hap)

/-- C103 is false for every client that connected with keep-alive 0 and of which the server has published at least
one message, always: the server has ended the connection, and the will of the client has not been published and
never will be (the theorem holds for every longer history as well).  Nothing is said of the application: it need not
have called `disconnect`, see the example.  As in C103, the client starts clean and does not share its session. -/
theorem C103_keep_alive_zero_false (m : Mode) (cfg : AuthConfig) (evs : List SysEvent)
    (hord : ∀ e ∈ evs, e.Ordinary) :
    let σ := System.init.run m cfg evs
    ∃ L, PublishedBetween System.init σ L ∧
      ∀ c p, σ.peers.get c = some p → p.opts.keepAlive = 0 → p.opts.cleanStart = true → σ.Apart c p →
        byClient c L ≠ [] →
        willsOf c L = [] ∧ ∃ w, σ.net.wires.get c = some w ∧ w.running = false := by
  intro σ
  obtain ⟨es, hi, hz⟩ := zeroWill_run (m := m) (cfg := cfg) evs hord
  have hs := heard_since m cfg [] evs (by simpa using hord) σ.net.server.world.log (by
    show σ.net.server.world.log = [] ++ σ.net.server.world.log
    rw [List.nil_append])
  refine ⟨callsPub σ.net.server.world.log, hs.1, fun c p hp hka hcl hap hne => ?_⟩
  have hlog : σ.net.server.world.log = (Server.run cfg Server.init es).world.log := by rw [hi.net.server]
  rcases hz c p hp hka hcl hap with h | ⟨w, hw, hr, hn⟩
  · rw [hlog] at hne
    exact absurd h hne
  · refine ⟨?_, w, hw, hr⟩
    unfold willsNow at hn
    rw [willsOf_calls, hlog, hn]
    rfl

/-! ## An example -/

/-- A subscriber of `a/+`, and a client with a will and keep-alive 0, which publishes; then its connection is gone. -/
def exZero : List SysEvent := [
  .connect 0 { clientId := some (str "s") }, .serverRead 0 4096, .serverTurn 0 (str "u") true,
  .clientRead 0 4096, .clientTurn 0 true,
  .app 0 (.subscribe [(str "a/+", .atLeastOnce)] true), .serverRead 0 4096, .serverTurn 0 (str "u") true,
  .clientRead 0 4096, .clientTurn 0 true,
  .connect 1 { clientId := some (str "p"), keepAlive := 0, will := some ⟨str "a/w", str "gone", .atMostOnce, false⟩ },
  .serverRead 1 4096, .serverTurn 1 (str "v") true, .clientRead 1 4096, .clientTurn 1 true,
  .app 1 (.publish (str "a/b") (str "hi") .atMostOnce false true), .serverRead 1 4096, .serverTurn 1 (str "v") true,
  .clientError 1, .serverRead 1 4096, .deliver 0 (str "a/+"), .deliver 0 (str "a/+"),
  .clientRead 0 4096, .clientTurn 0 true, .clientTurn 0 true]

theorem exZero_ordinary : ∀ e ∈ exZero, e.Ordinary := by
  simp only [exZero, List.forall_mem_cons]
  refine ⟨⟨⟨?_, ?_, ?_, ?_⟩, ?_⟩, trivial, (by decide : TextField _), trivial, trivial,
    ⟨by simp, by simp; decide, by decide⟩, trivial, (by decide : TextField _), trivial, trivial,
    ⟨⟨?_, ?_, ?_, ?_⟩, ?_⟩, trivial, (by decide : TextField _), trivial, trivial,
    ⟨by decide, by simp, by decide⟩, trivial, (by decide : TextField _), trivial, trivial, trivial, trivial, trivial,
    trivial, trivial, by simp⟩
  · intro s hs; cases hs; decide
  · intro s hs; cases hs
  · intro s hs; cases hs
  · intro s hs; cases hs
  · intro s hs; cases hs
  · intro s hs; cases hs; decide
  · intro s hs; cases hs
  · intro s hs; cases hs
  · intro s hs; cases hs; decide
  · intro s hs; cases hs; exact ⟨(C22_publish_topic_iff _).mp (by decide +kernel), rfl⟩

/-- The subscriber gets the message and not the will, and the application of the other client has not left. -/
example : let σ := System.init.run .release {} exZero
    (∃ p, σ.peers.get 1 = some p ∧ p.opts.keepAlive = 0 ∧ p.opts.cleanStart = true ∧ σ.Apart 1 p ∧ ¬ p.left ∧
      p.will = [⟨str "a/w", str "gone", .atMostOnce, false⟩]) ∧
    (σ.peers.get 0).map (·.heard) = some [⟨str "a/+", str "hi", .atMostOnce, false⟩] := by
  intro σ
  refine ⟨?_, by decide +kernel⟩
  have h : (match σ.peers.get 1 with
    | some p => p.opts.cleanStart && p.opts.keepAlive == 0 && p.will == [⟨str "a/w", str "gone", .atMostOnce, false⟩] &&
        p.history.all fun x => match x.1 with
          | .disconnect _ => false
          | _ => true
    | _ => false) = true := by decide +kernel
  split at h
  · rename_i p hp
    simp only [Bool.and_eq_true, beq_iff_eq] at h
    obtain ⟨⟨⟨h1, h2⟩, h3⟩, h4⟩ := h
    refine ⟨p, hp, h2, h1, apart_check hp (by decide +kernel), ?_, h3⟩
    rintro ⟨ok, o, ho, _⟩
    have := List.all_eq_true.mp h4 _ ho
    cases this
  · cases h

end Mercurio
