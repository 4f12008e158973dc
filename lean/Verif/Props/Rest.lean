import Verif.Lemmas.Rest
import Verif.Props.SettleAll

/-!
# C108: left alone, the system comes to rest, with everything delivered
-/

namespace Mercurio

open Spec Server

theorem live_run_all {m : Mode} {cfg : AuthConfig} {C : List Nat} (evs : List SysEvent) (hord : ∀ e ∈ evs, e.Ordinary)
    (hh : ∀ c ∈ C, ∀ e ∈ evs, e.Harmless c) : ∀ {σ : System} {es : List Event}, SysInv cfg σ es → σ.GotSent →
      (∀ c ∈ C, ∃ p w, σ.Up c p w ∧ w.begun = true ∧ Pending c p es ∧ Tracked cfg c 0 σ es ∧ ReadsWell m cfg c σ evs ∧
        (σ.run m cfg evs).Apart c p) →
      ∃ es', AllLive cfg C (σ.run m cfg evs) es' := by
  induction evs with
  | nil =>
    intro σ es h hg hC
    refine ⟨es, h, fun c hc => ?_⟩
    obtain ⟨p, w, hup, hb, hp, ht, _, ho⟩ := hC c hc
    exact ⟨p, w, h, hup, hb, hp, ht, ho, hg⟩
  | cons e evs ih =>
    intro σ es h hgs hC
    have hm := moves m cfg σ e
    obtain ⟨ex, hg, h1⟩ := h.step (hord e (by simp)) hm
    refine ih (fun x hx => hord x (by simp [hx])) (fun c hc x hx => hh c hc x (by simp [hx])) h1 (gotSent_step h hgs e) ?_
    intro c hc
    obtain ⟨p, w, hup, hb, hpend, htr, ⟨r1, r2, r3⟩, ho⟩ := hC c hc
    obtain ⟨k, _, hd⟩ := htr p w hup.peer hup.wire hup.server (up_socket hup)
      (solo_now h (e :: evs) hord hup.peer ho)
    obtain ⟨p1, w1, N, u1, u2, u3, u4⟩ := up_step (m := m) h hup hb hpend hd (hord e (by simp)) r2 (hh c hc e (by simp))
    have hid : p1.opts = p.opts := by
      obtain ⟨p2, w2, a, _, hev⟩ := step_evolved hm hg hup.peer hup.wire
      rw [u1.peer] at a; cases a
      exact hev.opts
    refine ⟨p1, w1, u1, u2, hpend.grow (h.packets_le hup.peer) N u3 u4,
      tracked_step h h1 hm rfl hg r1 r2 (Or.inl rfl) htr, r3, ?_⟩
    intro d q hd hq
    unfold Peer.clientId
    rw [hid]; exact ho d q hd hq

/-- From a time when nothing was in transit to the server. -/
theorem live_since_all (m : Mode) (cfg : AuthConfig) (evs1 evs2 : List SysEvent) (C : List Nat)
    (hord : ∀ e ∈ evs1 ++ evs2, e.Ordinary) (hreads : ∀ c ∈ C, ReadsWell m cfg c System.init (evs1 ++ evs2))
    (hh : ∀ c ∈ C, ∀ e ∈ evs2, e.Harmless c) (hq : ∀ c ∈ C, (System.init.run m cfg evs1).QuietUp c)
    (hka : ∀ c ∈ C, (System.init.run m cfg evs1).Timed c)
    (ho : ∀ c ∈ C, ∀ p, ((System.init.run m cfg evs1).run m cfg evs2).peers.get c = some p →
      ((System.init.run m cfg evs1).run m cfg evs2).Apart c p) :
    ∃ es, AllLive cfg C ((System.init.run m cfg evs1).run m cfg evs2) es := by
  have ho1 : ∀ e ∈ evs1, e.Ordinary := fun e he => hord e (List.mem_append_left _ he)
  have ho2 : ∀ e ∈ evs2, e.Ordinary := fun e he => hord e (List.mem_append_right _ he)
  obtain ⟨es, hx⟩ := history (m := m) evs1 ho1 (sysInv_init cfg)
  have hi : SysInv cfg (System.init.run m cfg evs1) es := hx.inv
  refine live_run_all evs2 ho2 hh hi (gotSent_run evs1 ho1 (sysInv_init cfg) gotSent_init) fun c hc => ?_
  obtain ⟨rw1, rw2⟩ := readsWell_append evs1 (hreads c hc)
  obtain ⟨p, w, hup, q1, q2⟩ := hq c hc
  obtain ⟨hall, hb, _⟩ := hi.quiet hup.peer hup.wire hup.server q1 q2
  have hsent := (hi.quiet_sent hup.peer hup.wire hup.server q1 q2).2
  refine ⟨p, w, hup, hb, ⟨hsent.noPing, fun q hq => ?_, hka c hc p hup.peer⟩, ?_, rw2, ?_⟩
  · rw [hall, List.length_map, List.drop_length] at hq
    cases hq
  · exact hx.track c 0 rw1 (Or.inl rfl) (by intro p w hp; simp [System.init, Map.get] at hp)
  · intro d q hd hq
    obtain ⟨ext, hx2⟩ := history (m := m) evs2 ho2 hi
    obtain ⟨p2, w2, hp2, _, hev⟩ := hx2.peer c p w hup.peer hup.wire
    have := ho c hc p2 hp2 d q hd hq
    unfold Peer.clientId at this ⊢
    rwa [hev.opts] at this

theorem along_run (m : Mode) (cfg : AuthConfig) (σ : System) (ev : Nat → SysEvent) (n : Nat) :
    σ.run m cfg ((List.range n).map ev) = σ.along m cfg ev n := by
  induction n with
  | zero => rfl
  | succ n ih =>
    rw [List.range_succ, List.map_append, run_append, ih]
    rfl

theorem readOk_along {m : Mode} {cfg : AuthConfig} {c : Nat} {σ : System} {ev : Nat → SysEvent} {n : Nat}
    (h : ReadsWell m cfg c σ ((List.range (n + 1)).map ev)) : ReadOk m cfg c (σ.along m cfg ev n) (ev n) := by
  rw [List.range_succ, List.map_append] at h
  have := (readsWell_append _ h).2
  rw [along_run] at this
  exact this.1

/-- C108: left alone, the system comes to rest.  `C` are clients that were connected with a keep-alive other than 0 and
nothing in transit to the server, and since then nothing ended their connections on purpose (as in C75, C107).  From now on nothing happens but
what happens by itself on these connections: `ev 0`, `ev 1`, … are any such events, in any order and without end.
Then from some time on nothing passes on any connection any more.  (No message is sent twice, no
acknowledgement is answered, and nothing goes round in circles.) -/
theorem C108_comes_to_rest (m : Mode) (cfg : AuthConfig) (evs1 evs2 : List SysEvent) (C : List Nat)
    (hord : ∀ e ∈ evs1 ++ evs2, e.Ordinary) (hreads : ∀ c ∈ C, ReadsWell m cfg c System.init (evs1 ++ evs2))
    (hh : ∀ c ∈ C, ∀ e ∈ evs2, e.Harmless c) :
    let σ1 := System.init.run m cfg evs1
    let σ2 := σ1.run m cfg evs2
    (∀ c ∈ C, σ1.QuietUp c) → (∀ c ∈ C, σ1.Timed c) →
    (∀ c ∈ C, ∀ p, σ2.peers.get c = some p → σ2.Apart c p) →
    ∀ ev : Nat → SysEvent, (∀ n, ∃ c ∈ C, (ev n).Own c) →
      (∀ c ∈ C, ∀ n, ReadsWell m cfg c σ2 ((List.range n).map ev)) →
      ∃ N, ∀ n, N ≤ n → ∀ d, (σ2.along m cfg ev n).passed d = (σ2.along m cfg ev N).passed d := by
  intro σ1 σ2 hq hka ho ev hown hr
  obtain ⟨es, hl⟩ := live_since_all m cfg evs1 evs2 C hord hreads hh hq hka ho
  obtain ⟨N, hN⟩ := AllLive.rest (m := m) _ σ2 es ev rfl hl (fun n => by
    obtain ⟨c, hc, he⟩ := hown n
    exact ⟨c, hc, he, readOk_along (hr c hc (n + 1))⟩)
  exact ⟨N, fun n hn d => (hN n hn).2.passed d⟩

/-- C108 (partial): left alone, the system delivers everything.  In the situation of `C108_comes_to_rest`, if no task
on the connections of `C` is put off for ever, then from some time on nothing is in transit on any of them: the
server has read and acted on everything the clients sent and has no message left for them, and the clients have read
and acted on everything the server sent.  Then there is one list `L` of messages in which every client of `C` has exactly
what its application published since the first time, in order, and every application of `C` that had subscribed to a
filter `f` before has got exactly the messages of `L` whose topic `f` matches, in the order of `L`, if they are no
more than 16.
Missing, because it is false: that reads of a client may end anywhere (C72: the rest of a packet may be taken for
another one; packets of more than 4096 bytes can not be read at all, `C106_large_message_false`), and more than 16
messages for a subscription (C112). -/
theorem C108_everything_is_delivered_partial (m : Mode) (cfg : AuthConfig) (evs1 evs2 : List SysEvent) (C : List Nat)
    (hord : ∀ e ∈ evs1 ++ evs2, e.Ordinary) (hreads : ∀ c ∈ C, ReadsWell m cfg c System.init (evs1 ++ evs2))
    (hh : ∀ c ∈ C, ∀ e ∈ evs2, e.Harmless c) :
    let σ1 := System.init.run m cfg evs1
    let σ2 := σ1.run m cfg evs2
    (∀ c ∈ C, σ1.QuietUp c) → (∀ c ∈ C, σ1.Timed c) →
    (∀ c ∈ C, ∀ p, σ2.peers.get c = some p → σ2.Apart c p) →
    ∀ ev : Nat → SysEvent, (∀ n, ∃ c ∈ C, (ev n).Own c) →
      (∀ c ∈ C, ∀ n, ReadsWell m cfg c σ2 ((List.range n).map ev)) →
      (∀ c ∈ C, Fair m cfg σ2 ev c) →
      ∃ N, ∀ n, N ≤ n →
        let σ3 := σ2.along m cfg ev n
        (∀ c ∈ C, σ3.Quiet m cfg c) ∧
        ∃ L, PublishedBetween σ1 σ3 L ∧
          (∀ d ∈ C, ∀ q1 q2, σ1.peers.get d = some q1 → σ2.peers.get d = some q2 →
            q2.published = q1.published ++ byClient d L) ∧
          ∀ c ∈ C, ∀ f p1, ValidFilter f → σ1.Quiet m cfg c → σ1.peers.get c = some p1 → p1.subscribedTo f →
            (∀ i, SysEvent.app c i ∈ evs2 → ¬ i.Names f) → (heardFor f L).length ≤ 16 →
            ∃ p3, σ3.peers.get c = some p3 ∧ p3.heardOn f = p1.heardOn f ++ heardFor f L := by
  intro σ1 σ2 hq hka ho ev hown hr hfair
  obtain ⟨es, hl⟩ := live_since_all m cfg evs1 evs2 C hord hreads hh hq hka ho
  obtain ⟨N, hN⟩ := AllLive.rest (m := m) _ σ2 es ev rfl hl (fun n => by
    obtain ⟨c, hc, he⟩ := hown n
    exact ⟨c, hc, he, readOk_along (hr c hc (n + 1))⟩)
  refine ⟨N, fun n hn => ?_⟩
  have hlive : ∀ k, N ≤ k → ∀ c ∈ C, ∃ es p w, Live cfg c (σ2.along m cfg ev k) es p w := by
    intro k hk c hc
    obtain ⟨⟨es', _, h⟩, _⟩ := hN k hk
    obtain ⟨p, w, h⟩ := h c hc
    exact ⟨es', p, w, h⟩
  have hquiet : ∀ c ∈ C, (σ2.along m cfg ev n).Quiet m cfg c :=
    fun c hc => quiet_of_fair (fun k hk => ⟨hlive k hk c hc, (hN k hk).2⟩) (hfair c hc) n hn
  refine ⟨hquiet, ?_⟩
  refine arrived m cfg evs1 evs2 ((List.range n).map ev) C hord hreads hq ?_ (fun c hc => hr c hc n) ?_ _
    (along_run m cfg σ2 ev n)
  · intro e he
    obtain ⟨k, _, rfl⟩ := List.mem_map.mp he
    exact hown k
  · intro c hc
    have e : (σ1.run m cfg evs2).run m cfg ((List.range n).map ev) = σ2.along m cfg ev n := along_run m cfg σ2 ev n
    rw [e]
    exact ⟨hlive n hn c hc, hquiet c hc⟩

/-! ## Examples -/

/-- What happens after the other client has called `publish`: the message goes to the server, to the client, to its
application, and its acknowledgement to the server; then the server tries to read for ever. -/
def exRestPart : List SysEvent :=
  exSysPub.drop 1 ++ [.app 0 .recv, .clientRead 1 4096, .clientTurn 1 true]

@[inherit_doc exRestPart]
def exRest : Nat → SysEvent := fun n => exRestPart[n]?.getD (.serverRead 0 1)

/-- The system at rest. -/
def exRest3 : System := exSys2.run .debug {} [.app 0 .recv, .clientRead 1 4096, .clientTurn 1 true]

theorem exRest_prefix (n : Nat) : (List.range n).map exRest =
    exRestPart.take n ++ List.replicate (n - 12) (.serverRead 0 1) := by
  have hlen : exRestPart.length = 12 := rfl
  generalize hL : exRestPart = L at hlen
  refine List.ext_getElem ?_ ?_
  · simp only [List.length_map, List.length_range, List.length_append, List.length_take, List.length_replicate, hlen]
    omega
  · intro i h1 h2
    simp only [List.getElem_map, List.getElem_range, exRest, hL]
    simp only [List.length_map, List.length_range] at h1
    by_cases hi : i < 12
    · rw [List.getElem?_eq_getElem (by omega), List.getElem_append_left (by rw [List.length_take]; omega)]
      simp
    · rw [List.getElem?_eq_none (by omega), List.getElem_append_right (by rw [List.length_take]; omega)]
      simp

theorem exRest_still : exRest3.step .debug {} (.serverRead 0 1) = exRest3 := by
  obtain ⟨p, hp⟩ : ∃ p, exRest3.peers.get 0 = some p := Option.isSome_iff_exists.mp (by decide +kernel)
  have h1 : ((exRest3.peers.get 0).map fun p => (exRest3.upstream 0 p, p.socketOpen)) = some ([], true) := by
    decide +kernel
  rw [hp] at h1
  simp only [Option.map_some, Option.some.injEq, Prod.mk.injEq] at h1
  simp only [System.step, System.onPeer, hp, h1, List.take_nil, Bool.not_true, Bool.and_false, Bool.false_eq_true, if_false]

theorem exRest_along (n : Nat) (h : 12 ≤ n) : exAll2.along .debug {} exRest n = exRest3 := by
  rw [← along_run, exRest_prefix, run_append, List.take_of_length_le (by exact h)]
  have e : exAll2.run .debug {} exRestPart = exRest3 := by
    simp only [exAll2, exRest3, exSys2, exRestPart]
    rw [run_append, ← run_append .debug {} (exSysPub.take 1), List.take_append_drop]
  rw [e]
  induction (n - 12) with
  | zero => simp [System.run]
  | succ k ih => rw [List.replicate_succ]; show (exRest3.step .debug {} _).run .debug {} _ = _; rw [exRest_still]; exact ih

/-- Nothing is left to do, checked on a concrete system. -/
theorem rest_check {m : Mode} {cfg : AuthConfig} {σ : System} {c : Nat} (hq : σ.Quiet m cfg c)
    (h : ((σ.peers.get c).map fun p => (p.buf == [], (p.loop.map fun l => l.pending == []))) = some (true, some true))
    (hb : ((σ.net.wires.get c).map (·.begun)) = some true) :
    ∀ t, ∀ e : SysEvent, e.Tries c t → (σ.step m cfg e).passed c = σ.passed c := by
  obtain ⟨⟨p, w, hup, q1, q2⟩, p', w', hup', q3, q4, q5⟩ := hq
  have e1 := hup'.peer; rw [hup.peer, Option.some.injEq] at e1
  have e2 := hup'.wire; rw [hup.wire, Option.some.injEq] at e2
  subst e1 e2
  have hp := hup.peer
  have hw := hup.wire
  have hr := hup.server
  rw [hp] at h
  rw [hw] at hb
  simp only [Option.map_some, Option.some.injEq, Prod.mk.injEq, beq_iff_eq] at h hb
  obtain ⟨l, hl, hrl⟩ := up_phase hup
  have hloop : p.loop = some l := by simp [Peer.loop, hl]
  have hpend : l.pending = [] := by have := h.2; simpa [hloop] using this
  have hup0 : σ.upstream c p = [] := by simp only [System.upstream, hw, q1, List.drop_length]
  have hdn0 : σ.downstream c p = [] := by simp only [System.downstream, hw, q4, List.drop_length]
  intro t e he
  cases t with
  | serverReads =>
    obtain ⟨n, _, rfl⟩ := he
    simp only [System.step, System.onPeer, hp, hup0, List.take_nil, up_socket hup, Bool.not_true, Bool.and_false,
      Bool.false_eq_true, if_false]
  | serverActs =>
    obtain ⟨u, b, _, rfl⟩ := he
    simp only [System.step, Net.step, Net.onWire, hw, hr, if_true, q2, show parsePacket m [] = .needMore from by cases m <;> rfl]
  | sends f =>
    cases he
    have estep : σ.step m cfg (.deliver c f) = { σ with net := σ.net.act cfg c w (.deliver c f) } := by
      simp only [System.step, Net.step, Net.onWire, hw, hr, if_true, hb]
    obtain ⟨w2, a1, a2, a3, a4⟩ : ∃ w2, (σ.net.act cfg c w (.deliver c f)).wires.get c = some w2 ∧ w2.rcvd = w.rcvd ∧
        w2.buf = w.buf ∧ w2.sent = w.sent := by
      simp only [Net.act, Map.get_insert, if_true, q3 f, writePackets, List.append_nil]
      exact ⟨_, rfl, rfl, rfl, rfl⟩
    rw [estep]
    exact (passed_eq hp hw (by exact hp) (by exact a1)).mpr ⟨a2, a3, a4, rfl, rfl, rfl⟩
  | clientReads =>
    obtain ⟨n, _, rfl⟩ := he
    simp only [System.step, System.onPeer, hp, hdn0, List.take_nil, System.ended, hw, hr, Bool.not_true,
      Bool.and_false, Bool.false_eq_true, if_false]
    split <;> rfl
  | clientActs =>
    cases he
    simp only [System.step, System.onPeer, hp, q5]
    split <;> rfl
  | takes =>
    cases he
    have estep : σ.step m cfg (.app c .recv) = σ.put c (p.act l .recv) := by
      simp only [System.step, System.onPeer, hp]
      rw [hl]
    rw [estep]
    refine (passed_eq hp hw (put_get σ c _) (by exact hw)).mpr ⟨rfl, rfl, rfl, rfl, rfl, ?_⟩
    simp [Peer.act, Client.step, Client.take, hpend]

/-- What the server sends to the other client. -/
def exRestSent : List Packet := [
  .connAck { protocolVersion := .v5, sessionPresent := false, reasonCode := .success, properties := none },
  .pubAck { packetId := 1 }]

theorem exRestSent_to : SentTo .v5 exRestSent [32, 3, 0, 0, 0, 64, 2, 0, 1] := by
  have hw := writePackets_written exRestSent
  have h : writePackets exRestSent = ([32, 3, 0, 0, 0, 64, 2, 0, 1], true) := by decide +kernel
  rw [h] at hw
  obtain ⟨qs, _, h2, h3⟩ := hw
  rw [h2 rfl] at h3
  refine sentTo_of_ok h3 fun q hq => ?_
  simp only [exRestSent, List.mem_cons, List.not_mem_nil, or_false] at hq
  rcases hq with rfl | rfl
  · refine ⟨⟨by decide, fun _ => ?_⟩, [32, 3, 0, 0, 0], by decide, by unfold FitsMqtt; decide⟩
    intro _ h; cases h
  · exact ⟨(show AckPacket.Admissible _ from fun _ h => by cases h), [64, 2, 0, 1], by decide, by unfold FitsMqtt; decide⟩

theorem exRest_reads {c : Nat} (hc : c ∈ [0, 1]) (n : Nat) :
    ReadsWell .debug {} c exAll2 ((List.range n).map exRest) := by
  have tail : ∀ k (σ : System), ReadsWell .debug {} c σ (List.replicate k (SysEvent.serverRead 0 1)) := by
    intro k
    induction k with
    | zero => intro σ; trivial
    | succ k ih => intro σ; exact ⟨by simp, by simp, ih _⟩
  have front : ReadsWell .debug {} c exAll2 (exSysPub.drop 1) := by
    rcases List.mem_cons.mp hc with rfl | hc
    · have h := exSys_reads
      rw [← List.take_append_drop 1 exSysPub, ← List.append_assoc] at h
      have := (readsWell_append _ h).2
      rw [run_append] at this
      exact this
    · obtain rfl := List.mem_singleton.mp hc
      refine ⟨by simp, by decide, by simp, by decide, by simp, by decide, by simp, by decide, by simp, by decide,
        by simp, by decide, by simp, by decide, by simp, by decide, by simp, by decide, trivial⟩
  have all : ReadsWell .debug {} c exAll2 exRestPart := by
    refine readsWell_join _ front ⟨by simp, by simp, ?_, by simp, by simp, by simp, trivial⟩
    intro n hn p w hp hw
    have hc : c = 1 := by cases hn; rfl
    subst hc
    have h : ((System.step .debug {} ((exAll2.run .debug {} (exSysPub.drop 1)).step .debug {} (.app 0 .recv))
        (.clientRead 1 4096)).peers.get 1).map (fun p => (p.opts.protocolVersion, p.got)) =
          some (.v5, [32, 3, 0, 0, 0, 64, 2, 0, 1]) ∧
        ((System.step .debug {} ((exAll2.run .debug {} (exSysPub.drop 1)).step .debug {} (.app 0 .recv))
        (.clientRead 1 4096)).net.wires.get 1).map (·.sent) = some [32, 3, 0, 0, 0, 64, 2, 0, 1] := by
      decide +kernel
    rw [hp, hw] at h
    simp only [Option.map_some, Option.some.injEq, Prod.mk.injEq] at h
    rw [h.1.1, h.1.2, h.2]
    exact ⟨_, _, exRestSent_to, List.prefix_rfl, List.prefix_rfl,
      Or.inr ⟨[32, 3, 0, 0, 0], by decide, Or.inr ⟨[64, 2, 0, 1], by decide, trivial⟩⟩⟩
  rw [exRest_prefix]
  refine readsWell_join _ ?_ (tail _ _)
  rw [← List.take_append_drop n exRestPart] at all
  exact (readsWell_append _ all).1

/-- The hypotheses about what happens from now on, with a message that the server has not read yet (the other
hypotheses are those of `C107_everything_arrives_partial`, shown there to hold for the same system). -/
example : (∀ n, ∃ c ∈ [0, 1], (exRest n).Own c) ∧
    (∀ c ∈ [0, 1], ∀ n, ReadsWell .debug {} c exAll2 ((List.range n).map exRest)) ∧
    (∀ c ∈ [0, 1], Fair .debug {} exAll2 exRest c) ∧
    (∀ c ∈ [0, 1], ∃ n, (exAll2.along .debug {} exRest n).passed c ≠ exAll2.passed c) := by
  refine ⟨?_, fun c hc n => exRest_reads hc n, ?_, ?_⟩
  · intro n
    by_cases hn : n < 12
    · have all : ∀ e ∈ exRestPart, ∃ c ∈ [0, 1], e.Own c := by
        simp only [exRestPart, exSysPub, List.drop, List.cons_append, List.nil_append, List.forall_mem_cons]
        exact ⟨⟨1, by simp, rfl⟩, ⟨1, by simp, rfl, by decide⟩, ⟨0, by simp, rfl⟩, ⟨0, by simp, rfl⟩,
          ⟨0, by simp, rfl, rfl⟩, ⟨0, by simp, rfl⟩, ⟨0, by simp, rfl, rfl⟩, ⟨0, by simp, rfl⟩,
          ⟨0, by simp, rfl, by decide⟩, ⟨0, by simp, rfl, rfl⟩, ⟨1, by simp, rfl⟩, ⟨1, by simp, rfl, rfl⟩, by simp⟩
      have hlen : exRestPart.length = 12 := rfl
      have e : exRest n = exRestPart[n]'(by omega) := by
        unfold exRest
        rw [List.getElem?_eq_getElem (by omega)]
        rfl
      rw [e]
      exact all _ (List.getElem_mem _)
    · refine ⟨0, by simp, ?_⟩
      have e : exRest n = .serverRead 0 1 := by
        unfold exRest
        rw [List.getElem?_eq_none (by show 12 ≤ n; omega)]
        rfl
      rw [e]; exact rfl
  · intro c hc t n
    refine ⟨n + 12, by omega, Or.inr ?_⟩
    rw [exRest_along _ (by omega)]
    rcases List.mem_cons.mp hc with rfl | hc
    · exact rest_check (quiet_check (fs := [str "a/+"]) (by decide +kernel) (by decide +kernel) (by decide +kernel))
        (by decide +kernel) (by decide +kernel) t
    · obtain rfl := List.mem_singleton.mp hc
      exact rest_check (quiet_check (fs := []) (by decide +kernel) (by decide +kernel) (by decide +kernel))
        (by decide +kernel) (by decide +kernel) t
  · intro c hc
    refine ⟨12, ?_⟩
    rw [exRest_along _ (by omega)]
    intro h
    have h := congrArg (Option.map fun x => x.1) h
    rcases List.mem_cons.mp hc with rfl | hc
    · revert h; decide +kernel
    · obtain rfl := List.mem_singleton.mp hc
      revert h; decide +kernel

end Mercurio
