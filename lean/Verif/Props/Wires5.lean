import Verif.Props.Client5
import Verif.Lemmas.Track
import Verif.Lemmas.Timed

/-! # C130 for the server and built-in clients: the bytes the server writes -/

namespace Mercurio

open Spec

/-! ## What the built-in client sends obeys the standard -/

theorem step_obeys {l : Client} {i : ClientIn} (hi : InOrd i) (h0 : l.counter ≠ 0) {q : Packet}
    (h : (l.step i).2.sent = some q) : Obeys5 q.received := by
  unfold Client.step at h
  split at h
  · unfold Client.take at h; split at h <;> cases h
  split at h
  · cases h
  split at h
  · cases i with
    | recv => cases h
    | read r ok =>
      cases r with
      | packet p =>
        simp only [Client.turn, Client.incoming] at h
        cases p with
        | publish p =>
          simp only at h
          split at h
          · split at h
            · cases h; trivial
            · cases h
            · cases h
            · cases h
          · cases h
        | _ => cases h
      | closed => cases h
      | error e => cases h
      | panicked => cases h
    | publish t pl qs r ok =>
      have := call_sent h
      subst this
      obtain ⟨h1, h2, h3⟩ := hi
      refine ⟨h2, ?_, ?_, (fun h => by cases h), h3⟩
      · by_cases hq : qs = .atMostOnce <;> simp [hq, PublishPacket.received]
      · by_cases hq : qs = .atMostOnce <;> simp [hq, PublishPacket.received, h0]
    | subscribe ts ok =>
      have := call_sent h
      subst this
      obtain ⟨h1, h2, h3⟩ := hi
      have hs := sum_ge (fun t : Str × QoS => t.1.length) 3 ts
      have hp : 0 < ts.length := List.length_pos_iff.mpr h1
      refine ⟨h0, by simpa [SubscribePacket.received] using h1, fun x hx => ?_, ?_⟩
      · obtain ⟨t, ht, rfl⟩ := List.mem_map.mp hx
        exact (h2 t ht).1
      · simp only [SubscribePacket.received, List.length_map]; omega
    | unsubscribe ts ok =>
      have := call_sent h
      subst this
      obtain ⟨h1, h2, h3⟩ := hi
      have hs := sum_ge (fun t : Str => t.length) 2 ts
      have hp : 0 < ts.length := List.length_pos_iff.mpr h1
      refine ⟨h0, h1, ?_⟩
      simp only [UnsubscribePacket.received]; omega
    | disconnect ok =>
      have := call_sent h
      subst this
      trivial
    | tick ok =>
      simp only [Client.turn] at h
      split at h
      · cases h; trivial
      all_goals cases h
  · cases i <;> cases h

theorem sents_obey {p : Peer} (hi : PeerInv p) (hd : Diary p) (hl : p.history.length ≤ 65535) :
    ∀ q ∈ p.sents, Obeys5 q.received := by
  intro q hq
  obtain ⟨e, he, hq⟩ := List.mem_filterMap.mp hq
  obtain ⟨_, ho, _⟩ := hi.steps e he
  obtain ⟨k, hk, rfl⟩ := List.getElem_of_mem he
  obtain ⟨l, h3, h4⟩ := hd.turns k hk
  rw [h3] at hq
  refine step_obeys ho ?_ hq
  intro h
  have := (h4 (by omega)).1
  rw [h] at this
  exact absurd this (by decide)

theorem wire_opens {p : Peer} (hi : PeerInv p) (hv : p.opts.protocolVersion = .v5) :
    ∃ q, (Packet.connect (wireConnect p.opts)).received = .connect q ∧ Opens5 q := by
  have hb : wireConnect p.opts = buildConnect p.opts := by unfold wireConnect; rw [if_pos hv]
  refine ⟨_, rfl, ?_⟩
  have hv' : (buildConnect p.opts).protocolVersion = .v5 := by
    show p.opts.protocolVersion = _; exact hv
  have e : (wireConnect p.opts).received.protocolVersion = .v5 ∧
      (wireConnect p.opts).received.flags = (buildConnect p.opts).flags ∧
      (wireConnect p.opts).received.payload.willTopic = (buildConnect p.opts).payload.willTopic ∧
      (wireConnect p.opts).received.payload.willPayload = (buildConnect p.opts).payload.willPayload := by
    rw [hb, ConnectPacket.received, if_pos hv']
    exact ⟨hv', rfl, rfl, rfl⟩
  refine ⟨e.1, ?_⟩
  rw [e.2.1, e.2.2.1, e.2.2.2]
  intro _ t ht
  cases hw : p.opts.will with
  | none => simp [buildConnect, hw] at ht
  | some w =>
    obtain ⟨a, b⟩ := hi.will w hw
    obtain ⟨_, c, _⟩ := hi.opts.will w hw
    simp only [buildConnect, hw, Option.map_some, Option.some.injEq] at ht ⊢
    subst ht
    exact ⟨a, by simp [b], c⟩

/-! ## The history of the server -/

/-- All built-in clients speak MQTT 5 and have taken part in at most 65535 turns. -/
def System.Young5 (σ : System) : Prop :=
  ∀ c p, σ.peers.get c = some p → p.opts.protocolVersion = .v5 ∧ p.history.length ≤ 65535

theorem obeys_run {m : Mode} {cfg : AuthConfig} (evs : List SysEvent) (hord : ∀ e ∈ evs, e.Ordinary)
    (hy : (System.init.run m cfg evs).Young5) :
    ∃ es, SysInv cfg (System.init.run m cfg evs) es ∧ ∀ e ∈ es, EventObeys5 e := by
  induction evs using snoc_induction with
  | h0 => exact ⟨[], sysInv_init cfg, by simp⟩
  | hs evs e ih =>
    have hD := diary_run m cfg (evs ++ [e])
    have erun : System.init.run m cfg (evs ++ [e]) = (System.init.run m cfg evs).step m cfg e := by
      simp [System.run]
    rw [erun] at hy hD ⊢
    have he : e.Ordinary := hord e (by simp)
    have hmv := moves m cfg (System.init.run m cfg evs) e
    have ih := fun hy => ih (fun x hx => hord x (List.mem_append_left _ hx)) hy
    generalize System.init.run m cfg evs = σ at *
    have keeps : ∀ c p, σ.peers.get c = some p → ∃ p', (σ.step m cfg e).peers.get c = some p' ∧ p'.opts = p.opts ∧
        p.history.length ≤ p'.history.length := by
      intro c p hp
      generalize σ.step m cfg e = σ' at *
      cases hmv with
      | idle => exact ⟨p, hp, rfl, Nat.le_refl _⟩
      | net => exact ⟨p, hp, rfl, Nat.le_refl _⟩
      | @connect d o b hd hb =>
        have : d ≠ c := by rintro rfl; rw [hp] at hd; cases hd
        exact ⟨p, by rw [Map.get_insert, if_neg this]; exact hp, rfl, Nat.le_refl _⟩
      | @peer _ d q q' hq hm =>
        by_cases hdc : d = c
        · subst hdc
          rw [hp] at hq; cases hq
          refine ⟨q', by show (σ.peers.insert d q').get d = _; rw [Map.get_insert, if_pos rfl], hm.keeps.opts, ?_⟩
          rcases hm.keeps.history with h | ⟨x, h, _⟩ <;> rw [h]
          · exact Nat.le_refl _
          · simp
        · exact ⟨p, by show (σ.peers.insert d q').get c = _; rw [Map.get_insert, if_neg hdc]; exact hp, rfl, Nat.le_refl _⟩
    obtain ⟨es, hi, ho⟩ := ih (by
      intro c p hp
      obtain ⟨p', hp', h1, h2⟩ := keeps c p hp
      obtain ⟨a, b⟩ := hy c p' hp'
      exact ⟨h1 ▸ a, by omega⟩)
    obtain ⟨ex, hg, h1⟩ := hi.step he hmv
    refine ⟨es ++ ex, h1, ?_⟩
    intro x hx
    rcases List.mem_append.mp hx with hx' | hx'
    · exact ho x hx'
    · cases x with
      | first d q u w =>
        obtain ⟨a, p, hp, rfl⟩ := h1.firsts d q u w hx
        exact ⟨wire_opens (h1.peer d p hp) (hy d p hp).1, a⟩
      | recv d q =>
        -- the connection had begun: the packet is not the client's first
        rcases hg with ⟨rfl, _⟩ | ⟨ne, hx2, _⟩
        · cases hx'
        rcases hx2 with rfl | ⟨y, hst, hex⟩
        · cases hx'
        have hy' : y = .recv d q := by
          rcases hex with rfl | rfl
          · simp at hx'; exact hx'.symm
          · simp at hx'; exact hx'.symm
        subst hy'
        cases hst with
        | @recv _ _ _ _ w hw hr hb =>
          obtain ⟨f, hf, _⟩ := hi.net.kept d w hw hb
          obtain ⟨p0, hp0⟩ := Option.isSome_iff_exists.mp ((hi.ends d).mp (by rw [hw]; rfl))
          obtain ⟨p, hp, _⟩ := keeps d p0 hp0
          obtain ⟨k, hk⟩ := h1.packets hp
          have e1 : packetsOf d ex = [q] := by
            rcases hex with rfl | rfl <;> simp [packetsOf]
          rw [packetsOf_append, e1] at hk
          cases hes : packetsOf d es with
          | nil => rw [hes] at hf; cases hf
          | cons g gs =>
            rw [hes] at hk
            cases k with
            | zero => simp at hk
            | succ k =>
              simp only [Peer.outgoing, List.take_succ_cons, List.map_cons, List.cons_append, List.cons.injEq] at hk
              have hq : q ∈ (p.sents.take k).map Packet.received := by rw [← hk.2]; simp
              obtain ⟨q', hq', rfl⟩ := List.mem_map.mp hq
              exact sents_obey (h1.peer d p hp) (hD d p hp) (hy d p hp).2 q' (List.mem_of_mem_take hq')
      | deliver => trivial
      | close => trivial
      | abort => trivial
      | restart => trivial

/-! ## The theorem -/

/-- A packet sent in a history is sent by one of its events. -/
theorem sentTo_mem (cfg : AuthConfig) (c : Nat) : ∀ (es : List Event) (srv : Server) (p : Packet),
    p ∈ srv.sentTo cfg c es → ∃ a e b, es = a ++ e :: b ∧ p ∈ ((srv.run cfg a).step cfg e).2.sent := by
  intro es
  induction es with
  | nil => intro srv p h; cases h
  | cons e es ih =>
    intro srv p h
    simp only [Server.sentTo, List.mem_append] at h
    rcases h with h | h
    · split at h
      · exact ⟨[], e, es, rfl, h⟩
      · cases h
    · obtain ⟨a, e', b, rfl, hp⟩ := ih _ p h
      exact ⟨e :: a, e', b, rfl, hp⟩

/-- C130 (partial): in any system of a server and built-in MQTT 5 clients with ordinary applications, all bytes the
server has written to a connection are packets of MQTT 5 one after the other, and all of these are legal but for
messages that name a filter with wildcards as their topic, which are legal but for that topic.  Nothing is assumed about what the clients send, it
follows from what the client library does; `Young5` bounds the turns of each client because its packet identifiers
start again at 0 after 65535 requests (C131).  Missing, because it is false: messages for filters with wildcards. -/
theorem C130_stream_partial (m : Mode) (cfg : AuthConfig) (evs : List SysEvent) (hord : ∀ e ∈ evs, e.Ordinary)
    (hy : (System.init.run m cfg evs).Young5) (c : Nat) (w : Wire)
    (hw : (System.init.run m cfg evs).net.wires.get c = some w) :
    ∃ xs : List Packet5, w.sent = xs.flatMap Packet5.bytes ∧ ∀ x ∈ xs, x.Legal ∨ x.UnderWildcard ∧ ∃ t, (x.withTopic t).Legal := by
  obtain ⟨es, hi, ho⟩ := obeys_run evs hord hy
  obtain ⟨qs, hq, hrn, hwr⟩ := hi.net.written c w hw
  clear hrn
  have key : ∀ q ∈ qs, ∃ x : Packet5, (x.Legal ∨ x.UnderWildcard ∧ ∃ t, (x.withTopic t).Legal) ∧ q.encode = .ok x.bytes := by
    intro q hm
    obtain ⟨a, e, b, rfl, hp⟩ := sentTo_mem cfg c es _ q (hq.subset hm)
    obtain ⟨x, ⟨h1, h1'⟩, h2, h3⟩ := sent5 cfg a (fun y hy => ho y (by simp [hy])) e (ho e (by simp)) q hp
    refine ⟨x, ?_, h3⟩
    by_cases hn : NoWildcards q
    · exact Or.inl (h1 hn)
    · refine Or.inr ⟨?_, h1'⟩
      unfold NoWildcards at hn
      cases q with
      | publish q =>
        cases x with
        | publish dup qos ret topic id ps pl =>
          obtain ⟨_, _, _, ht, _⟩ := h2
          show _ ∨ _
          rw [← ht]
          apply Classical.byContradiction
          intro hh
          apply hn
          rintro q' he
          cases he
          exact ⟨fun h => hh (Or.inl h), fun h => hh (Or.inr h)⟩
        | _ => exact h2.elim
      | _ => exact absurd (fun _ h => by cases h) hn
  clear hq
  generalize w.sent = bs at hwr
  induction hwr with
  | nil => exact ⟨[], rfl, by simp⟩
  | @cons p b ps bs he _ ih =>
    obtain ⟨xs, h1, h2⟩ := ih (fun q hq => key q (by simp [hq]))
    obtain ⟨x, h3, h4⟩ := key p (by simp)
    rw [he] at h4
    cases h4
    refine ⟨x :: xs, by rw [h1]; rfl, ?_⟩
    intro y hy
    rcases List.mem_cons.mp hy with rfl | hy
    · exact h3
    · exact h2 y hy

/-- A client subscribes and publishes, and gets its message. -/
def exEcho : List SysEvent :=
  [.connect 0 { clientId := some (str "c") }, .serverRead 0 100, .serverTurn 0 (str "u") true, .clientRead 0 100,
   .clientTurn 0 true, .app 0 (.subscribe [(str "t", .atLeastOnce)] true), .app 0 (.publish (str "t") [1] .atLeastOnce false true),
   .serverRead 0 100, .serverTurn 0 (str "v") true, .serverTurn 0 (str "w") true, .deliver 0 (str "t")]

example : (∀ e ∈ exEcho, e.Ordinary) ∧ (System.init.run .debug {} exEcho).Young5 ∧
    ((System.init.run .debug {} exEcho).net.wires.get 0).map Wire.sent =
      some ([0x20, 3, 0, 0, 0] ++ [0x90, 4, 0, 1, 0, 0] ++ [0x40, 2, 0, 2] ++ [0x32, 7, 0, 1, 116, 0, 2, 0, 1]) := by
  refine ⟨?_, ?_, by decide +kernel⟩
  · intro e he
    simp only [exEcho, List.mem_cons, List.not_mem_nil, or_false] at he
    rcases he with rfl | rfl | rfl | rfl | rfl | rfl | rfl | rfl | rfl | rfl | rfl
    · exact ⟨⟨by intro x hx; cases hx; decide, (by intro x hx; cases hx), (by intro x hx; cases hx), (by intro x hx; cases hx)⟩,
        by intro w hw; cases hw⟩
    · trivial
    · show TextField _; decide
    · trivial
    · trivial
    · refine ⟨by decide, ?_, by decide⟩
      intro t ht
      cases List.mem_singleton.mp ht
      exact ⟨by decide, by decide⟩
    · exact ⟨by decide, by decide, by decide⟩
    · trivial
    · show TextField _; decide
    · show TextField _; decide
    · trivial
  · have h : (System.init.run .debug {} exEcho).peers.map (fun x => (x.1, x.2.opts.protocolVersion, x.2.history.length)) =
        [(0, .v5, 2)] := by decide +kernel
    intro c p hp
    have hm : (c, p.opts.protocolVersion, p.history.length) ∈ (System.init.run .debug {} exEcho).peers.map
        (fun x => (x.1, x.2.opts.protocolVersion, x.2.history.length)) :=
      List.mem_map.mpr ⟨(c, p), mem_of_get hp, rfl⟩
    rw [h] at hm
    have hm := List.mem_singleton.mp hm
    simp only [Prod.mk.injEq] at hm
    exact ⟨hm.2.1, by rw [hm.2.2]; decide⟩

end Mercurio
