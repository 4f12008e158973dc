import Verif.Spec.Admission
import Verif.Props.Daemon
import Verif.Lemmas.Alive

/-! # C109: who may use a broker that asks for credentials -/

namespace Mercurio

open Spec Server

/-! ## Connections that are not let in -/

theorem erase_of_none {K V : Type} [DecidableEq K] (m : Map K V) (k : K) (h : m.get k = none) : m.erase k = m := by
  induction m with
  | nil => rfl
  | cons e m ih =>
    obtain ⟨a, b⟩ := e
    by_cases hk : a = k
    · simp [Map.get, hk] at h
    · have : Map.get m k = none := by simpa [Map.get, hk] using h
      simp only [Map.erase, List.filter_cons, ne_eq, hk, not_false_eq_true, decide_true, if_true]
      exact congrArg _ (ih this)

/-- Two servers that differ in connection `c` only. -/
structure SameBut (c : Nat) (n n' : Net) : Prop where
  server : n.server = n'.server
  wires : ∀ d, d ≠ c → n.wires.get d = n'.wires.get d

theorem SameBut.act {cfg : AuthConfig} {c d : Nat} {n n' : Net} (h : SameBut c n n') (w : Wire) (e : Event) :
    SameBut c (n.act cfg d w e) (n'.act cfg d w e) := by
  refine ⟨by simp only [Net.act, h.server], fun x hx => ?_⟩
  simp only [Net.act, h.server, Map.get_insert]
  split
  · rfl
  · exact h.wires x hx

theorem SameBut.put {c d : Nat} {n n' : Net} (h : SameBut c n n') (w : Wire) :
    SameBut c ⟨n.server, n.wires.insert d w⟩ ⟨n'.server, n'.wires.insert d w⟩ := by
  refine ⟨h.server, fun x hx => ?_⟩
  simp only [Map.get_insert]
  split
  · rfl
  · exact h.wires x hx

/-- Events of other connections do the same in both. -/
theorem SameBut.step {m : Mode} {cfg : AuthConfig} {c : Nat} {n n' : Net} (h : SameBut c n n') {e : NetEvent}
    (he : e.conn ≠ c) : SameBut c (n.step m cfg e) (n'.step m cfg e) := by
  have hw := h.wires e.conn he
  cases e with
  | accept d =>
    simp only [NetEvent.conn] at hw
    simp only [Net.step, ← hw]
    split
    · exact h
    · exact h.put _
  | data d b =>
    simp only [NetEvent.conn] at hw
    simp only [Net.step, Net.onWire, ← hw]
    repeat' split
    all_goals first
      | exact h
      | exact h.act _ _
      | exact h.put _
  | turn d u wr =>
    simp only [NetEvent.conn] at hw
    simp only [Net.step, Net.onWire, ← hw]
    repeat' split
    all_goals first
      | exact h
      | exact h.act _ _
  | deliver d f =>
    simp only [NetEvent.conn] at hw
    simp only [Net.step, Net.onWire, ← hw]
    repeat' split
    all_goals first
      | exact h
      | exact h.act _ _
  | close d =>
    simp only [NetEvent.conn] at hw
    simp only [Net.step, Net.onWire, ← hw]
    repeat' split
    all_goals first
      | exact h
      | exact h.act _ _

/-- The bytes of the CONNACK that refuses a client. -/
theorem refusal_bytes (v : ProtocolVersion) :
    writePackets [.connAck ⟨v, false, .badUserNameOrPassword, none⟩] =
      (if v = .v5 then [0x20, 3, 0, 0x86, 0] else [0x20, 2, 0, 4], true) := by
  cases v <;> decide +kernel

/-- Connection `c` has not been let in. -/
def OutNow (c : Nat) (n : Net) : Prop :=
  n.server.conns.get c = none ∧ ∀ w, n.wires.get c = some w → w.running = true → w.begun = false

/-- What a connection that is not let in does leaves the server alone. -/
theorem out_act {cfg : AuthConfig} {n : Net} {c : Nat} (hn : n.server.conns.get c = none) (w : Wire) {e : Event}
    (he : e = .close c ∨ e = .abort c ∨ ∃ p u wr, e = .first c p u wr ∧ cfg.requireAuth = true ∧
      ∀ q, p = .connect q → ¬ Accepts cfg q.payload.userName q.payload.password) :
    (n.act cfg c w e).server = n.server ∧
    ∃ s, (n.act cfg c w e).wires = n.wires.insert c { w with running := false, sent := w.sent ++ s } ∧
      ((∃ q u wr, e = .first c (.connect q) u wr ∧
        s = if q.protocolVersion = .v5 then [0x20, 3, 0, 0x86, 0] else [0x20, 2, 0, 4]) ∨
       (∀ q u wr, e ≠ .first c (.connect q) u wr) ∧ s = []) := by
  have hno : ¬ n.server.isOpen c := by rintro ⟨k, hk⟩; rw [hn] at hk; cases hk
  have hres : Net.resets w e = true := by
    rcases he with rfl | rfl | ⟨p, u, wr, rfl, _⟩ <;> rfl
  have plain : ∀ x : Server × Out, n.server.step cfg e = x → x.1 = n.server → x.2.sent = [] →
      (n.act cfg c w e).server = n.server ∧
      (n.act cfg c w e).wires = n.wires.insert c { w with running := false, sent := w.sent ++ [] } := by
    intro x hx h1 h2
    simp only [Net.act, hx, h2, writePackets, if_true, h1, hn, hres, Bool.and_self]
    exact ⟨trivial, rfl⟩
  rcases he with rfl | rfl | ⟨p, u, wr, rfl, hr, hq⟩
  · obtain ⟨h1, h2⟩ := plain _ rfl (by simp [Server.step, onConn, hn]) (by simp [Server.step, onConn, hn])
    exact ⟨h1, [], h2, Or.inr ⟨by simp, rfl⟩⟩
  · obtain ⟨h1, h2⟩ := plain _ rfl (by simp [Server.step, erase_of_none _ _ hn]) (by simp [Server.step])
    exact ⟨h1, [], h2, Or.inr ⟨by simp, rfl⟩⟩
  · by_cases hc : ∃ q, p = .connect q
    · obtain ⟨q, rfl⟩ := hc
      have hx := C47_refused cfg n.server c q u wr hno hr (hq q rfl)
      refine ⟨?_, _, ?_, Or.inl ⟨q, u, wr, rfl, rfl⟩⟩
      · simp only [Net.act, hx, refusal_bytes, if_true, hres, Bool.and_self]
      · simp only [Net.act, hx, refusal_bytes, if_true, hn, hres, Bool.and_self]
        rfl
    · obtain ⟨h1, h2⟩ := plain (n.server, {}) (by
        cases p <;> first | (exact absurd ⟨_, rfl⟩ hc) | (simp [Server.step, hn])) rfl rfl
      exact ⟨h1, [], h2, Or.inr ⟨fun q _ _ h => hc ⟨q, by cases h; rfl⟩, rfl⟩⟩

/-- An event of a connection that is not let in, and does not offer accepted credentials now, leaves the
server and the other connections alone, and it is still not let in. -/
theorem out_step {m : Mode} {cfg : AuthConfig} {n : Net} {c : Nat} (hr : cfg.requireAuth = true) (h : OutNow c n)
    (hf : ∀ p, FirstIs m n c p → ¬ Accepts cfg p.payload.userName p.payload.password) {e : NetEvent} (he : e.conn = c) :
    SameBut c (n.step m cfg e) n ∧ OutNow c (n.step m cfg e) := by
  obtain ⟨hn, hb⟩ := h
  have put : ∀ n' : Net, n'.server = n.server → ∀ w : Wire, n'.wires = n.wires.insert c w →
      (w.running = true → w.begun = false) → SameBut c n' n ∧ OutNow c n' := by
    intro n' h1 w h2 h3
    refine ⟨⟨h1, fun d hd => by rw [h2, Map.get_insert, if_neg (Ne.symm hd)]⟩, by rw [h1]; exact hn, ?_⟩
    intro w' hw'
    rw [h2, Map.get_insert, if_pos rfl, Option.some.injEq] at hw'
    subst hw'
    exact h3
  have same : SameBut c n n ∧ OutNow c n := ⟨⟨rfl, fun _ _ => rfl⟩, hn, hb⟩
  have act : ∀ (w : Wire) (x : Event), (x = .close c ∨ x = .abort c ∨ ∃ p u wr, x = .first c p u wr ∧
      cfg.requireAuth = true ∧ ∀ q, p = .connect q → ¬ Accepts cfg q.payload.userName q.payload.password) →
      SameBut c (n.act cfg c w x) n ∧ OutNow c (n.act cfg c w x) := by
    intro w x hx
    obtain ⟨h1, s, h2, _⟩ := out_act hn w hx
    exact put _ h1 _ h2 (by simp)
  cases e with
  | accept d =>
    simp only [NetEvent.conn] at he
    subst he
    simp only [Net.step]
    split
    · exact same
    · exact put _ rfl {} rfl (by simp)
  | data d b =>
    simp only [NetEvent.conn] at he
    subst he
    simp only [Net.step, Net.onWire]
    split
    · exact same
    · rename_i w hw
      split
      · rename_i hrun
        split
        · split
          · exact act _ _ (Or.inl rfl)
          · exact put _ rfl _ rfl (fun _ => hb w hw hrun)
        · exact same
      · exact same
  | turn d u wr =>
    simp only [NetEvent.conn] at he
    subst he
    simp only [Net.step, Net.onWire]
    split
    · exact same
    · rename_i w hw
      split
      · rename_i hrun
        have hbg := hb w hw hrun
        split
        · exact same
        · rename_i p rest hp
          rw [hbg]
          refine act _ _ (Or.inr (Or.inr ⟨p, u, wr, rfl, hr, ?_⟩))
          rintro q rfl
          exact hf q ⟨w, rest, hw, hrun, hbg, hp⟩
        · exact act _ _ (Or.inl rfl)
        · exact act _ _ (Or.inr (Or.inl rfl))
      · exact same
  | deliver d f =>
    simp only [NetEvent.conn] at he
    subst he
    simp only [Net.step, Net.onWire]
    split
    · exact same
    · rename_i w hw
      split
      · rename_i hrun
        rw [hb w hw hrun]
        exact same
      · exact same
  | close d =>
    simp only [NetEvent.conn] at he
    subst he
    simp only [Net.step, Net.onWire]
    split
    · exact same
    · rename_i w hw
      split
      · exact act _ _ (Or.inl rfl)
      · exact same

theorem conns_step_other {m : Mode} {cfg : AuthConfig} {n : Net} {e : NetEvent} {c : Nat} (h : e.conn ≠ c) :
    (n.step m cfg e).server.conns.get c = n.server.conns.get c := by
  have act : ∀ (d : Nat) (w : Wire) (x : Event), d ≠ c → x.conn = some d →
      (n.act cfg d w x).server.conns.get c = n.server.conns.get c := by
    intro d w x hd hx
    simp only [Net.act]
    split
    · exact conns_other cfg _ hx (Ne.symm hd)
    · rw [conns_other cfg _ (e := .abort d) rfl (Ne.symm hd)]
      exact conns_other cfg _ hx (Ne.symm hd)
  cases e <;> simp only [NetEvent.conn] at h <;> simp only [Net.step, Net.onWire]
  all_goals repeat' split
  all_goals first
    | rfl
    | exact act _ _ _ h rfl

/-- C109: a peer that never presents accepted credentials, whatever bytes it sends, in whatever pieces,
leaves no trace: the state of the server (its sessions, subscriptions, retained messages, queues) and
all other connections, with what has been sent on them, are as if it had never come. -/
theorem C109_outsider_leaves_no_trace (m : Mode) (cfg : AuthConfig) (hr : cfg.requireAuth = true)
    (ns : List NetEvent) (c : Nat) (ho : StaysOut m cfg ns c) :
    let n := Net.init.run m cfg ns
    let n' := Net.init.run m cfg (ns.filter fun e => e.conn ≠ c)
    n.server = n'.server ∧ (∀ d, d ≠ c → n.wires.get d = n'.wires.get d) ∧ ¬ n.server.isOpen c := by
  have key : ∀ ns : List NetEvent, StaysOut m cfg ns c →
      SameBut c (Net.init.run m cfg ns) (Net.init.run m cfg (ns.filter fun e => e.conn ≠ c)) ∧
      OutNow c (Net.init.run m cfg ns) := by
    intro ns
    induction ns using snoc_induction with
    | h0 =>
      intro _
      exact ⟨⟨rfl, fun _ _ => rfl⟩, rfl, fun w hw => by simp [Net.run, Net.init, Map.get] at hw⟩
    | hs ns e ih =>
      intro ho
      obtain ⟨h1, h2⟩ := ih (fun k p hp => by
        by_cases hk : k ≤ ns.length
        · exact ho k p (by rwa [List.take_append_of_le_length hk])
        · refine ho ns.length p ?_
          rw [List.take_append_of_le_length (Nat.le_refl _), List.take_length]
          rwa [List.take_of_length_le (by omega)] at hp)
      have hf := ho ns.length
      rw [List.take_append_of_le_length (Nat.le_refl _), List.take_length] at hf
      rw [Net.run_snoc, List.filter_append]
      by_cases he : e.conn = c
      · obtain ⟨h3, h4⟩ := out_step hr h2 hf he
        simp only [List.filter_cons, ne_eq, he, not_true_eq_false, decide_false, Bool.false_eq_true, if_false,
          List.filter_nil, List.append_nil]
        exact ⟨⟨h3.server.trans h1.server, fun d hd => (h3.wires d hd).trans (h1.wires d hd)⟩, h4⟩
      · simp only [List.filter_cons, ne_eq, he, not_false_eq_true, decide_true, if_true, List.filter_nil]
        rw [Net.run_snoc]
        refine ⟨h1.step he, ?_, ?_⟩
        · rw [conns_step_other he]; exact h2.1
        · rw [net_other he]; exact h2.2
  obtain ⟨h1, h2⟩ := key ns ho
  exact ⟨h1.server, h1.wires, by rintro ⟨k, hk⟩; rw [h2.1] at hk; cases hk⟩

/-- A connection whose CONNECT has the wrong password, then bytes that make no sense, while another client
is at work. -/
def exOutsider : List NetEvent :=
  [.accept 0, .accept 1] ++ (match (Packet.connect (buildConnect { username := some (str "bob"), password := some [1] })).encode with
    | .ok b => [.data 0 b, .turn 0 (str "u") true, .data 0 [1, 2, 3]]
    | _ => []) ++
  (match (Packet.connect (buildConnect { username := some (str "bob"), password := some [2] })).encode with
    | .ok b => [.data 1 b, .turn 1 (str "v") true]
    | _ => [])

/-- Only bob with password [2] is let in. -/
def exDoor : AuthConfig :=
  { requireAuth := true, validator := some fun u pw => decide (u = str "bob" ∧ pw = [2]), manager := none }

/-- The CONNECT of `FirstIs`. -/
def firstOf (m : Mode) (n : Net) (c : Nat) : Option ConnectPacket :=
  match n.wires.get c with
  | none => none
  | some w => match parsePacket m w.buf with
    | .packet (.connect p) _ => if w.running && !w.begun then some p else none
    | _ => none

theorem firstIs_first {m : Mode} {n : Net} {c : Nat} {p : ConnectPacket} (h : FirstIs m n c p) :
    firstOf m n c = some p := by
  obtain ⟨w, rest, h1, h2, h3, h4⟩ := h
  simp [firstOf, h1, h2, h3, h4]

/-- The outsider meets the hypothesis, and it is told that it is not let in; the other one is. -/
example : StaysOut .debug exDoor exOutsider 0 ∧
    ((Net.init.run .debug exDoor exOutsider).wires.get 0).map (·.sent) = some [0x20, 3, 0, 0x86, 0] ∧
    ((Net.init.run .debug exDoor exOutsider).server.conns.get 1).isSome = true := by
  refine ⟨fun k p hp => ?_, by decide +kernel, by decide +kernel⟩
  have hk : ∀ k, k < 8 → (firstOf .debug (Net.init.run .debug exDoor (exOutsider.take k)) 0).all
      (fun p => decide (p.payload.password ≠ some [2])) = true := by decide +kernel
  have hl : exOutsider.length = 7 := by decide +kernel
  have : p.payload.password ≠ some [2] := by
    have hp' := firstIs_first hp
    by_cases h : k < 8
    · have := hk k h
      rw [hp'] at this
      simpa using this
    · have := hk 7 (by omega)
      rw [List.take_of_length_le (by omega)] at hp' this
      rw [hp'] at this
      simpa using this
  rintro ⟨u, pw, v, _, h2, h3, h4⟩
  cases h3
  simp only [decide_eq_true_eq] at h4
  exact this (by rw [h2, h4.2])

/-! ## The built-in client -/

/-- The CONNACK that refuses a client of this version, as bytes. -/
def refusalBytes (v : ProtocolVersion) : Buf := if v = .v5 then [0x20, 3, 0, 0x86, 0] else [0x20, 2, 0, 4]

/-- It is no packet, or a CONNACK with this reason. -/
def onlyRefuses : ParseOut → Bool
  | .packet (.connAck a) _ => decide (a.reasonCode = .badUserNameOrPassword)
  | .packet _ _ => false
  | _ => true

/-- It is a CONNACK and nothing follows. -/
def onlyAck : ParseOut → Bool
  | .packet (.connAck _) [] => true
  | _ => false

/-- What a client makes of (a part of) that CONNACK. -/
theorem refusal_read (m : Mode) (v : ProtocolVersion) (b : Buf) (h : b <+: refusalBytes v) :
    (∀ q rest, clientParse m v b = .packet q rest → ∃ a, q = .connAck a ∧ a.reasonCode = .badUserNameOrPassword) ∧
    (b = refusalBytes v → ∃ a, clientParse m v b = .packet (.connAck a) []) := by
  obtain ⟨k, rfl⟩ : ∃ k, b = (refusalBytes v).take k := ⟨b.length, (List.prefix_iff_eq_take.mp h)⟩
  have table : ∀ k, k < 6 → ∀ v m, onlyRefuses (clientParse m v ((refusalBytes v).take k)) = true := by
    intro k hk v m
    cases m <;> cases v <;> revert k <;> decide +kernel
  constructor
  · intro q rest hq
    have : onlyRefuses (clientParse m v ((refusalBytes v).take k)) = true := by
      by_cases hk : k < 6
      · exact table k hk v m
      · have : (refusalBytes v).take k = (refusalBytes v).take 5 := by
          have hl : (refusalBytes v).length ≤ 5 := by cases v <;> decide
          rw [List.take_of_length_le (by omega), List.take_of_length_le hl]
        rw [this]
        exact table 5 (by omega) v m
    rw [hq] at this
    cases q with
    | connAck a => exact ⟨a, rfl, of_decide_eq_true this⟩
    | _ => cases this
  · intro e
    rw [e]
    have : onlyAck (clientParse m v (refusalBytes v)) = true := by cases m <;> cases v <;> decide +kernel
    revert this
    generalize clientParse m v (refusalBytes v) = x
    intro hx
    unfold onlyAck at hx
    split at hx
    · exact ⟨_, rfl⟩
    · cases hx

/-- Events of other connections leave this one alone. -/
theorem sys_other {m : Mode} {cfg : AuthConfig} {σ : System} {e : SysEvent} {c : Nat} (h : conn e ≠ c) :
    (σ.step m cfg e).peers.get c = σ.peers.get c ∧ (σ.step m cfg e).net.wires.get c = σ.net.wires.get c ∧
    (σ.step m cfg e).net.server.conns.get c = σ.net.server.conns.get c := by
  have net : ∀ ne : NetEvent, ne.conn ≠ c → (σ.net.step m cfg ne).wires.get c = σ.net.wires.get c ∧
      (σ.net.step m cfg ne).server.conns.get c = σ.net.server.conns.get c :=
    fun ne hne => ⟨net_other hne, conns_step_other hne⟩
  cases e <;> simp only [conn] at h <;> simp only [System.step, System.onPeer, System.put]
  all_goals repeat' split
  all_goals first
    | exact ⟨rfl, rfl, rfl⟩
    | exact ⟨rfl, net _ h⟩
    | exact ⟨by simp only [Map.get_insert, if_neg h], rfl, rfl⟩
    | exact ⟨by simp only [Map.get_insert, if_neg h], net _ h⟩

/-- What holds of a client whose credentials are not accepted, and its connection. -/
structure Outside (c : Nat) (σ : System) (p : Peer) (w : Wire) : Prop where
  phase : p.phase = .connecting ∨ ∃ e, p.phase = .failed e ∧ ∀ r, e = some (.refused r) → r = .badUserNameOrPassword
  wrote : (Packet.connect (buildConnect p.opts)).encode = .ok p.wrote
  noConn : σ.net.server.conns.get c = none
  rcvd : w.rcvd <+: p.wrote
  got : p.got <+: w.sent
  buf : p.phase = .connecting → p.buf = p.got
  sent : w.sent <+: refusalBytes p.opts.protocolVersion
  fresh : w.running = true → w.begun = false ∧ w.buf = w.rcvd ∧ w.sent = []
  quiet : p.history = []

/-- The connection is unused, or its client is outside if its credentials are not accepted. -/
def OutInv (cfg : AuthConfig) (c : Nat) (σ : System) : Prop :=
  (σ.peers.get c = none ∧ σ.net.wires.get c = none ∧ σ.net.server.conns.get c = none) ∨
  ∃ p w, σ.peers.get c = some p ∧ σ.net.wires.get c = some w ∧
    (p.opts.Admissible → ¬ Accepts cfg p.opts.username p.opts.password → Outside c σ p w)

/-- What an event of the network does to the connection of a client that is outside. -/
theorem Outside.net {m : Mode} {cfg : AuthConfig} (hr : cfg.requireAuth = true) {σ : System} {c : Nat} {p : Peer}
    {w : Wire} (hp : σ.peers.get c = some p) (hw : σ.net.wires.get c = some w) (ha : p.opts.Admissible)
    (hn : ¬ Accepts cfg p.opts.username p.opts.password) (h : Outside c σ p w) {ne : NetEvent} (he : ne.conn = c)
    (hacc : ∀ c, ne ≠ .accept c)
    (hdata : ∀ c b, ne = .data c b → b.length ≤ 2 ^ 31 ∧ ∃ p, σ.peers.get c = some p ∧ b <+: σ.upstream c p) :
    ∃ w', (σ.net.step m cfg ne).wires.get c = some w' ∧ Outside c { σ with net := σ.net.step m cfg ne } p w' := by
  have same : ∃ w', σ.net.wires.get c = some w' ∧ Outside c σ p w' := ⟨w, hw, h⟩
  have act : ∀ (w1 : Wire) (x : Event), w1.rcvd = w.rcvd → w1.sent = w.sent → w.running = true →
      (x = .close c ∨ x = .abort c ∨ ∃ p u wr, x = .first c p u wr ∧ cfg.requireAuth = true ∧
        ∀ q, p = .connect q → ¬ Accepts cfg q.payload.userName q.payload.password) →
      (∀ q u wr, x = .first c (.connect q) u wr → q.protocolVersion = p.opts.protocolVersion) →
      ∃ w', (σ.net.act cfg c w1 x).wires.get c = some w' ∧ Outside c { σ with net := σ.net.act cfg c w1 x } p w' := by
    intro w1 x h1 h2 hrun hx hv
    obtain ⟨e1, s, e2, e3⟩ := out_act h.noConn w1 hx
    refine ⟨_, by rw [e2, Map.get_insert, if_pos rfl], h.phase, h.wrote, by rw [e1]; exact h.noConn, ?_, ?_, h.buf, ?_, ?_,
      h.quiet⟩
    · show w1.rcvd <+: p.wrote
      rw [h1]; exact h.rcvd
    · have := h.got
      rw [(h.fresh hrun).2.2, List.prefix_nil] at this
      rw [this]; exact List.nil_prefix
    · show w1.sent ++ s <+: _
      rw [h2, (h.fresh hrun).2.2, List.nil_append]
      rcases e3 with ⟨q, u, wr, hq, rfl⟩ | ⟨_, rfl⟩
      · rw [hv q u wr hq]; exact List.prefix_refl _
      · exact List.nil_prefix
    · intro hf; cases hf
  cases ne with
  | accept d => exact absurd rfl (hacc d)
  | data d b =>
    simp only [NetEvent.conn] at he
    subst he
    simp only [Net.step, Net.onWire, hw]
    cases hrun : w.running with
    | false => simpa using same
    | true =>
      simp only [if_true]
      cases hpp : parsePacket m w.buf with
      | needMore =>
        simp only
        by_cases hb : b = []
        · rw [if_pos hb]
          exact act w _ rfl rfl hrun (Or.inl rfl) (by simp)
        · rw [if_neg hb]
          obtain ⟨_, p', hp', hpre⟩ := hdata d b rfl
          rw [hp, Option.some.injEq] at hp'
          subst hp'
          refine ⟨{ w with buf := w.buf ++ b, rcvd := w.rcvd ++ b }, by rw [Map.get_insert, if_pos rfl, hrun], h.phase,
            h.wrote, h.noConn, ?_, h.got, h.buf, h.sent, ?_, h.quiet⟩
          · show w.rcvd ++ b <+: p.wrote
            unfold System.upstream at hpre
            simp only [hw] at hpre
            obtain ⟨t, ht⟩ := h.rcvd
            rw [← ht, List.drop_left] at hpre
            rw [← ht]
            exact (List.prefix_append_right_inj _).mpr hpre
          · intro _
            obtain ⟨f1, f2, f3⟩ := h.fresh hrun
            exact ⟨f1, by show w.buf ++ b = w.rcvd ++ b; rw [f2], f3⟩
      | _ => exact same
  | turn d u wr =>
    simp only [NetEvent.conn] at he
    subst he
    simp only [Net.step, Net.onWire, hw]
    cases hrun : w.running with
    | false => simpa using same
    | true =>
      obtain ⟨f1, f2, f3⟩ := h.fresh hrun
      have hsv := wireConnect_survives p.opts ha
      have henc : (Packet.connect (wireConnect p.opts)).encode = .ok p.wrote := (wireConnect_encode p.opts).trans h.wrote
      obtain ⟨b', hb', hfit⟩ := buildConnect_encode_ok p.opts ha
      have : b' = p.wrote := by
        have := hb'.symm.trans h.wrote
        exact Res.ok.inj this
      subst this
      obtain ⟨fut, hfut⟩ := h.rcvd
      have hsent : Sent [.connect (wireConnect p.opts)] p.wrote := by
        have := Sent.cons hsv henc hfit Sent.nil
        rwa [List.append_nil] at this
      simp only [if_true]
      rcases next_packet m (done := []) (buf := w.buf) (rcvd := w.rcvd) hsent (k := 0) Sent.nil
        (by rw [List.nil_append]; exact f2.symm) hfut
        (by
          have : w.buf.length ≤ p.wrote.length := by rw [f2, ← hfut, List.length_append]; omega
          unfold FitsMqtt at hfit
          omega) with ⟨_, hnm⟩ | ⟨q, b, rest, hq, _, _, _, _, hpk⟩
      · rw [hnm]; exact same
      · simp only [List.getElem?_cons_zero, Option.some.injEq] at hq
        subst hq
        rw [hpk]
        simp only [f1, Bool.false_eq_true, if_false]
        have hsays := wireConnect_says p.opts
        refine act _ _ rfl rfl hrun (Or.inr (Or.inr ⟨_, u, wr, rfl, hr, ?_⟩)) ?_
        · intro q hq
          cases hq
          show ¬ Accepts cfg (wireConnect p.opts).received.payload.userName (wireConnect p.opts).received.payload.password
          rw [hsays.userName, hsays.password]
          exact hn
        · intro q u' wr' hq
          cases hq
          exact hsays.version
  | deliver d f =>
    simp only [NetEvent.conn] at he
    subst he
    simp only [Net.step, Net.onWire, hw]
    cases hrun : w.running with
    | false => simpa using same
    | true => rw [(h.fresh hrun).1]; simpa using same
  | close d =>
    simp only [NetEvent.conn] at he
    subst he
    simp only [Net.step, Net.onWire, hw]
    cases hrun : w.running with
    | false => simpa using same
    | true => exact act w _ rfl rfl hrun (Or.inl rfl) (by simp)

/-- What an event does to a client that is outside. -/
theorem Outside.peer {m : Mode} {σ : System} {c : Nat} {p p' : Peer} {w : Wire} (hw : σ.net.wires.get c = some w)
    (h : Outside c σ p w) {e : SysEvent} (hm : PeerMove m σ c p e p') : Outside c (σ.put c p') p' w := by
  have lost : ∀ (q : Peer) (r : ReadOut) (ok : Bool), p.phase = .connecting → q.phase = .connecting → q.opts = p.opts →
      q.wrote = p.wrote → q.got = p.got → q.history = p.history →
      (∀ a, r = .packet (.connAck a) → a.reasonCode = .badUserNameOrPassword) →
      Outside c (σ.put c (q.receive r ok)) (q.receive r ok) w := by
    intro q r ok hph hq h1 h2 h3 h4 hr
    have e : q.receive r ok = { q with phase := (q.receive r ok).phase } := by
      unfold Peer.receive; rw [hq]
    have hf : ∃ x, (q.receive r ok).phase = .failed x ∧ ∀ r, x = some (.refused r) → r = .badUserNameOrPassword := by
      unfold Peer.receive
      rw [hq]
      simp only
      cases r with
      | panicked => exact ⟨none, rfl, by simp⟩
      | closed => exact ⟨_, rfl, by simp⟩
      | error x => cases x <;> exact ⟨_, rfl, by simp⟩
      | packet x =>
        cases x with
        | connAck a =>
          have := hr a rfl
          simp only [performConnect, this]
          exact ⟨_, rfl, by simp⟩
        | _ => exact ⟨_, rfl, by simp⟩
    rw [e]
    refine ⟨Or.inr hf, ?_, h.noConn, ?_, ?_, ?_, ?_, h.fresh, h4.trans h.quiet⟩
    · show (Packet.connect (buildConnect q.opts)).encode = .ok q.wrote
      rw [h1, h2]; exact h.wrote
    · show w.rcvd <+: q.wrote
      rw [h2]; exact h.rcvd
    · show q.got <+: w.sent
      rw [h3]; exact h.got
    · intro hc
      obtain ⟨x, hx, _⟩ := hf
      have hc : (q.receive r ok).phase = .connecting := hc
      rw [hx] at hc; cases hc
    · show w.sent <+: refusalBytes q.opts.protocolVersion
      rw [h1]; exact h.sent
  have rdg : p.reading = true → p.phase = .connecting := by
    intro hrd
    rcases h.phase with hph | ⟨e, hph, _⟩
    · exact hph
    · simp [Peer.reading, hph] at hrd
  cases hm with
  | @read n b hrd hnm hb hl hpre =>
    refine ⟨h.phase, h.wrote, h.noConn, h.rcvd, ?_, ?_, h.sent, h.fresh, h.quiet⟩
    · show p.got ++ b <+: w.sent
      unfold System.downstream at hpre
      simp only [hw] at hpre
      obtain ⟨t, ht⟩ := h.got
      rw [← ht, List.drop_left] at hpre
      rw [← ht]
      exact (List.prefix_append_right_inj _).mpr hpre
    · intro _
      show p.buf ++ b = p.got ++ b
      rw [h.buf (rdg hrd)]
  | @turn ok q rest hrd hq =>
    have hph := rdg hrd
    refine lost { p with buf := rest } _ ok hph hph rfl rfl rfl rfl ?_
    intro a ha
    cases ha
    have hb : p.buf <+: refusalBytes p.opts.protocolVersion := by rw [h.buf hph]; exact h.got.trans h.sent
    obtain ⟨a', ha', hrc⟩ := (refusal_read m _ _ hb).1 _ _ hq
    cases ha'
    exact hrc
  | @lost _ r ok hrd hno => exact lost p r ok (rdg hrd) (rdg hrd) rfl rfl rfl rfl (fun a ha => absurd ha (hno _))
  | timeout hph =>
    exact ⟨Or.inr ⟨_, rfl, by simp⟩, h.wrote, h.noConn, h.rcvd, h.got, (fun hc => by cases hc), h.sent,
      h.fresh, h.quiet⟩
  | app hl _ =>
    rcases h.phase with hph | ⟨e, hph, _⟩ <;> rw [hph] at hl <;> cases hl

theorem Outside.same {c : Nat} {σ σ' : System} {p : Peer} {w : Wire} (h : Outside c σ p w)
    (hn : σ'.net.server.conns.get c = σ.net.server.conns.get c) : Outside c σ' p w :=
  ⟨h.phase, h.wrote, hn.trans h.noConn, h.rcvd, h.got, h.buf, h.sent, h.fresh, h.quiet⟩

theorem OutInv.step {m : Mode} {cfg : AuthConfig} (hr : cfg.requireAuth = true) {σ : System} {c : Nat}
    (h : OutInv cfg c σ) (e : SysEvent) : OutInv cfg c (σ.step m cfg e) := by
  by_cases he : conn e = c
  · have hm := moves m cfg σ e
    generalize hσ : σ.step m cfg e = σ' at hm ⊢
    cases hm with
    | idle => exact h
    | @net _ ne h1 h2 h3 =>
      by_cases hne : ne.conn = c
      · rcases h with ⟨hp, hw, hn⟩ | ⟨p, w, hp, hw, h⟩
        · have : σ.net.step m cfg ne = σ.net := by
            cases ne <;> simp only [NetEvent.conn] at hne <;> subst hne
            · exact absurd rfl (h1 _)
            all_goals simp only [Net.step, Net.onWire, hw]
          rw [this]
          exact Or.inl ⟨hp, hw, hn⟩
        · rcases wire_step m cfg σ.net ne c with ⟨a, _⟩ | ⟨w0, w', a, b, _⟩
          · rw [hw] at a; cases a
          · refine Or.inr ⟨p, w', hp, b, fun ha hno => ?_⟩
            obtain ⟨w2, b2, h4⟩ := Outside.net (m := m) hr hp hw ha hno (h ha hno) hne h1 h2
            rw [b2, Option.some.injEq] at b
            subst b
            exact h4
      · rcases h with ⟨hp, hw, hn⟩ | ⟨p, w, hp, hw, h⟩
        · exact Or.inl ⟨hp, by show (σ.net.step m cfg ne).wires.get c = none; rw [net_other hne]; exact hw,
            by show (σ.net.step m cfg ne).server.conns.get c = none; rw [conns_step_other hne]; exact hn⟩
        · exact Or.inr ⟨p, w, hp, by show (σ.net.step m cfg ne).wires.get c = some w; rw [net_other hne]; exact hw,
            fun ha hno => (h ha hno).same (conns_step_other hne)⟩
    | @connect d o b hp hb =>
      simp only [conn] at he
      subst he
      rcases h with ⟨_, hw, hn⟩ | ⟨p, w, hp', _, _⟩
      · refine Or.inr ⟨_, {}, by rw [Map.get_insert, if_pos rfl], ?_, fun _ _ => ?_⟩
        · simp only [Net.step, hw, Map.get_insert, if_true]
        · refine ⟨Or.inl rfl, hb, ?_, List.nil_prefix, List.nil_prefix, fun _ => rfl, List.nil_prefix,
            fun _ => ⟨rfl, rfl, rfl⟩, rfl⟩
          simp only [Net.step, hw]
          exact hn
      · rw [hp] at hp'; cases hp'
    | @peer _ d p p' hp hm =>
      by_cases hd : d = c
      · subst hd
        rcases h with ⟨hp', _, _⟩ | ⟨p0, w, hp', hw, h⟩
        · rw [hp] at hp'; cases hp'
        · rw [hp, Option.some.injEq] at hp'
          subst hp'
          refine Or.inr ⟨p', w, by simp only [System.put, Map.get_insert, if_true], hw, fun ha hno => ?_⟩
          rw [hm.keeps.opts] at ha hno
          exact Outside.peer hw (h ha hno) hm
      · rcases h with ⟨hp', hw, hn⟩ | ⟨p0, w, hp', hw, h⟩
        · exact Or.inl ⟨by simp only [System.put, Map.get_insert, if_neg hd]; exact hp', hw, hn⟩
        · exact Or.inr ⟨p0, w, by simp only [System.put, Map.get_insert, if_neg hd]; exact hp', hw,
            fun ha hno => (h ha hno).same rfl⟩
  · obtain ⟨h1, h2, h3⟩ := sys_other (m := m) (cfg := cfg) (σ := σ) he
    rcases h with ⟨hp, hw, hn⟩ | ⟨p, w, hp, hw, h⟩
    · exact Or.inl ⟨h1.trans hp, h2.trans hw, h3.trans hn⟩
    · exact Or.inr ⟨p, w, h1.trans hp, h2.trans hw, fun ha hno => (h ha hno).same h3⟩

theorem outInv_run (m : Mode) {cfg : AuthConfig} (hr : cfg.requireAuth = true) (c : Nat) (es : List SysEvent) :
    OutInv cfg c (System.init.run m cfg es) := by
  induction es using snoc_induction with
  | h0 => exact Or.inl ⟨rfl, rfl, rfl⟩
  | hs es e ih =>
    rw [show System.init.run m cfg (es ++ [e]) = (System.init.run m cfg es).step m cfg e by simp [System.run]]
    exact ih.step hr e

/-- C109: in every run of a system whose server asks for credentials, an application whose options do not hold
accepted ones never gets a connected client; if its `connect` is refused, the reason it is told is that user
name or password are wrong; and nothing of it gets into the server. -/
theorem C109_refused (m : Mode) (cfg : AuthConfig) (hr : cfg.requireAuth = true) (es : List SysEvent) (c : Nat)
    (p : Peer) (hp : (System.init.run m cfg es).peers.get c = some p) (ha : p.opts.Admissible)
    (hno : ¬ Accepts cfg p.opts.username p.opts.password) :
    (∀ l, p.phase ≠ .connected l) ∧ (∀ r, p.phase = .failed (some (.refused r)) → r = .badUserNameOrPassword) ∧
    p.history = [] ∧ ¬ (System.init.run m cfg es).net.server.isOpen c := by
  rcases outInv_run m hr c es with ⟨h, _⟩ | ⟨p', w, hp', _, h⟩
  · rw [hp] at h; cases h
  · rw [hp, Option.some.injEq] at hp'
    subst hp'
    have ho := h ha hno
    refine ⟨?_, ?_, ho.quiet, ?_⟩
    · intro l hl
      rcases ho.phase with hph | ⟨e, hph, _⟩ <;> rw [hph] at hl <;> cases hl
    · intro r hl
      rcases ho.phase with hph | ⟨e, hph, hx⟩
      · rw [hph] at hl; cases hl
      · rw [hph] at hl; cases hl; exact hx r rfl
    · rintro ⟨k, hk⟩
      rw [ho.noConn] at hk; cases hk

theorem userOf_accepts {mc : Machine} {a : DaemonArgs} {addr : Str} {tls : Option Acceptor} {auth : AuthConfig}
    (hs : daemonStart mc a = .serves addr tls auth) {r : RawConfig} (hr : InEffect mc a r)
    (he : r.authEnabled = some true) (user : Option Str) (password : Option Buf) :
    auth.requireAuth = true ∧ (Accepts auth user password ↔ UserOf mc r user password) := by
  obtain ⟨cf, hc, _, _, ha, _⟩ := serves_cases hs
  rw [inEffect_config hr] at hc; cases hc
  obtain ⟨hq, hv⟩ := auth_cases he ha
  refine ⟨hq, ?_⟩
  rcases hv with ⟨hv1, hv⟩ | ⟨path, t, users, hp, ht, hl, hv⟩
  · constructor
    · rintro ⟨u, pw, v, _, _, h3, _⟩
      rw [hv] at h3; cases h3
    · rintro ⟨path, t, ls, u, h, pw, h1, _⟩
      rw [hv1] at h1; cases h1
  · constructor
    · rintro ⟨u, pw, v, h1, h2, h3, h4⟩
      rw [hv] at h3; cases h3
      obtain ⟨u', h, rfl, hg, hright⟩ := (hashedValidate_iff _ _ _ _).mp h4
      obtain ⟨ls, hls⟩ := linesOf_exists t
      exact ⟨path, t, ls, u', h, pw, hp, ht, hls, (C54_meaning t ls hls users hl u' h).mp hg, h1, h2, hright⟩
    · rintro ⟨path', t', ls, u, h, pw, h1, h2, hls, h3, h4, h5, h6⟩
      rw [hp] at h1; cases h1
      rw [ht] at h2; cases h2
      exact ⟨_, pw, _, h4, h5, hv, (hashedValidate_iff _ _ _ _).mpr
        ⟨u, h, rfl, (C54_meaning t ls hls users hl u h).mpr h3, h6⟩⟩

/-- C109: in every run of a system whose server is a daemon told to authenticate, every application that gets a
connected client gave it the name of a user whom the password file lists, and that user's password. -/
theorem C109_only_users (m : Mode) (mc : Machine) (a : DaemonArgs) (addr : Str) (tls : Option Acceptor)
    (auth : AuthConfig) (hs : daemonStart mc a = .serves addr tls auth) (r : RawConfig) (hr : InEffect mc a r)
    (he : r.authEnabled = some true) (es : List SysEvent) (c : Nat) (p : Peer) (l : Client)
    (hp : (System.init.run m auth es).peers.get c = some p) (hl : p.phase = .connected l)
    (ha : p.opts.Admissible) : UserOf mc r p.opts.username p.opts.password := by
  obtain ⟨h1, h2⟩ := userOf_accepts hs hr he p.opts.username p.opts.password
  refine h2.mp (Classical.byContradiction fun hno => ?_)
  exact (C109_refused m auth h1 es c p hp ha hno).1 l hl

/-! ## Connecting without disturbance -/

/-- How far connection `c` is in `dialling`: `B` is the CONNECT, `A` the answer, `r` what comes of it. -/
def Stage (c : Nat) (o : ConnectOptions) (B A : Buf) (r : Phase) : Nat → System → Prop
  | 0, σ => σ.peers.get c = none ∧ σ.net.wires.get c = none ∧ σ.net.server.conns.get c = none
  | 1, σ => σ.peers.get c = some { opts := o, wrote := B } ∧ σ.net.wires.get c = some {} ∧
      σ.net.server.conns.get c = none
  | 2, σ => σ.peers.get c = some { opts := o, wrote := B } ∧ σ.net.wires.get c = some { buf := B, rcvd := B } ∧
      σ.net.server.conns.get c = none
  | 3, σ => σ.peers.get c = some { opts := o, wrote := B } ∧ ∃ w, σ.net.wires.get c = some w ∧ w.sent = A
  | 4, σ => σ.peers.get c = some { opts := o, wrote := B, buf := A, got := A }
  | _, σ => ∃ p, σ.peers.get c = some p ∧ p.phase = r ∧ p.opts = o

theorem Stage.other {m : Mode} {cfg : AuthConfig} {c : Nat} {o : ConnectOptions} {B A : Buf} {r : Phase} {k : Nat}
    {σ : System} (h : Stage c o B A r k σ) {e : SysEvent} (he : conn e ≠ c) : Stage c o B A r k (σ.step m cfg e) := by
  obtain ⟨h1, h2, h3⟩ := sys_other (m := m) (cfg := cfg) (σ := σ) he
  match k with
  | 0 => simp only [Stage, h1, h2, h3] at h ⊢; exact h
  | 1 => simp only [Stage, h1, h2, h3] at h ⊢; exact h
  | 2 => simp only [Stage, h1, h2, h3] at h ⊢; exact h
  | 3 => simp only [Stage, h1, h2] at h ⊢; exact h
  | 4 => simp only [Stage, h1] at h ⊢; exact h
  | k + 5 => simp only [Stage, h1] at h ⊢; exact h

/-- Every event of `dialling` gets one further. -/
theorem Stage.next {m : Mode} {cfg : AuthConfig} {c : Nat} {o : ConnectOptions} (ho : o.Admissible) {B A : Buf}
    (hB : (Packet.connect (buildConnect o)).encode = .ok B) {n n' : Nat} {uuid : Str} {ok : Bool}
    (hn : B.length ≤ n) (hn' : A.length ≤ n') (hA : A.length ≤ 4096) (hA0 : A ≠ [])
    (hreply : ∀ srv : Server, srv.conns.get c = none →
      writePackets (srv.step cfg (.first c (.connect (wireConnect o).received) uuid true)).2.sent = (A, true))
    {a : ConnAckPacket} (hparse : clientParse m o.protocolVersion A = .packet (.connAck a) []) {r : Phase}
    (hres : ∀ p : Peer, p.opts = o → p.phase = .connecting → (p.receive (.packet (.connAck a)) ok).phase = r)
    {k : Nat} {σ : System} {e : SysEvent} (he : (dialling c o n n' uuid ok)[k]? = some e)
    (h : Stage c o B A r k σ) : Stage c o B A r (k + 1) (σ.step m cfg e) := by
  have hfit : B.length ≤ 2 ^ 28 + 4 := by
    obtain ⟨b', hb', hf⟩ := buildConnect_encode_ok o ho
    have : b' = B := by
      have := hb'.symm.trans hB
      exact Res.ok.inj this
    subst this
    exact hf
  have hB0 : B ≠ [] := encode_ne_nil hB
  match k with
  | 0 =>
    simp only [dialling, List.getElem?_cons_zero, Option.some.injEq] at he
    subst he
    obtain ⟨h1, h2, h3⟩ := h
    simp only [System.step, h1, hB]
    refine ⟨by rw [Map.get_insert, if_pos rfl], ?_, ?_⟩
    · simp only [Net.step, h2, Map.get_insert, if_true]
    · simp only [Net.step, h2]; exact h3
  | 1 =>
    simp only [dialling, List.getElem?_cons_succ, List.getElem?_cons_zero, Option.some.injEq] at he
    subst he
    obtain ⟨h1, h2, h3⟩ := h
    have hup : (σ.upstream c { opts := o, wrote := B }).take (min n (2 ^ 31)) = B := by
      simp only [System.upstream, h2, List.length_nil, List.drop_zero]
      exact List.take_of_length_le (by omega)
    simp only [System.step, System.onPeer, h1, hup]
    cases hb : B with
    | nil => exact absurd hb hB0
    | cons b bs =>
      simp only
      have hp0 : parsePacket m ({} : Wire).buf = .needMore := by cases m <;> rfl
      have e1 : σ.net.step m cfg (.data c (b :: bs)) =
          ⟨σ.net.server, σ.net.wires.insert c { buf := b :: bs, rcvd := b :: bs }⟩ := by
        simp only [Net.step, Net.onWire, h2, if_true, hp0]
        rfl
      rw [e1]
      refine ⟨?_, by rw [Map.get_insert, if_pos rfl], h3⟩
      rw [hb] at h1
      exact h1
  | 2 =>
    simp only [dialling, List.getElem?_cons_succ, List.getElem?_cons_zero, Option.some.injEq] at he
    subst he
    obtain ⟨h1, h2, h3⟩ := h
    have hsv := wireConnect_survives o ho
    have henc : (Packet.connect (wireConnect o)).encode = .ok B := (wireConnect_encode o).trans hB
    have hpk : parsePacket m B = .packet (Packet.connect (wireConnect o)).received [] := by
      have := parsePacket_encode m (rest := []) hsv henc hfit (by rw [List.append_nil]; omega)
      rwa [List.append_nil] at this
    refine ⟨h1, ?_⟩
    simp only [System.step, Net.step, Net.onWire, h2, if_true, hpk, Bool.false_eq_true, if_false, Net.act]
    refine ⟨_, by rw [Map.get_insert, if_pos rfl], ?_⟩
    have := hreply σ.net.server h3
    show [] ++ (writePackets (σ.net.server.step cfg (.first c (.connect (wireConnect o).received) uuid true)).2.sent).1 = A
    rw [this]
    rfl
  | 3 =>
    simp only [dialling, List.getElem?_cons_succ, List.getElem?_cons_zero, Option.some.injEq] at he
    subst he
    obtain ⟨h1, w, h2, h3⟩ := h
    have hdn : (σ.downstream c { opts := o, wrote := B }).take (min n' 4096) = A := by
      simp only [System.downstream, h2, List.length_nil, List.drop_zero, h3]
      exact List.take_of_length_le (by omega)
    have hp0 : clientParse m o.protocolVersion [] = .needMore := rfl
    simp only [System.step, System.onPeer, h1, hdn, Peer.reading, hp0]
    cases ha : A with
    | nil => exact absurd ha hA0
    | cons b bs =>
      show ((σ.peers.insert c _).get c) = _
      rw [Map.get_insert, if_pos rfl]
      rfl
  | 4 =>
    simp only [dialling, List.getElem?_cons_succ, List.getElem?_cons_zero, Option.some.injEq] at he
    subst he
    have h : σ.peers.get c = some { opts := o, wrote := B, buf := A, got := A } := h
    simp only [System.step, System.onPeer, h, Peer.reading, hparse, if_true]
    refine ⟨_, by show (σ.peers.insert c _).get c = _; rw [Map.get_insert, if_pos rfl], hres _ rfl rfl, ?_⟩
    exact (receive_keeps _ _ _).1
  | k + 5 => simp [dialling] at he

/-- Whatever other connections do in between, the events of `dialling` lead to the end. -/
theorem Stage.run {m : Mode} {cfg : AuthConfig} {c : Nat} {o : ConnectOptions} (ho : o.Admissible) {B A : Buf}
    (hB : (Packet.connect (buildConnect o)).encode = .ok B) {n n' : Nat} {uuid : Str} {ok : Bool}
    (hn : B.length ≤ n) (hn' : A.length ≤ n') (hA : A.length ≤ 4096) (hA0 : A ≠ [])
    (hreply : ∀ srv : Server, srv.conns.get c = none →
      writePackets (srv.step cfg (.first c (.connect (wireConnect o).received) uuid true)).2.sent = (A, true))
    {a : ConnAckPacket} (hparse : clientParse m o.protocolVersion A = .packet (.connAck a) []) {r : Phase}
    (hres : ∀ p : Peer, p.opts = o → p.phase = .connecting → (p.receive (.packet (.connAck a)) ok).phase = r)
    (es : List SysEvent) : ∀ (k : Nat) (σ : System), k ≤ 5 → Stage c o B A r k σ →
      es.filter (conn · = c) = (dialling c o n n' uuid ok).drop k → Stage c o B A r 5 (σ.run m cfg es) := by
  induction es with
  | nil =>
    intro k σ hk h he
    have : k = 5 := by
      have := congrArg List.length he
      simp [dialling] at this
      omega
    subst this
    exact h
  | cons e es ih =>
    intro k σ hk h he
    show Stage c o B A r 5 ((σ.step m cfg e).run m cfg es)
    by_cases hc : conn e = c
    · simp only [List.filter_cons, hc, decide_true, if_true] at he
      have hk' : k < 5 := by
        have := congrArg List.length he
        simp [dialling] at this
        omega
      have hget : (dialling c o n n' uuid ok)[k]? = some e := by
        have := congrArg List.head? he
        simpa [List.head?_drop] using this.symm
      refine ih (k + 1) _ (by omega) (h.next ho hB hn hn' hA hA0 hreply hparse hres hget) ?_
      have := congrArg List.tail he
      simpa [List.tail_drop] using this
    · simp only [List.filter_cons, hc, decide_false, Bool.false_eq_true, if_false] at he
      exact ih k _ hk (h.other hc) he

/-- C109: an application whose options do not hold accepted credentials learns it: if its CONNECT gets to the
server and the answer back, whatever other clients do in the meantime, its `connect` fails, and the reason is
that user name or password are wrong. -/
theorem C109_told (m : Mode) (cfg : AuthConfig) (hr : cfg.requireAuth = true) (es : List SysEvent) (c : Nat)
    (o : ConnectOptions) (ho : o.Admissible) (hno : ¬ Accepts cfg o.username o.password) (n n' : Nat) (uuid : Str)
    (ok : Bool) (hn : 2 ^ 28 + 4 ≤ n) (hn' : 5 ≤ n')
    (he : es.filter (conn · = c) = dialling c o n n' uuid ok) :
    ∃ p, (System.init.run m cfg es).peers.get c = some p ∧ p.opts = o ∧
      p.phase = .failed (some (.refused .badUserNameOrPassword)) := by
  obtain ⟨B, hB, hfit⟩ := buildConnect_encode_ok o ho
  obtain ⟨hread, hwhole⟩ := refusal_read m o.protocolVersion _ (List.prefix_refl _)
  obtain ⟨a, ha⟩ := hwhole rfl
  obtain ⟨a', ha', hrc⟩ := hread _ _ ha
  cases ha'
  have hl : (refusalBytes o.protocolVersion).length ≤ 5 := by cases o.protocolVersion <;> decide
  have hsays := wireConnect_says o
  have := Stage.run (m := m) (cfg := cfg) (c := c) (A := refusalBytes o.protocolVersion)
    (r := .failed (some (.refused .badUserNameOrPassword))) (uuid := uuid) (ok := ok) ho hB
    (n := n) (n' := n') (by unfold FitsMqtt at hfit; omega) (by omega) (by omega)
    (by cases o.protocolVersion <;> decide) (fun srv hs => ?_) ha (fun p hp hph => ?_) es 0 System.init (by omega)
    ⟨rfl, rfl, rfl⟩ (by rw [List.drop_zero]; exact he)
  · obtain ⟨p, h1, h2, h3⟩ := this
    exact ⟨p, h1, h3, h2⟩
  · rw [C47_refused cfg srv c _ uuid true (by rintro ⟨k, hk⟩; rw [hs] at hk; cases hk) hr
      (by rw [hsays.userName, hsays.password]; exact hno), refusal_bytes, hsays.version]
    rfl
  · unfold Peer.receive
    rw [hph]
    simp [performConnect, hrc]

/-- The CONNACK for a new session is short. -/
theorem connAck_short (p : ConnAckPacket) (hp : p.properties = none ∨
    ∃ uuid, p.properties = some { assignedClientId := some uuid } ∧ uuid.length ≤ 36) {b : Buf}
    (hb : (Packet.connAck p).encode = .ok b) : b.length ≤ 4096 := by
  have hx : ∃ x : List Property, optProps ConnAckProperties.toProps p.properties = x ∧
      (encodeBlock x).length ≤ 100 := by
    rcases hp with hp | ⟨uuid, hp, hl⟩
    · exact ⟨[], by rw [hp]; rfl, by decide⟩
    · have hs : propsSize [Property.assignedClientIdentifier uuid] = uuid.length + 3 := by
        have h1 : Property.vbiLen (Property.assignedClientIdentifier uuid).id = 1 := rfl
        have h2 : (Property.assignedClientIdentifier uuid).valueSize = uuid.length + 2 := rfl
        simp [propsSize, Property.size, h1, h2]
        omega
      refine ⟨[.assignedClientIdentifier uuid], by rw [hp]; rfl, ?_⟩
      have hv := encodeVbi_length_le (n := uuid.length + 3) (by omega)
      have hsz := propsSize_eq [Property.assignedClientIdentifier uuid] (by rfl)
      rw [encodeBlock, List.length_append, ← hsz, hs, Nat.mod_eq_of_lt (by omega)]
      omega
  obtain ⟨x, h1, h3⟩ := hx
  rw [ConnAckPacket.encode_inv hb]
  have hbody : (ConnAckPacket.body p).length ≤ 200 := by
    simp only [ConnAckPacket.body, h1]
    split <;> simp only [List.length_append, List.length_cons, List.length_nil, encodeReason_length] <;> omega
  have hv := encodeVbi_length_le (n := (ConnAckPacket.body p).length) (by omega)
  simp only [frame, List.length_cons, List.length_append]
  rw [Nat.mod_eq_of_lt (by omega)]
  omega

/-- C109: an application whose options hold accepted credentials is let in: if its CONNECT (with a clean start)
gets to the server and the answer back, whatever other clients do in the meantime, it gets a connected
client. -/
theorem C109_admitted (m : Mode) (cfg : AuthConfig) (es : List SysEvent) (c : Nat)
    (o : ConnectOptions) (ho : o.Admissible) (hclean : o.cleanStart = true)
    (hyes : cfg.requireAuth = true → Accepts cfg o.username o.password) (n n' : Nat) (uuid : Str) (hu : TextField uuid)
    (hul : uuid.length ≤ 36) (ok : Bool) (hn : 2 ^ 28 + 4 ≤ n) (hn' : 4096 ≤ n')
    (he : es.filter (conn · = c) = dialling c o n n' uuid ok) :
    ∃ p, (System.init.run m cfg es).peers.get c = some p ∧ p.opts = o ∧ p.phase = .connected {} := by
  obtain ⟨B, hB, hfit⟩ := buildConnect_encode_ok o ho
  have hsays := wireConnect_says o
  generalize hq : (wireConnect o).received = q at hsays
  have hprops : (connAckOf q uuid false).properties = none ∨
      (connAckOf q uuid false).properties = some { assignedClientId := some uuid } := by
    unfold connAckOf
    simp only
    split
    · exact Or.inr rfl
    · exact Or.inl rfl
  obtain ⟨hsv, A, hAe, hAf⟩ := okTo_connAck o.protocolVersion (connAckOf q uuid false) hsays.version
    (hprops.imp id fun h => ⟨uuid, h, hu⟩)
  have hAl := connAck_short _ (hprops.imp id fun h => ⟨uuid, h, hul⟩) hAe
  obtain ⟨a, ha, hrc⟩ : ∃ a, (Packet.connAck (connAckOf q uuid false)).receivedBy o.protocolVersion = .connAck a ∧
      a.reasonCode = .success := by
    simp only [Packet.receivedBy]
    split
    · exact ⟨_, rfl, rfl⟩
    · exact ⟨_, rfl, rfl⟩
  have hparse : clientParse m o.protocolVersion A = .packet (.connAck a) [] := by
    have hs1 : SentTo o.protocolVersion [.connAck (connAckOf q uuid false)] (A ++ []) := .cons hsv hAe hAf .nil
    rw [List.append_nil] at hs1
    rcases clientParse_whole m (T := []) (tail := []) hs1 (Or.inl rfl) (by
        unfold FitsMqtt at hAf; simp only [List.append_nil]; omega) with ⟨h, _⟩ | ⟨p, ps, rest, h1, h2, h3, _⟩
    · cases h
    · cases h1
      cases h2
      rw [ha, List.append_nil, List.append_nil] at h3
      exact h3
  have := Stage.run (m := m) (cfg := cfg) (c := c) (A := A) (r := .connected {}) (uuid := uuid) (ok := ok) ho hB
    (n := n) (n' := n') (by unfold FitsMqtt at hfit; omega) (by omega) hAl (encode_ne_nil hAe)
    (fun srv hs => ?_) hparse (fun p hp hph => ?_) es 0 System.init (by omega)
    ⟨rfl, rfl, rfl⟩ (by rw [List.drop_zero]; exact he)
  · obtain ⟨p, h1, h2, h3⟩ := this
    exact ⟨p, h1, h3, h2⟩
  · rw [hq]
    rw [(C43_clean_start cfg srv c q uuid ⟨(by rintro ⟨k, hk⟩; rw [hs] at hk; cases hk), fun h => (by
      rw [hsays.userName, hsays.password]; exact hyes h)⟩ (hsays.cleanStart.trans hclean)).1]
    simp only [writePackets, hAe, List.append_nil]
  · unfold Peer.receive
    rw [hph]
    simp [performConnect, hrc]

/-- C109: a daemon told to authenticate lets in every user whom the password file lists, with their password:
if the CONNECT (with a clean start) gets to the server and the answer back, whatever other clients do in the
meantime, the application gets a connected client. -/
theorem C109_users_get_in (m : Mode) (mc : Machine) (a : DaemonArgs) (addr : Str) (tls : Option Acceptor)
    (auth : AuthConfig) (hs : daemonStart mc a = .serves addr tls auth) (r : RawConfig) (hr : InEffect mc a r)
    (ha : r.authEnabled = some true) (es : List SysEvent) (c : Nat) (o : ConnectOptions) (ho : o.Admissible)
    (hclean : o.cleanStart = true) (hu : UserOf mc r o.username o.password) (n n' : Nat) (uuid : Str)
    (hid : TextField uuid) (hul : uuid.length ≤ 36) (ok : Bool) (hn : 2 ^ 28 + 4 ≤ n) (hn' : 4096 ≤ n')
    (he : es.filter (conn · = c) = dialling c o n n' uuid ok) :
    ∃ p, (System.init.run m auth es).peers.get c = some p ∧ p.opts = o ∧ p.phase = .connected {} :=
  C109_admitted m auth es c o ho hclean (fun _ => (userOf_accepts hs hr ha _ _).2.mpr hu) n n' uuid hid hul ok hn hn' he

/-- C109: after `mercuriod passwd` has given a user a password, a daemon started with the file lets this user in
with every password that verifies against the new hash, and nobody with this name and another password. -/
theorem C109_passwd (verify : Str → Buf → Bool) (hash : Text → Option Text) (file : Option Text)
    (before : AuthConfig) (hb : daemonAuth verify true (some file) = some before)
    (user password rest : Text) (hp : password ≠ [])
    (hh : hash password = some ('$' :: rest)) (hs : Storable user ('$' :: rest))
    (order : Map Text Text → List (Text × Text)) (hord : ∀ m, IterationOf m (order m)) :
    ∃ after, daemonAuth verify true
        (some (fileAfter file (addUser hash file user password password) order)) = some after ∧
      ∀ (m : Mode) (es : List SysEvent) (c : Nat) (o : ConnectOptions) (pw : Buf), o.Admissible →
        o.username = some user.bytes → o.password = some pw →
        (verify (Text.bytes ('$' :: rest)) pw = true → o.cleanStart = true →
          ∀ (n n' : Nat) (uuid : Str) (ok : Bool), TextField uuid → uuid.length ≤ 36 → 2 ^ 28 + 4 ≤ n → 4096 ≤ n' →
          es.filter (conn · = c) = dialling c o n n' uuid ok →
          ∃ p, (System.init.run m after es).peers.get c = some p ∧ p.opts = o ∧ p.phase = .connected {}) ∧
        (verify (Text.bytes ('$' :: rest)) pw = false → ∀ p l,
          (System.init.run m after es).peers.get c = some p → p.opts = o → p.phase ≠ .connected l) := by
  obtain ⟨after, h1, h2, check, check', h3, h4, h5, h6⟩ := C61_login verify hash file before hb user password rest hp hh hs order hord
  refine ⟨after, h1, fun m es c o pw ho hu hpw => ⟨fun hv hclean n n' uuid ok hid hul hn hn' he => ?_, fun hv p l hp ho' => ?_⟩⟩
  · exact C109_admitted m after es c o ho hclean (fun _ => ⟨_, _, _, hu, hpw, h4, by rw [h5]; exact hv⟩) n n' uuid hid hul ok hn hn' he
  · refine (C109_refused m after h2 es c p hp (ho' ▸ ho) ?_).1 l
    rw [ho', hu, hpw]
    rintro ⟨u, pw', v, e1, e2, e3, e4⟩
    cases e1
    cases e2
    rw [h4] at e3
    cases e3
    rw [h5, hv] at e4
    cases e4

/-- C109: after `mercuriod passwd -d`, a daemon started with the file never lets the user in. -/
theorem C109_passwd_deleted (verify : Str → Buf → Bool) (file : Option Text)
    (before : AuthConfig) (hb : daemonAuth verify true (some file) = some before) (user : Text)
    (order : Map Text Text → List (Text × Text)) (hord : ∀ m, IterationOf m (order m)) :
    ∃ after, daemonAuth verify true (some (fileAfter file (deleteUser file user) order)) = some after ∧
      ∀ (m : Mode) (es : List SysEvent) (c : Nat) (p : Peer), (System.init.run m after es).peers.get c = some p →
        p.opts.Admissible → p.opts.username = some user.bytes → ∀ l, p.phase ≠ .connected l := by
  obtain ⟨after, h1, h2, check, check', h3, h4, h5, h6⟩ := C61_deleted verify file before hb user order hord
  refine ⟨after, h1, fun m es c p hp ho hu => (C109_refused m after h2 es c p hp ho ?_).1⟩
  rw [hu]
  rintro ⟨u, pw', v, e1, e2, e3, e4⟩
  cases e1
  rw [h4] at e3
  cases e3
  rw [h5] at e4
  cases e4

/-- bob with the right and with the wrong password, at the same time. -/
def exDialling : List SysEvent :=
  let right : ConnectOptions := { username := some (str "bob"), password := some [2] }
  let wrong : ConnectOptions := { username := some (str "bob"), password := some [1] }
  [.connect 0 wrong, .connect 1 right, .serverRead 0 (2 ^ 30), .serverRead 1 (2 ^ 30), .serverTurn 1 (str "v") true,
   .serverTurn 0 (str "u") true, .clientRead 1 4096, .clientRead 0 4096, .clientTurn 0 true, .clientTurn 1 true]

example : exDialling.filter (conn · = 0) =
      dialling 0 { username := some (str "bob"), password := some [1] } (2 ^ 30) 4096 (str "u") true ∧
    exDialling.filter (conn · = 1) =
      dialling 1 { username := some (str "bob"), password := some [2] } (2 ^ 30) 4096 (str "v") true ∧
    ¬ Accepts exDoor (some (str "bob")) (some [1]) ∧ Accepts exDoor (some (str "bob")) (some [2]) ∧
    ConnectOptions.Admissible { username := some (str "bob"), password := some [2] } ∧ TextField (str "v") := by
  refine ⟨rfl, rfl, ?_, ⟨_, _, _, rfl, rfl, rfl, by decide⟩, ?_, by decide⟩
  · rintro ⟨u, pw, v, h1, h2, h3, h4⟩
    cases h1; cases h2; cases h3
    revert h4; decide
  · refine ⟨(by intro x h; cases h), ?_, ?_, (by intro w h; cases h)⟩
    · intro x h; cases h; decide
    · intro x h; cases h; decide

/-- A daemon that lets bob in with the password secret. -/
example : ∃ addr tls auth, daemonStart (exMachine exSettings) {} = .serves addr tls auth ∧
    InEffect (exMachine exSettings) {} exSettings ∧ exSettings.authEnabled = some true ∧
    UserOf (exMachine exSettings) exSettings (some (str "bob")) (some (str "secret")) := by
  have hp : loadPasswords (some "bob:secret\n".toList) = some [("bob".toList, "secret".toList)] := by
    decide +kernel
  have hl : LinesOf "bob:secret\n".toList ["bob:secret".toList, []] :=
    ⟨by simp, by decide +kernel, by decide +kernel⟩
  refine ⟨str "127.0.0.1:1883", some ⟨[[1], [2]], [3], none⟩, _, serves_tls (inEffect_config (exMachine_inEffect _)) rfl (t := ⟨str "cert", str "key", none⟩) rfl
    (daemonAuth_ok _ _ _ hp) (by decide +kernel), exMachine_inEffect _, rfl, ?_⟩
  exact ⟨str "users", _, _, "bob".toList, "secret".toList, _, rfl, rfl, hl, (C54_meaning _ _ hl _ hp _ _).mp (by decide +kernel), by decide +kernel, rfl,
    .inr ⟨by decide +kernel, by decide +kernel⟩⟩

end Mercurio
