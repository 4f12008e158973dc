import Verif.Props.Options
import Verif.Props.Accepted
import Verif.Props.Net

/-!
# C78: what ends a connection
-/

namespace Mercurio

open Spec Server

/-- No publication so far carries both a packet identifier and the QoS that does not exist. -/
def LegalLog (srv : Server) : Prop :=
  ∀ q ∈ Call.publications srv.world.log, q.2.packetId.isSome → q.2.qos ≠ .invalid

theorem legalLog_step {cfg : AuthConfig} {srv : Server} (h : LegalLog srv) (e : Event)
    (he : ∀ c p, e = .recv c (.publish p) → p.qos ≠ .invalid) : LegalLog (srv.step cfg e).1 := by
  have will : ∀ c s, ∀ q ∈ Call.publications (willCalls c s), q.2.packetId.isSome → q.2.qos ≠ .invalid := by
    intro c s q hq
    unfold willCalls at hq
    cases hw : s.will with
    | none => rw [hw] at hq; simp [Call.publications] at hq
    | some w =>
      rw [hw] at hq
      simp only [Call.publications, List.filterMap_cons, List.filterMap_nil, List.mem_singleton] at hq
      subst hq
      intro h; simp at h
  have subs : ∀ l : List Str, Call.publications (l.map Call.subscribe) = [] := by
    intro l
    induction l with
    | nil => rfl
    | cons a l ih => simpa [Call.publications] using ih
  intro q hq
  rw [step_log, Call.publications_append, List.mem_append] at hq
  rcases hq with hq | hq
  · exact h q hq
  · cases e with
    | first c p uuid w =>
      exfalso
      cases p with
      | connect p =>
        simp only [eventCalls] at hq
        split at hq
        · rw [subs] at hq; simp at hq
        · simp [Call.publications] at hq
      | _ => simp [eventCalls, Call.publications] at hq
    | recv c p =>
      simp only [eventCalls] at hq
      cases hs : srv.at c with
      | none => rw [hs] at hq; simp [Call.publications] at hq
      | some s =>
        rw [hs] at hq
        simp only [Call.publications_append, List.mem_append] at hq
        rcases hq with hq | hq
        · cases p with
          | publish p =>
            have := he c p rfl
            simp only [packetCalls] at hq
            split at hq
            · simp only [Call.publications, List.filterMap_cons, List.filterMap_nil, List.mem_singleton] at hq
              subst hq
              intro _; exact this
            · simp [Call.publications] at hq
          | subscribe p => simp only [packetCalls] at hq; rw [subs] at hq; simp at hq
          | _ => simp [packetCalls, Call.publications] at hq
        · split at hq
          · simp [Call.publications] at hq
          · exact will c s q hq
    | deliver c f => simp [eventCalls, Call.publications] at hq
    | close c =>
      simp only [eventCalls] at hq
      cases hs : srv.at c with
      | none => rw [hs] at hq; simp [Call.publications] at hq
      | some s => rw [hs] at hq; exact will c s q hq
    | abort c => simp [eventCalls, Call.publications] at hq
    | restart => simp [eventCalls, Call.publications] at hq

/-- A PUBLISH that was read has a QoS. -/
theorem parsePacket_qos {m : Mode} {b rest : Buf} {p : PublishPacket} (h : parsePacket m b = .packet (.publish p) rest) :
    p.qos ≠ .invalid := by
  unfold parsePacket at h
  cases hc : check m b with
  | panic => rw [hc] at h; cases h
  | err e => rw [hc] at h; cases e <;> cases h
  | ok u =>
    rw [hc] at h
    cases hp : parse m b with
    | panic => rw [hp] at h; cases h
    | err e => rw [hp] at h; cases h
    | ok x =>
      obtain ⟨q, r⟩ := x
      rw [hp] at h
      cases h
      cases b with
      | nil => simp [parse, parseWithVersion] at hp
      | cons a b => exact (C67_accepted_legal_partial m .v5 a b _ _ hp).1.2

theorem legalLog_run (m : Mode) (cfg : AuthConfig) (ns : List NetEvent) : LegalLog (Net.init.run m cfg ns).server := by
  induction ns using snoc_induction with
  | h0 => intro q hq; simp [Net.run, Net.init, Server.init, Call.publications] at hq
  | hs l e ih =>
    rw [Net.run_snoc]
    generalize Net.init.run m cfg l = n at ih
    have act : ∀ c w e, (∀ c p, e = Event.recv c (.publish p) → p.qos ≠ .invalid) → LegalLog (n.act cfg c w e).server := by
      intro c w e he
      have h1 := legalLog_step (cfg := cfg) ih e he
      unfold Net.act
      simp only
      split
      · exact h1
      · exact legalLog_step h1 _ (by intro c p h; cases h)
    have on : ∀ c (f : Wire → Net), (∀ w, n.wires.get c = some w → LegalLog (f w).server) → LegalLog (n.onWire c f).server := by
      intro c f hf
      unfold Net.onWire
      cases hw : n.wires.get c with
      | none => exact ih
      | some w =>
        simp only
        split
        · exact hf w hw
        · exact ih
    cases e with
    | accept c => simp only [Net.step]; split <;> exact ih
    | data c b =>
      refine on c _ fun w _ => ?_
      split
      · split
        · exact act c w _ (by intro c p h; cases h)
        · exact ih
      · exact ih
    | turn c uuid wr =>
      refine on c _ fun w _ => ?_
      split
      · exact ih
      · rename_i p rest hp
        refine act c _ _ ?_
        intro c' q hq
        split at hq
        · cases hq; exact parsePacket_qos hp
        · cases hq
      · exact act c w _ (by intro c p h; cases h)
      · exact act c w _ (by intro c p h; cases h)
    | deliver c f =>
      refine on c _ fun w _ => ?_
      split
      · exact act c w _ (by intro c p h; cases h)
      · exact ih
    | close c => exact on c _ fun w _ => act c w _ (by intro c p h; cases h)

/-- A packet the server forwards can always be written. -/
theorem forwarded_encodes (f : Str) (m : Message) : ∃ b, (forwarded f m).encode = .ok b := ⟨_, rfl⟩

/-- C78: forwarding a message never ends the connection of the subscriber, whatever bytes any client has sent:
the handler goes on running, and what it writes is nothing or the encoding of one PUBLISH. -/
theorem C78_forwarding (m : Mode) (cfg : AuthConfig) (ns : List NetEvent) (hd : ShortChunks ns) (c : Nat) (f : Str) (w : Wire)
    (hw : (Net.init.run m cfg ns).wires.get c = some w) (hr : w.running = true) :
    ∃ w', ((Net.init.run m cfg ns).step m cfg (.deliver c f)).wires.get c = some w' ∧ w'.running = true ∧ w'.buf = w.buf ∧
      (w'.sent = w.sent ∨ ∃ q b, (Packet.publish q).encode = .ok b ∧ w'.sent = w.sent ++ b) := by
  obtain ⟨es, h⟩ := netInv_run m cfg ns hd
  have hlog := legalLog_run m cfg ns
  generalize Net.init.run m cfg ns = n at *
  simp only [Net.step, Net.onWire, hw, hr, if_true]
  by_cases hb : w.begun = true
  · rw [if_pos hb]
    have hopen : n.server.isOpen c := (h.opened c).mpr ⟨w, hw, hr, hb⟩
    unfold Net.act
    simp only [Map.get_insert, if_true]
    rcases deliver_result (cfg := cfg) (srv := n.server) ⟨es, h.server⟩ c f with h0 | ⟨t, mm, hin, _, ⟨h1, h2⟩ | ⟨h1, h2⟩⟩
    · rw [h0]
      have hst : (n.server.step cfg (.deliver c f)).1.isOpen c := by
        obtain ⟨k, hk⟩ := hopen
        simp only [Server.step, Server.onConn, hk] at h0 ⊢
        cases hh : n.server.heap.get k.session with
        | none => exact ⟨k, by simpa [hh] using hk⟩
        | some s =>
          rw [hh] at h0
          simp only [hh]
          unfold Server.deliver at h0 ⊢
          cases ho : s.processOutgoing n.server.world.broker.tree f with
          | idle => exact ⟨k, hk⟩
          | packet s' p => exact ⟨k, hk⟩
          | panicked s' => simp only [ho] at h0; simp at h0
      refine ⟨_, rfl, ?_, rfl, Or.inl ?_⟩
      · exact (isOpen_iff _ _).mp hst
      · simp [writePackets]
    · rw [h1]
      obtain ⟨b, hb'⟩ := forwarded_encodes f mm
      have e : writePackets [forwarded f mm] = (b, true) := by simp [writePackets, hb']
      simp only [e, if_true]
      exact ⟨_, rfl, (isOpen_iff _ _).mp h2, rfl, Or.inr ⟨_, b, hb', rfl⟩⟩
    · exact absurd h2 (hlog _ hin h1)
  · rw [if_neg hb]
    exact ⟨w, hw, hr, rfl, Or.inl rfl⟩

/-- C78: a running handler ends only by what its own client sent (read by `turn`), by the end of its stream, or by its timer,
a shutdown or an error of its socket; never because of another connection or of a message to be sent. -/
theorem C78_ends (m : Mode) (cfg : AuthConfig) (ns : List NetEvent) (hd : ShortChunks ns) (e : NetEvent) (c : Nat) (w : Wire)
    (hw : (Net.init.run m cfg ns).wires.get c = some w) (hr : w.running = true)
    (hend : ∀ w', ((Net.init.run m cfg ns).step m cfg e).wires.get c = some w' → w'.running = false) :
    e = .close c ∨ (e = .data c [] ∧ parsePacket m w.buf = .needMore) ∨
    ∃ uuid written, e = .turn c uuid written ∧ parsePacket m w.buf ≠ .needMore := by
  by_cases hc : c = e.conn
  · subst hc
    cases e with
    | accept c =>
      exfalso
      have hw' : (Net.init.run m cfg ns).wires.get c = some w := hw
      have := hend w (by simp only [Net.step, hw', NetEvent.conn])
      simp [hr] at this
    | data c b =>
      have hw' : (Net.init.run m cfg ns).wires.get c = some w := hw
      right; left
      simp only [Net.step, Net.onWire, NetEvent.conn, hw', hr, if_true] at hend
      cases hp : parsePacket m w.buf with
      | needMore =>
        rw [hp] at hend
        by_cases hb : b = []
        · subst hb; exact ⟨rfl, rfl⟩
        · simp only [if_neg hb] at hend
          have := hend _ (by rw [Map.get_insert, if_pos rfl])
          simp [hr] at this
      | _ =>
        rw [hp] at hend
        have := hend w hw'
        simp [hr] at this
    | turn c uuid wr =>
      have hw' : (Net.init.run m cfg ns).wires.get c = some w := hw
      right; right
      refine ⟨uuid, wr, rfl, ?_⟩
      intro hp
      simp only [Net.step, Net.onWire, NetEvent.conn, hw', hr, if_true, hp] at hend
      have := hend w rfl
      simp [hr] at this
    | deliver c f =>
      exfalso
      obtain ⟨w', h1, h2, _⟩ := C78_forwarding m cfg ns hd c f w hw hr
      have := hend w' h1
      simp [h2] at this
    | close c => exact Or.inl rfl
  · exfalso
    have h := (C64_hostile_peer m cfg ns hd e c hc).1
    have := hend w (h.trans hw)
    simp [hr] at this

/-- A message on its way to a subscriber. -/
example : ∃ w, (Net.init.run .debug {} exChunks).wires.get 0 = some w ∧ w.running = true := by
  refine ⟨((Net.init.run .debug {} exChunks).wires.get 0).getD {}, ?_, ?_⟩ <;> decide +kernel

end Mercurio
