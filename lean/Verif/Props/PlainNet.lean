import Verif.Props.Plain
import Verif.Props.Net
import Verif.Lemmas.Timed

/-!
# C133 on byte streams

What clients write and read in bytes is what a plain broker does.
-/

namespace Mercurio

open Spec Server

/-- The packets sent on a connection, in a history with outputs. -/
def Spec.plainSent (c : Nat) (tr : List (Event × Out)) : List Packet :=
  tr.flatMap fun x => if x.1.conn = some c then x.2.sent else []

theorem plainSent_trace (cfg : AuthConfig) (c : Nat) (es : List Event) : ∀ srv : Server,
    plainSent c (srv.trace cfg es) = srv.sentTo cfg c es := by
  induction es with
  | nil => intro srv; rfl
  | cons e es ih =>
    intro srv
    rw [Server.sentTo, ← ih]
    rfl

theorem trace_events (cfg : AuthConfig) (es : List Event) : ∀ srv : Server, (srv.trace cfg es).map (·.1) = es := by
  induction es with
  | nil => intro srv; rfl
  | cons e es ih => intro srv; simp only [Server.trace, List.map_cons, ih]

theorem willIn_received (p : ConnectPacket) : willIn p.received = willIn p := by
  unfold ConnectPacket.received
  split <;> rfl

/-- Whenever the first packet read on a connection is a CONNECT with a will, the topic of the will is valid.  The bytes may be
anything otherwise. -/
def Spec.WillsRead (m : Mode) (cfg : AuthConfig) (ns : List NetEvent) : Prop :=
  ∀ before c uuid written after w p rest x, ns = before ++ .turn c uuid written :: after →
    (Net.init.run m cfg before).wires.get c = some w → w.begun = false →
    parsePacket m w.buf = .packet (.connect p) rest → willIn p = some x → ValidTopic x.topic

theorem proper_append {a b : List Event} (h1 : ProperWills a) (h2 : ProperWills b) : ProperWills (a ++ b) := by
  intro c p uuid written w hm hw
  rcases List.mem_append.mp hm with hm | hm
  · exact h1 c p uuid written w hm hw
  · exact h2 c p uuid written w hm hw

theorem first_packetsOf {c : Nat} {p : Packet} {uuid : Str} {written : Bool} {es : List Event}
    (h : .first c p uuid written ∈ es) : p ∈ packetsOf c es := by
  simp only [packetsOf, List.mem_filterMap]
  exact ⟨_, h, by simp⟩

/-- Bytes stand for a history of packets with proper wills. -/
theorem netInv_wills (m : Mode) (cfg : AuthConfig) (ns : List NetEvent) (hd : ShortChunks ns) (hw : WillsRead m cfg ns) :
    ∃ es, NetInv cfg (Net.init.run m cfg ns) es ∧ ProperWills es := by
  induction ns using snoc_induction with
  | h0 => exact ⟨[], NetInv.init cfg, fun c p uuid written w hm => by cases hm⟩
  | hs l e ih =>
    obtain ⟨es, h, hp⟩ := ih (fun c b hb => hd c b (List.mem_append_left _ hb))
      fun before c uuid written after w p rest x he => hw before c uuid written (after ++ [e]) w p rest x (by rw [he]; simp)
    rw [Net.run_snoc]
    have hlast := fun c uuid written w p rest x (he : e = .turn c uuid written) =>
      hw l c uuid written [] w p rest x (by rw [he])
    generalize Net.init.run m cfg l = n at h hlast
    have hfirst : ∀ {ex c p uuid written}, Extends n e ex → .first c p uuid written ∈ ex →
        e = .turn c uuid written ∧ ∃ w, n.wires.get c = some w ∧ w.running = true ∧ w.begun = false := by
      intro ex c p uuid written hex hm
      have hst : Stands n e (.first c p uuid written) := by
        rcases hex with rfl | ⟨x, hx, rfl | rfl⟩
        · cases hm
        · rw [List.mem_singleton] at hm; rw [hm]; exact hx
        · simp only [List.mem_cons, List.not_mem_nil, or_false, reduceCtorEq] at hm
          rw [hm]; exact hx
      cases hst with
      | first h1 h2 h3 => exact ⟨rfl, _, h1, h2, h3⟩
    by_cases hpk : ∃ c uuid written w p rest, e = .turn c uuid written ∧ n.wires.get c = some w ∧ w.running = true ∧
        parsePacket m w.buf = .packet p rest
    · obtain ⟨c, uuid, written, w, p, rest, rfl, hwc, hr, hpr⟩ := hpk
      obtain ⟨ex, h1, h2, h3⟩ := h.reads_packet m hwc hr hpr uuid written
      refine ⟨_, h3, proper_append hp fun c' q uuid' written' x hm hx => ?_⟩
      obtain ⟨he, w', hw1, _, hw3⟩ := hfirst h1 hm
      cases he
      have := first_packetsOf hm
      rw [h2, List.mem_singleton] at this
      subst this
      rw [hwc] at hw1
      cases hw1
      exact hlast c uuid written w q rest x rfl hwc hw3 hpr hx
    · obtain ⟨ex, h1, h2⟩ := h.step m e fun c b he => hd c b (by simp [he])
      refine ⟨_, h2, proper_append hp fun c q uuid written x hm hx => ?_⟩
      obtain ⟨he, w, hw1, hw2, hw3⟩ := hfirst h1 hm
      subst he
      exfalso
      have hin : Packet.connect q ∈ packetsOf c (es ++ ex) := first_packetsOf (List.mem_append_right _ hm)
      have hact : ∀ e', ∃ w', (n.act cfg c w e').wires.get c = some w' ∧ w'.begun = false := by
        intro e'
        simp only [Net.act, Map.get_insert, if_true]
        exact ⟨_, rfl, hw3⟩
      have hb : ∃ w', (n.step m cfg (.turn c uuid written)).wires.get c = some w' ∧ w'.begun = false := by
        unfold Net.step Net.onWire
        simp only [hw1, hw2, if_true]
        split
        · exact ⟨w, hw1, hw3⟩
        · rename_i p rest hpr
          exact absurd ⟨c, uuid, written, w, p, rest, rfl, hw1, hw2, hpr⟩ hpk
        · exact hact _
        · exact hact _
      obtain ⟨w', hw', hb'⟩ := hb
      rw [h2.begun c w' hw' hb'] at hin
      cases hin

/-- What the network shows of a run of the plain broker on a connection: the bytes written to the client are the encodings of the
packets sent to it in the run (up to the end of its connection); and if the bytes read from it are the beginning of the
encodings of packets, then the first of these packets are those of the client in the run, and all that have arrived completely
when there is nothing left to do. -/
def Spec.ShowsAt (m : Mode) (cfg : AuthConfig) (n : Net) (tr : List (Event × Out)) (c : Nat) (w : Wire) : Prop :=
  (∃ qs, qs <+: plainSent c tr ∧ (w.running = true → qs = plainSent c tr) ∧ Written qs w.sent) ∧
  ∀ ps bs future, Sent ps bs → w.rcvd ++ future = bs →
    ∃ k, packetsOf c (tr.map (·.1)) = (ps.take k).map Packet.received ∧
      (w.running = true → (∀ uuid written, n.step m cfg (.turn c uuid written) = n) →
        ∃ done tail, Sent (ps.take k) done ∧ Unfinished tail ∧ w.rcvd = done ++ tail)

/-- What the network shows of a run of the plain broker. -/
def Spec.Shows (m : Mode) (cfg : AuthConfig) (n : Net) (tr : List (Event × Out)) : Prop :=
  ∀ c w, n.wires.get c = some w → ShowsAt m cfg n tr c w

theorem shows_trace {m : Mode} {cfg : AuthConfig} {n : Net} {es : List Event} (h : NetInv cfg n es) :
    Shows m cfg n (Server.init.trace cfg es) := by
  refine fun c w hw => ⟨?_, fun ps bs future hs hf => ?_⟩
  · rw [plainSent_trace]; exact h.written c w hw
  rw [trace_events]
  obtain ⟨k, h1, h2⟩ := h.read c w hw ps bs future hs.on hf
  refine ⟨k, h1, fun hr hidle => ?_⟩
  obtain ⟨done, h3, h4, h5⟩ : ∃ done, Sent (ps.take k) done ∧ w.rcvd = done ++ w.buf ∧ w.buf.length < 2 ^ 32 := by
    rcases h2 hr with h | ⟨h, _⟩
    · exact h
    · exact absurd (List.mem_of_mem_take h) hs.noPing
  rcases next_packet m hs h3 h4 hf h5 with ⟨hu, _⟩ | ⟨p, b, rest, _, _, he, _, hb, hp⟩
  · exact ⟨done, w.buf, h3, hu, h4⟩
  · exfalso
    have hx := hidle [] true
    have hw' : n.wires.get c = some w := hw
    have hbuf : ((n.step m cfg (.turn c [] true)).wires.get c).map (·.buf) = some rest := by
      simp only [Net.step, Net.onWire, hw', hr, if_true, hp, Net.act, Map.get_insert, Option.map_some]
    rw [hx, hw'] at hbuf
    simp only [Option.map_some, Option.some.injEq] at hbuf
    have := congrArg List.length hb
    rw [hbuf, List.length_append] at this
    exact encode_ne_nil he (List.length_eq_zero_iff.mp (by omega))

/-- C133 for bytes: whatever bytes clients send, in whatever chunks, what the server writes is explained by a run of the plain
broker, as long as the wills it reads have valid topics. -/
theorem C133_bytes (m : Mode) (cfg : AuthConfig) (ns : List NetEvent) (hd : ShortChunks ns) (hw : WillsRead m cfg ns) :
    ∃ tr b, Plain.new.Goes cfg tr b ∧ Shows m cfg (Net.init.run m cfg ns) tr := by
  obtain ⟨es, h, hp⟩ := netInv_wills m cfg ns hd hw
  obtain ⟨b, hb⟩ := C133_refines cfg es hp
  exact ⟨_, b, hb, shows_trace h⟩

/-- A client that keeps to the rules: the bytes read from it so far are the beginning of the encodings of packets, and wills
announced in them have valid topics. -/
def Spec.Decent (rcvd : Buf) : Prop :=
  ∃ ps bs future, Sent ps bs ∧ rcvd ++ future = bs ∧ ∀ q w, .connect q ∈ ps → willIn q = some w → ValidTopic w.topic

/-- C133 for clients that keep to the rules. -/
theorem C133_decent (m : Mode) (cfg : AuthConfig) (ns : List NetEvent) (hd : ShortChunks ns)
    (hc : ∀ c w, (Net.init.run m cfg ns).wires.get c = some w → Decent w.rcvd) :
    ∃ tr b, Plain.new.Goes cfg tr b ∧ Shows m cfg (Net.init.run m cfg ns) tr := by
  obtain ⟨es, h⟩ := netInv_run m cfg ns hd
  generalize hn : Net.init.run m cfg ns = n at h hc ⊢
  have hp : ProperWills es := by
    intro c p uuid written w hm hw
    have hin := first_packetsOf hm
    cases hwire : n.wires.get c with
    | none => rw [(h.unused c hwire).1] at hin; cases hin
    | some x =>
      obtain ⟨ps, bs, future, hs, hf, hv⟩ := hc c x hwire
      obtain ⟨k, h1, _⟩ := h.read c x hwire ps bs future hs.on hf
      rw [h1] at hin
      obtain ⟨y, hy, he⟩ := List.mem_map.mp hin
      cases y with
      | connect q =>
        cases he
        rw [willIn_received] at hw
        exact hv q w (List.mem_of_mem_take hy) hw
      | _ => cases he
  obtain ⟨b, hb⟩ := C133_refines cfg es hp
  exact ⟨_, b, hb, shows_trace h⟩

/-! ## Example -/

/-- A CONNECT of client `x` with a will. -/
def exWillConnect : ConnectPacket :=
  { protocolVersion := .v5
    flags := { userName := false, password := false, willRetain := false, willQos := .atMostOnce, willFlag := true, cleanStart := true }
    keepalive := 60, properties := none
    payload := { clientId := str "x", willTopic := some (str "g"), willPayload := some (str "b") } }

/-- It arrives in two pieces, together with the beginning of a SUBSCRIBE. -/
def exTwoPieces : List NetEvent :=
  [.accept 0, .data 0 [0x10, 21, 0, 4, 77], .turn 0 (str "u") true,
   .data 0 [81, 84, 84, 5, 6, 0, 60, 0, 0, 1, 120, 0, 0, 1, 103, 0, 1, 98, 0x82, 7, 0, 1], .turn 0 (str "u") true]

theorem exTwoPieces_decent : ∀ c w, (Net.init.run .debug {} exTwoPieces).wires.get c = some w → Decent w.rcvd := by
  have ht : ∀ p : ConnectPacket, p = exWillConnect → p.Consistent ∧ p.Admissible := by
    rintro p rfl
    refine ⟨⟨rfl, rfl, by rintro ⟨⟩, by rintro ⟨⟩, by decide, fun _ => rfl, rfl, rfl⟩,
      ⟨by decide, ?_, ?_, ?_, ?_, ?_, ?_⟩⟩ <;> intro q hq <;> cases hq <;> decide
  have hv : ValidTopic (str "g") := (C22_publish_topic_iff _).mp (by decide +kernel)
  have hs : Sent [.connect exWillConnect, .subscribe ⟨1, none, [⟨str "a", {}⟩]⟩]
      ([16, 21, 0, 4, 77, 81, 84, 84, 5, 6, 0, 60, 0, 0, 1, 120, 0, 0, 1, 103, 0, 1, 98] ++ ([130, 7, 0, 1, 0, 0, 1, 97, 0] ++ [])) := by
    refine .cons (ht _ rfl) (by decide +kernel) (by unfold FitsMqtt; decide) (.cons ?_ (by decide +kernel) (by unfold FitsMqtt; decide) .nil)
    refine ⟨(by rintro q ⟨⟩), (by decide), fun e he => ?_⟩
    simp only [List.mem_cons, List.not_mem_nil, or_false] at he
    subst he
    exact ⟨by decide, (by unfold SubscriptionOptions.Admissible; decide)⟩
  intro c w hw
  have hkeys : (Net.init.run .debug {} exTwoPieces).wires.map (fun x => (x.1, x.2.rcvd)) =
      [(0, [16, 21, 0, 4, 77, 81, 84, 84, 5, 6, 0, 60, 0, 0, 1, 120, 0, 0, 1, 103, 0, 1, 98, 130, 7, 0, 1])] := by decide +kernel
  have hm : (c, w.rcvd) ∈ (Net.init.run .debug {} exTwoPieces).wires.map (fun x => (x.1, x.2.rcvd)) :=
    List.mem_map.mpr ⟨(c, w), mem_of_get hw, rfl⟩
  rw [hkeys] at hm
  simp only [List.mem_cons, List.not_mem_nil, or_false, Prod.mk.injEq] at hm
  refine ⟨_, _, [0, 0, 1, 97, 0], hs, by rw [hm.2]; rfl, fun q x hq hx => ?_⟩
  simp only [List.mem_cons, List.not_mem_nil, or_false, Packet.connect.injEq, reduceCtorEq] at hq
  subst hq
  cases hx
  exact hv

example : ShortChunks exTwoPieces ∧
    ((Net.init.run .debug {} exTwoPieces).wires.get 0).map (fun w => (w.running, w.sent)) = some (true, [0x20, 3, 0, 0, 0]) := by
  constructor
  · intro c b h
    simp only [exTwoPieces, List.mem_cons, List.not_mem_nil, or_false, reduceCtorEq, false_or, NetEvent.data.injEq] at h
    rcases h with ⟨_, rfl⟩ | ⟨_, rfl⟩ <;> decide
  · decide +kernel

/-- The first turn finds an incomplete packet, the second the CONNECT. -/
example : WillsRead .debug {} exTwoPieces := by
  have hv : ValidTopic (str "g") := (C22_publish_topic_iff _).mp (by decide +kernel)
  intro before c uuid written after w p rest x he hw hb hp hx
  have hlen := congrArg List.length he
  have hat := congrArg (fun l => l[before.length]?) he
  have hbefore := congrArg (fun l => l.take before.length) he
  simp only [List.length_append, List.length_cons, exTwoPieces, List.length_nil] at hlen
  simp only [List.getElem?_append_right (Nat.le_refl _), Nat.sub_self, List.getElem?_cons_zero] at hat
  simp only [List.take_left'] at hbefore
  have hcase : before.length = 0 ∨ before.length = 1 ∨ before.length = 2 ∨ before.length = 3 ∨ before.length = 4 := by omega
  have key : ∀ buf, ((Net.init.run .debug {} before).wires.get 0).map (·.buf) = some buf → c = 0 → w.buf = buf := by
    rintro buf h rfl
    rw [hw] at h
    simpa using h
  rcases hcase with h | h | h | h | h <;> rw [h] at hat hbefore <;>
    simp only [exTwoPieces, List.getElem?_cons_zero, List.getElem?_cons_succ, Option.some.injEq, reduceCtorEq,
      NetEvent.turn.injEq] at hat
  · have := key [0x10, 21, 0, 4, 77] (by rw [← hbefore]; decide +kernel) hat.1.symm
    rw [this, show parsePacket .debug [0x10, 21, 0, 4, 77] = .needMore by decide +kernel] at hp
    cases hp
  · have := key [16, 21, 0, 4, 77, 81, 84, 84, 5, 6, 0, 60, 0, 0, 1, 120, 0, 0, 1, 103, 0, 1, 98, 130, 7, 0, 1]
      (by rw [← hbefore]; decide +kernel) hat.1.symm
    rw [this, show parsePacket .debug [16, 21, 0, 4, 77, 81, 84, 84, 5, 6, 0, 60, 0, 0, 1, 120, 0, 0, 1, 103, 0, 1, 98, 130, 7, 0, 1] =
      .packet (Packet.connect exWillConnect).received [130, 7, 0, 1] by decide +kernel] at hp
    cases hp
    cases hx
    exact hv

end Mercurio
