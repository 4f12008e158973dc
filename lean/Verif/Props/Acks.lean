import Verif.Props.Greeting
import Verif.Props.Late
import Verif.Props.Stream
import Mathlib.Data.List.Forall2

/-! # C138: every answer on a connection answers a packet of its client, in order -/

namespace Mercurio

open Spec Server

/-! ## Specification -/

/-- `r` is the kind of packet that answers `q`, and bears its identifier. -/
def Spec.Acks : Packet → Packet → Prop
  | .connect _, .connAck _ => True
  | .publish p, .pubAck a => p.qos = .atLeastOnce ∧ p.packetId = some a.packetId
  | .publish p, .pubRec a => p.qos = .exactlyOnce ∧ p.packetId = some a.packetId
  | .pubRec p, .pubRel a => p.packetId = a.packetId
  | .pubRel p, .pubComp a => p.packetId = a.packetId
  | .subscribe p, .subAck a => p.packetId = a.packetId
  | .unsubscribe p, .unsubAck a => p.packetId = a.packetId
  | .pingReq, .pingResp => True
  | .auth _, .auth _ => True
  | _, _ => False

/-- Everything but messages. -/
def Spec.notMessage : Packet → Bool
  | .publish _ => false
  | _ => true

/-- Packets of a connected client that ask for an answer: all but publications with QoS 0, PUBACK and PUBCOMP. -/
def Spec.asksAnswer : Packet → Bool
  | .publish p => p.qos != .atMostOnce
  | .pubAck _ | .pubComp _ => false
  | _ => true

/-! ## Lemmas -/

/-- What one event writes besides messages answers the packet of that event. -/
theorem step_acks (cfg : AuthConfig) (srv : Server) (e : Event) :
    (srv.step cfg e).2.sent.filter notMessage = [] ∨
    ∃ c q r, ((∃ u w, e = .first c q u w) ∨ e = .recv c q) ∧ (srv.step cfg e).2.sent.filter notMessage = [r] ∧ Acks q r := by
  have on : ∀ (c : Nat) (f : Nat → Session → Server × Out) (P : List Packet → Prop), P [] → (∀ r s, P (f r s).2.sent) →
      P (srv.onConn c f).2.sent := by
    intro c f P h0 hf
    unfold Server.onConn
    split
    · exact h0
    · split
      · exact h0
      · exact hf _ _
  cases e with
  | first c p u w =>
    by_cases hq : ∃ q, p = .connect q
    · obtain ⟨q, rfl⟩ := hq
      cases hk : srv.conns.get c with
      | some k =>
        left
        simp [Server.step, hk]
      | none =>
        simp only [Server.step, hk, Option.isSome_none, Bool.false_eq_true, if_false, Server.connect]
        split
        · exact .inr ⟨c, _, _, .inl ⟨u, w, rfl⟩, rfl, trivial⟩
        · unfold Server.start
          cases w with
          | true =>
            have : ∀ (a : ConnAckPacket) (l : List Inflight), (Packet.connAck a :: l.map retryPacket).filter notMessage = [.connAck a] := by
              intro a l
              rw [List.filter_cons_of_pos rfl, List.filter_eq_nil_iff.mpr]
              intro x hx
              obtain ⟨i, _, rfl⟩ := List.mem_map.mp hx
              simp [retryPacket, notMessage]
            exact .inr ⟨c, _, _, .inl ⟨u, true, rfl⟩, this _ _, trivial⟩
          | false => exact .inl rfl
    · rw [C46_first_packet cfg srv c p u w fun x e => hq ⟨x, e⟩]
      exact .inl rfl
  | recv c q =>
    refine on c _ (fun l => l.filter notMessage = [] ∨ ∃ c' q' r, ((∃ u w, Event.recv c q = .first c' q' u w) ∨ Event.recv c q = .recv c' q') ∧
      l.filter notMessage = [r] ∧ Acks q' r) (.inl rfl) ?_
    intro r s
    have answer : ∀ res, (s.processIncoming srv.world cfg.manager c q).result = .ok (some res) → (∀ d, q ≠ .disconnect d) →
        notMessage res = true ∧ Acks q res := by
      intro res h hd
      cases q with
      | publish q =>
        simp only [Session.processIncoming, Session.handlePublish] at h
        split at h
        · cases h
        · simp only [Session.publishResponse] at h
          split at h <;> cases h <;> exact ⟨rfl, by assumption, by assumption⟩
      | pubAck q => cases h
      | pubRec q => cases h; exact ⟨rfl, rfl⟩
      | pubRel q => cases h; exact ⟨rfl, rfl⟩
      | pubComp q => cases h
      | subscribe q => cases h; exact ⟨rfl, rfl⟩
      | unsubscribe q => cases h; exact ⟨rfl, rfl⟩
      | pingReq => cases h; exact ⟨rfl, trivial⟩
      | disconnect q => exact absurd rfl (hd q)
      | auth q =>
        simp only [Session.processIncoming, Session.handleAuth] at h
        split at h
        · cases h
        · simp only at h
          split at h
          · simp only [Session.authStart] at h
            repeat' split at h
            all_goals cases h
            all_goals exact ⟨rfl, trivial⟩
          · simp only [Session.authContinue] at h
            repeat' split at h
            all_goals cases h
            all_goals exact ⟨rfl, trivial⟩
          · cases h
      | connect q => cases h
      | connAck q => cases h
      | subAck q => cases h
      | unsubAck q => cases h
      | pingResp => cases h
    unfold Server.recv
    split
    · exact .inl rfl
    · rename_i hd
      simp only
      split
      · exact .inl rfl
      · rename_i res hres
        cases res with
        | none => exact .inl rfl
        | some res =>
          obtain ⟨h1, h2⟩ := answer res hres fun d e => hd d e
          exact .inr ⟨c, q, res, .inr rfl, by simp [h1], h2⟩
  | deliver c f =>
    left
    refine on c _ (fun l => l.filter notMessage = []) rfl ?_
    intro r s
    unfold Server.deliver
    split <;> rfl
  | close c => exact .inl (on c _ (fun l => l.filter notMessage = []) rfl fun r s => rfl)
  | abort c => exact .inl rfl
  | restart => exact .inl rfl

/-- A packet after which the connection is still open has been answered, if it asks for an answer. -/
theorem recv_acked {cfg : AuthConfig} {srv : Server} {c : Nat} {s : Session} {q : Packet} (h : srv.at c = some s)
    (ho : (srv.step cfg (.recv c q)).1.isOpen c) :
    List.Forall₂ Acks ([q].filter asksAnswer) ((srv.step cfg (.recv c q)).2.sent.filter notMessage) := by
  by_cases ha : ∃ a, q = .auth a
  · obtain ⟨a, rfl⟩ := ha
    obtain ⟨k, hk, hs, e⟩ := step_recv (cfg := cfg) (p := .auth a) h (by simp)
    rw [e] at ho ⊢
    cases hres : (s.processIncoming srv.world cfg.manager c (.auth a)).result with
    | error x =>
      rw [hres] at ho
      exact absurd ho (not_open_finish _ _ _ _)
    | ok res =>
      have : ∃ b, res = some (.auth b) := by
        simp only [Session.processIncoming, Session.handleAuth] at hres
        split at hres
        · cases hres
        · simp only at hres
          split at hres
          · simp only [Session.authStart] at hres
            repeat' split at hres
            all_goals cases hres
            all_goals exact ⟨_, rfl⟩
          · simp only [Session.authContinue] at hres
            repeat' split at hres
            all_goals cases hres
            all_goals exact ⟨_, rfl⟩
          · cases hres
      obtain ⟨b, rfl⟩ := this
      exact .cons trivial .nil
  · have key := C34_answers cfg srv c s h q fun a e => ha ⟨a, e⟩
    by_cases hacc : Accepted q
    · have hans := (key.1 hacc).2
      generalize (srv.step cfg (.recv c q)).2.sent = out at hans
      cases q with
      | publish p =>
        rcases hans with ⟨h1, rfl⟩ | ⟨h1, id, h2, rfl⟩ | ⟨h1, id, h2, rfl⟩
        · simp [asksAnswer, h1]
        · rw [show [Packet.publish p].filter asksAnswer = [.publish p] by simp [asksAnswer, h1]]
          exact .cons ⟨h1, h2⟩ .nil
        · rw [show [Packet.publish p].filter asksAnswer = [.publish p] by simp [asksAnswer, h1]]
          exact .cons ⟨h1, h2⟩ .nil
      | pubAck p => cases hans; exact .nil
      | pubComp p => cases hans; exact .nil
      | pubRec p => cases hans; exact .cons rfl .nil
      | pubRel p => cases hans; exact .cons rfl .nil
      | subscribe p => obtain ⟨a, rfl, h⟩ := hans; exact .cons h.symm .nil
      | unsubscribe p => obtain ⟨a, rfl, h⟩ := hans; exact .cons h.symm .nil
      | pingReq => cases hans; exact .cons trivial .nil
      | auth a => exact absurd ⟨a, rfl⟩ ha
      | connect p => cases hans
      | connAck p => cases hans
      | subAck p => cases hans
      | unsubAck p => cases hans
      | pingResp => cases hans
      | disconnect p => cases hans
    · exact absurd ho (key.2 hacc).1

theorem stays_open {cfg : AuthConfig} {c : Nat} (es : List Event) : ∀ {srv : Server}, (∀ q u w, Event.first c q u w ∉ es) →
    (srv.run cfg es).isOpen c → srv.isOpen c := by
  induction es with
  | nil => exact fun _ h => h
  | cons e es ih =>
    intro srv hf h
    exact open_before (e := e) (fun q u w hx => hf q u w (by simp [hx]))
      (ih (fun q u w hm => hf q u w (List.mem_cons_of_mem _ hm)) h)

/-! ## The theorems -/

/-- C138: in any history, from any state of the server, what it sends on a connection besides messages are answers, each to another packet
read on that connection, in the order of these packets, of the kind the packet asks for and with its identifier. -/
theorem C138_answers (cfg : AuthConfig) (c : Nat) (es : List Event) : ∀ srv : Server,
    ∃ qs, qs.Sublist (packetsOf c es) ∧ List.Forall₂ Acks qs ((srv.sentTo cfg c es).filter notMessage) := by
  induction es with
  | nil => exact fun _ => ⟨[], List.Sublist.refl _, .nil⟩
  | cons e es ih =>
    intro srv
    obtain ⟨qs, h1, h2⟩ := ih (srv.step cfg e).1
    have skip : (packetsOf c es).Sublist (packetsOf c (e :: es)) := (List.sublist_cons_self e es).filterMap _
    simp only [Server.sentTo, List.filter_append]
    by_cases hc : e.conn = some c
    · rw [if_pos hc]
      rcases step_acks cfg srv e with h | ⟨c', q, r, he, h, ha⟩
      · rw [h]
        exact ⟨qs, h1.trans skip, h2⟩
      · rw [h]
        refine ⟨q :: qs, ?_, .cons ha h2⟩
        rcases he with ⟨u, w, rfl⟩ | rfl <;> cases hc <;> simp [packetsOf, List.filterMap_cons] <;> exact h1
    · rw [if_neg hc]
      exact ⟨qs, h1.trans skip, h2⟩

/-- C138: as long as a connection is open no answer is missing: in any history, from any state of the server that can come about, at the
end of which the connection is still open, the answers sent on it are those to all the packets read on it that ask for one, in order. -/
theorem C138_all_answered (cfg : AuthConfig) (c : Nat) (es : List Event) : ∀ srv : Server, srv.Reachable cfg →
    (∀ q u w, Event.first c q u w ∉ es) → (srv.run cfg es).isOpen c →
    List.Forall₂ Acks ((packetsOf c es).filter asksAnswer) ((srv.sentTo cfg c es).filter notMessage) := by
  induction es with
  | nil => exact fun _ _ _ _ => .nil
  | cons e es ih =>
    intro srv hr hf ho
    have hr' : (srv.step cfg e).1.Reachable cfg := by
      obtain ⟨l, rfl⟩ := hr
      exact ⟨l ++ [e], (run_snoc _ _ _ _).symm⟩
    have hf' : ∀ q u w, Event.first c q u w ∉ es := fun q u w hm => hf q u w (List.mem_cons_of_mem _ hm)
    have hrest := ih _ hr' hf' ho
    have ho1 : (srv.step cfg e).1.isOpen c := stays_open es hf' ho
    have ho0 : srv.isOpen c := open_before (e := e) (fun q u w hx => hf q u w (by simp [hx])) ho1
    obtain ⟨s, hs⟩ := at_of_isOpen hr.inv ho0
    have silent : packetsOf c (e :: es) = packetsOf c es → (e.conn = some c → (srv.step cfg e).2.sent.filter notMessage = []) →
        List.Forall₂ Acks ((packetsOf c (e :: es)).filter asksAnswer) ((srv.sentTo cfg c (e :: es)).filter notMessage) := by
      intro h1 h2
      rw [h1]
      simp only [Server.sentTo, List.filter_append]
      by_cases hc : e.conn = some c
      · rw [if_pos hc, h2 hc]; exact hrest
      · rw [if_neg hc]; exact hrest
    have quiet : (∀ d q, e ≠ .recv d q) → (∀ d q u w, e ≠ .first d q u w) → (srv.step cfg e).2.sent.filter notMessage = [] := by
      intro h1 h2
      rcases step_acks cfg srv e with h | ⟨d, q, r, ⟨u, w, h⟩ | h, _⟩
      · exact h
      · exact absurd h (h2 d q u w)
      · exact absurd h (h1 d q)
    cases e with
    | first d q u w =>
      have hd : d ≠ c := by rintro rfl; exact hf q u w (by simp)
      exact silent (by simp [packetsOf, hd]) (by rintro ⟨⟩; exact absurd rfl hd)
    | recv d q =>
      by_cases hd : d = c
      · subst hd
        have h1 : packetsOf d (.recv d q :: es) = [q] ++ packetsOf d es := by simp [packetsOf]
        rw [h1]
        simp only [Server.sentTo, List.filter_append]
        rw [if_pos (show (Event.recv d q).conn = some d from rfl)]
        exact List.rel_append (recv_acked hs ho1) hrest
      · exact silent (by simp [packetsOf, hd]) (by rintro ⟨⟩; exact absurd rfl hd)
    | deliver d f => exact silent (by simp [packetsOf]) fun _ => quiet (by simp) (by simp)
    | close d => exact silent (by simp [packetsOf]) fun _ => quiet (by simp) (by simp)
    | abort d => exact silent (by simp [packetsOf]) fun _ => quiet (by simp) (by simp)
    | restart => exact silent (by simp [packetsOf]) fun _ => quiet (by simp) (by simp)

example : exServer.Reachable exCfg ∧
    ((exServer.run exCfg [.recv 0 (.publish exPublish), .recv 0 .pingReq]).conns.get 0).isSome = true :=
  ⟨⟨_, rfl⟩, by decide +kernel⟩

/-- C138 on byte streams: whatever the clients do and in whatever chunks the bytes arrive, the bytes written to a client are the encodings
of packets which, messages aside, answer packets of this client, each another one, in the order in which it sent them. -/
theorem C138_stream (m : Mode) (cfg : AuthConfig) (ns : List NetEvent) (hd : ShortChunks ns) (c : Nat) (w : Wire)
    (hw : (Net.init.run m cfg ns).wires.get c = some w) (ps : List Packet) (bs future : Buf) (hs : Sent ps bs) (hf : w.rcvd ++ future = bs) :
    ∃ out qs, Written out w.sent ∧ qs.Sublist (ps.map Packet.received) ∧ List.Forall₂ Acks qs (out.filter notMessage) := by
  obtain ⟨es, -, -, h⟩ := C63_bytes_to_packets m cfg ns hd
  obtain ⟨⟨out, h1, -, h2⟩, h3⟩ := h c w hw
  obtain ⟨k, h4, -⟩ := h3 ps bs future hs hf
  obtain ⟨qs, h5, h6⟩ := C138_answers cfg c es Server.init
  obtain ⟨t, ht⟩ := h1
  rw [← ht, List.filter_append] at h6
  refine ⟨out, qs.take (out.filter notMessage).length, h2, ?_, ?_⟩
  · refine (List.take_sublist _ _).trans (h5.trans ?_)
    rw [h4]
    exact (List.take_sublist _ _).map _
  · exact List.forall₂_take_append _ _ _ h6

/-- The packets the server takes out of the buffer of connection `c` at an event. -/
def Spec.readsAt (m : Mode) (c : Nat) (n : Net) : NetEvent → List Packet
  | .turn d _ _ =>
    if d = c then
      match n.wires.get c with
      | some w => if w.running then (match parsePacket m w.buf with | .packet p _ => [p] | _ => []) else []
      | none => []
    else []
  | _ => []

/-- The packets the server takes out of the buffer of connection `c` in a history on byte streams. -/
def Spec.readOn (m : Mode) (cfg : AuthConfig) (c : Nat) (n : Net) : List NetEvent → List Packet
  | [] => []
  | e :: es => readsAt m c n e ++ readOn m cfg c (n.step m cfg e) es

theorem readOn_snoc (m : Mode) (cfg : AuthConfig) (c : Nat) (e : NetEvent) (ns : List NetEvent) : ∀ n : Net,
    readOn m cfg c n (ns ++ [e]) = readOn m cfg c n ns ++ readsAt m c (n.run m cfg ns) e := by
  induction ns with
  | nil => intro n; simp [readOn, Net.run]
  | cons x ns ih => intro n; simp [readOn, ih, Net.run]

theorem acks_asks {q r : Packet} (h : Acks q r) : asksAnswer q = true := by
  cases q with
  | publish p => cases r <;> first | exact h.elim | simp [asksAnswer, h.1]
  | pubAck p => cases r <;> exact h.elim
  | pubComp p => cases r <;> exact h.elim
  | _ => rfl

theorem written_more {ps qs : List Packet} {a b : Buf} (h : Written ps a) (h' : Written qs b) : Written (ps ++ qs) (a ++ b) := by
  induction h with
  | nil => exact h'
  | cons he _ ih => rw [List.append_assoc]; exact .cons he ih

theorem written_whole : ∀ {ps : List Packet}, (writePackets ps).2 = true → Written ps (writePackets ps).1
  | [], _ => .nil
  | p :: ps, h => by
    unfold writePackets at h ⊢
    split at h
    · rename_i b hb
      simp only [hb]
      exact .cons hb (written_whole h)
    · cases h

/-- C138 on byte streams: as long as a connection is open, whatever bytes have arrived on any connection, the bytes written on it are the
encodings of packets which, messages aside, are the answers to all the packets the server has read on it that ask for one, in order. -/
theorem C138_all_answered_stream (m : Mode) (cfg : AuthConfig) (ns : List NetEvent) (hd : ShortChunks ns) (c : Nat) (w : Wire)
    (hw : (Net.init.run m cfg ns).wires.get c = some w) (hr : w.running = true) :
    ∃ out, Written out w.sent ∧ List.Forall₂ Acks ((readOn m cfg c Net.init ns).filter asksAnswer) (out.filter notMessage) := by
  suffices h : ((Net.init.run m cfg ns).wires.get c = none → readOn m cfg c Net.init ns = []) ∧
      ∀ w, (Net.init.run m cfg ns).wires.get c = some w → w.running = true → ∃ out, Written out w.sent ∧
        List.Forall₂ Acks ((readOn m cfg c Net.init ns).filter asksAnswer) (out.filter notMessage) ∧
        (w.begun = false → readOn m cfg c Net.init ns = [] ∧ out = []) by
    obtain ⟨out, h1, h2, _⟩ := h.2 w hw hr
    exact ⟨out, h1, h2⟩
  clear hr hw w
  induction ns using snoc_induction with
  | h0 => exact ⟨fun _ => rfl, fun w hw => by simp [Net.run, Net.init, Map.get] at hw⟩
  | hs ns e ih =>
    have ih := ih (fun c b hb => hd c b (by simp [hb]))
    obtain ⟨es, hN⟩ := netInv_run m cfg ns (fun c b hb => hd c b (by simp [hb]))
    have hrun : Net.init.run m cfg (ns ++ [e]) = (Net.init.run m cfg ns).step m cfg e := by simp [Net.run]
    rw [hrun, readOn_snoc]
    generalize readOn m cfg c Net.init ns = rd at *
    generalize Net.init.run m cfg ns = n at *
    obtain ⟨ih0, ih⟩ := ih
    -- acting on a wire
    have acts : ∀ (d : Nat) (w : Wire) (x : Event) (v : Wire), (n.act cfg d w x).wires.get c = some v → v.running = true →
        (d ≠ c ∧ n.wires.get c = some v) ∨ (d = c ∧ v.begun = w.begun ∧ (n.server.step cfg x).1.isOpen c ∧
          ∃ b, v.sent = w.sent ++ b ∧ Written (n.server.step cfg x).2.sent b) := by
      intro d w x v hv hr
      simp only [Net.act, Map.get_insert] at hv
      split at hv
      · rename_i hdc
        subst hdc
        cases hv
        simp only at hr
        split at hr
        · rename_i hok
          simp only [Bool.and_eq_true] at hok
          obtain ⟨k, hk⟩ := Option.isSome_iff_exists.mp hr
          exact .inr ⟨rfl, rfl, ⟨k, hk⟩, _, rfl, written_whole hok.1⟩
        · simp [Server.step, Map.get_erase] at hr
      · rename_i hdc
        exact .inl ⟨hdc, hv⟩
    have gone : ∀ (d : Nat) (w : Wire) (x : Event), (n.act cfg d w x).wires.get c = none → n.wires.get c = none := by
      intro d w x hv
      simp only [Net.act, Map.get_insert] at hv
      split at hv
      · cases hv
      · exact hv
    have same : readsAt m c n e = [] → n.step m cfg e = n → (((n.step m cfg e).wires.get c = none → rd ++ readsAt m c n e = []) ∧
      ∀ w, (n.step m cfg e).wires.get c = some w → w.running = true → ∃ out, Written out w.sent ∧
        List.Forall₂ Acks ((rd ++ readsAt m c n e).filter asksAnswer) (out.filter notMessage) ∧
        (w.begun = false → rd ++ readsAt m c n e = [] ∧ out = [])) := by
      intro h1 h2
      rw [h1, h2, List.append_nil]
      exact ⟨ih0, ih⟩
    -- an event that sends no answer
    have quiet : ∀ (d : Nat) (w : Wire) (x : Event), n.wires.get d = some w → w.running = true →
        (n.server.step cfg x).2.sent.filter notMessage = [] → (w.begun = false → (n.server.step cfg x).2.sent = []) →
        n.step m cfg e = n.act cfg d w x → readsAt m c n e = [] →
        (((n.step m cfg e).wires.get c = none → rd ++ readsAt m c n e = []) ∧
      ∀ w, (n.step m cfg e).wires.get c = some w → w.running = true → ∃ out, Written out w.sent ∧
        List.Forall₂ Acks ((rd ++ readsAt m c n e).filter asksAnswer) (out.filter notMessage) ∧
        (w.begun = false → rd ++ readsAt m c n e = [] ∧ out = [])) := by
      intro d w x hw hr hs hb hst hre
      rw [hre, hst, List.append_nil]
      refine ⟨fun h => ih0 (gone d w x h), fun v hv hrv => ?_⟩
      rcases acts d w x v hv hrv with ⟨_, h⟩ | ⟨rfl, h1, _, b, h2, h3⟩
      · exact ih v h hrv
      · obtain ⟨out, g1, g2, g3⟩ := ih w hw hr
        refine ⟨out ++ (n.server.step cfg x).2.sent, by rw [h2]; exact written_more g1 h3, by rw [List.filter_append, hs, List.append_nil]; exact g2, fun h => ?_⟩
        rw [h1] at h
        rw [hb h, List.append_nil]
        exact g3 h
    have onw : ∀ (d : Nat) (f : Wire → Net), (n.onWire d f = n ∧ ∀ w, n.wires.get d = some w → w.running = false) ∨
        ∃ w, n.wires.get d = some w ∧ w.running = true ∧ n.onWire d f = f w := by
      intro d f
      unfold Net.onWire
      cases hc : n.wires.get d with
      | none => exact .inl ⟨rfl, by simp⟩
      | some w =>
        simp only
        split
        · rename_i hr; exact .inr ⟨w, rfl, hr, rfl⟩
        · rename_i hr
          refine .inl ⟨rfl, ?_⟩
          rintro _ ⟨⟩
          simpa using hr
    have hclose : ∀ d, (n.server.step cfg (.close d)).2.sent = [] := close_silent cfg n.server
    cases e with
    | accept d =>
      simp only [Net.step, readsAt, List.append_nil]
      split
      · exact ⟨ih0, ih⟩
      · rename_i hd
        refine ⟨fun h => ?_, fun v hv hrv => ?_⟩
        · simp only [Map.get_insert] at h
          split at h
          · cases h
          · exact ih0 h
        · simp only [Map.get_insert] at hv
          split at hv
          · rename_i hdc
            subst hdc
            cases hv
            exact ⟨[], .nil, by rw [ih0 hd]; exact .nil, fun _ => ⟨ih0 hd, rfl⟩⟩
          · exact ih v hv hrv
    | data d bytes =>
      rcases onw d _ with ⟨h, _⟩ | ⟨w, hw, hr, h⟩
      · exact same rfl h
      · cases hp : parsePacket m w.buf with
        | needMore =>
          simp only [hp] at h
          by_cases hb : bytes = []
          · rw [if_pos hb] at h
            exact quiet d w _ hw hr (by rw [hclose]; rfl) (fun _ => hclose d) h rfl
          · rw [if_neg hb] at h
            have h' : n.step m cfg (.data d bytes) = _ := h
            rw [h']
            simp only [readsAt, List.append_nil, Map.get_insert]
            refine ⟨fun h => ?_, fun v hv hrv => ?_⟩
            · split at h
              · cases h
              · exact ih0 h
            · split at hv
              · rename_i hdc
                subst hdc
                cases hv
                exact ih w hw hr
              · exact ih v hv hrv
        | packet p rest => simp only [hp] at h; exact same rfl h
        | error x => simp only [hp] at h; exact same rfl h
        | panicked => simp only [hp] at h; exact same rfl h
    | turn d u wr =>
      rcases onw d _ with ⟨h, hno⟩ | ⟨w, hw, hr, h⟩
      · refine same ?_ h
        simp only [readsAt]
        split
        · rename_i hdc
          subst hdc
          split
          · rename_i w hw
            rw [hno w hw]
            rfl
          · rfl
        · rfl
      · have hreads : ∀ l, (match parsePacket m w.buf with | .packet p _ => [p] | _ => []) = l →
            readsAt m c n (.turn d u wr) = if d = c then l else [] := by
          rintro _ rfl
          simp only [readsAt]
          split
          · rename_i hdc
            subst hdc
            rw [hw]
            simp only [hr, if_true]
          · rfl
        cases hp : parsePacket m w.buf with
        | needMore => simp only [hp] at h; exact same (by rw [hreads [] (by rw [hp])]; simp) h
        | error x =>
          simp only [hp] at h
          exact quiet d w _ hw hr (by rw [hclose]; rfl) (fun _ => hclose d) h (by rw [hreads [] (by rw [hp])]; simp)
        | panicked =>
          simp only [hp] at h
          exact quiet d w _ hw hr rfl (fun _ => rfl) h (by rw [hreads [] (by rw [hp])]; simp)
        | packet p rest =>
          simp only [hp] at h
          have hst : n.step m cfg (.turn d u wr) = _ := h
          rw [hst, hreads [p] (by rw [hp])]
          by_cases hdc : d = c
          · subst hdc
            rw [if_pos rfl]
            refine ⟨fun h => ?_, fun v hv hrv => ?_⟩
            · rw [gone d _ _ h] at hw
              cases hw
            · obtain ⟨out, g1, g2, g3⟩ := ih w hw hr
              rcases acts d _ _ v hv hrv with ⟨h, _⟩ | ⟨_, h1, h2, b, h3, h4⟩
              · exact absurd rfl h
              · refine ⟨out ++ _, by rw [h3]; exact written_more g1 h4, ?_, fun h => by rw [h1] at h; cases h⟩
                rw [List.filter_append, List.filter_append]
                refine List.rel_append g2 ?_
                cases hb : w.begun with
                | true =>
                  simp only [hb, if_true] at h2 ⊢
                  have ho : n.server.isOpen d := (hN.opened d).mpr ⟨w, hw, hr, hb⟩
                  obtain ⟨s, hs⟩ := at_of_isOpen (show Server.Reachable cfg n.server from ⟨es, hN.server⟩).inv ho
                  exact recv_acked hs h2
                | false =>
                  simp only [hb, Bool.false_eq_true, if_false] at h2 ⊢
                  have hk : n.server.conns.get d = none := by
                    cases hk : n.server.conns.get d with
                    | none => rfl
                    | some k =>
                      obtain ⟨w0, h0, _, h1⟩ := (hN.opened d).mp ⟨k, hk⟩
                      rw [hw] at h0
                      cases h0
                      rw [hb] at h1
                      cases h1
                  obtain ⟨k, hk2⟩ := h2
                  rcases first_answer cfg n.server d p u wr hk with ⟨_, f⟩ | ⟨_, _, _, f⟩ | ⟨a, rest, f, _⟩
                  · rw [f] at hk2; cases hk2
                  · rw [f] at hk2; cases hk2
                  · rcases step_acks cfg n.server (.first d p u wr) with h | ⟨c', q, r, h, h5, h6⟩
                    · rw [f] at h; cases h
                    · have : q = p := by
                        rcases h with ⟨_, _, h⟩ | h
                        · cases h; rfl
                        · cases h
                      subst this
                      rw [h5, List.filter_cons_of_pos (acks_asks h6)]
                      exact .cons h6 .nil
          · rw [if_neg hdc, List.append_nil]
            refine ⟨fun h => ih0 (gone d _ _ h), fun v hv hrv => ?_⟩
            rcases acts d _ _ v hv hrv with ⟨_, h⟩ | ⟨h, _⟩
            · exact ih v h hrv
            · exact absurd h hdc
    | deliver d f =>
      rcases onw d _ with ⟨h, _⟩ | ⟨w, hw, hr, h⟩
      · exact same rfl h
      · cases hb : w.begun with
        | true =>
          simp only [hb, if_true] at h
          refine quiet d w _ hw hr ?_ (fun h => by rw [hb] at h; cases h) h rfl
          rcases step_acks cfg n.server (.deliver d f) with h | ⟨_, _, _, ⟨_, _, h⟩ | h, _⟩
          · exact h
          · cases h
          · cases h
        | false =>
          simp only [hb, Bool.false_eq_true, if_false] at h
          exact same rfl h
    | close d =>
      rcases onw d _ with ⟨h, _⟩ | ⟨w, hw, hr, h⟩
      · exact same rfl h
      · exact quiet d w _ hw hr (by rw [hclose]; rfl) (fun _ => hclose d) h rfl

example : (readOn .debug {} 0 Net.init exChunks).map asksAnswer = [true, true] ∧
    ((Net.init.run .debug {} exChunks).wires.get 0).map (fun w => (w.running, w.sent)) =
      some (true, [0x20, 3, 0, 0, 0, 0x90, 4, 0, 1, 0, 0]) := by decide +kernel

/-- A packet is taken out of the buffer with at least one byte. -/
theorem parsePacket_takes {m : Mode} {buf rest : Buf} {p : Packet} (h : parsePacket m buf = .packet p rest) : rest.length < buf.length := by
  have : readPacket m buf [] = (.packet p, rest, []) := by
    unfold readPacket
    rw [h]
  simpa using C19_progress m [] buf p rest [] this

/-- C138: the server does not answer more than it is sent: there are at most as many packets read on a connection, and so at most as many
answers while it is open, as bytes have been received on it. -/
theorem C138_bounded (m : Mode) (cfg : AuthConfig) (ns : List NetEvent) (c : Nat) (w : Wire)
    (hw : (Net.init.run m cfg ns).wires.get c = some w) : (readOn m cfg c Net.init ns).length + w.buf.length ≤ w.rcvd.length := by
  suffices h : ((Net.init.run m cfg ns).wires.get c = none → readOn m cfg c Net.init ns = []) ∧
      ∀ w, (Net.init.run m cfg ns).wires.get c = some w → (readOn m cfg c Net.init ns).length + w.buf.length ≤ w.rcvd.length from h.2 w hw
  clear hw w
  induction ns using snoc_induction with
  | h0 => exact ⟨fun _ => rfl, fun w hw => by simp [Net.run, Net.init, Map.get] at hw⟩
  | hs ns e ih =>
    have hrun : Net.init.run m cfg (ns ++ [e]) = (Net.init.run m cfg ns).step m cfg e := by simp [Net.run]
    rw [hrun, readOn_snoc]
    generalize readOn m cfg c Net.init ns = rd at *
    generalize Net.init.run m cfg ns = n at *
    obtain ⟨ih0, ih⟩ := ih
    -- a wire changes at most as told
    have put : ∀ (d : Nat) (w w' : Wire) (n' : Net) (l : List Packet), n.wires.get d = some w → n'.wires = n.wires.insert d w' →
        (d = c → l.length + w'.buf.length + w.rcvd.length ≤ w.buf.length + w'.rcvd.length) → (d ≠ c → l = []) →
        (n'.wires.get c = none → rd ++ l = []) ∧ ∀ v, n'.wires.get c = some v → (rd ++ l).length + v.buf.length ≤ v.rcvd.length := by
      intro d w w' n' l hw hn h1 h2
      rw [hn]
      simp only [Map.get_insert, List.length_append]
      by_cases hd : d = c
      · subst hd
        simp only [if_true]
        refine ⟨(by simp), ?_⟩
        intro v hv
        cases hv
        have := ih w hw
        have := h1 rfl
        omega
      · rw [if_neg hd, h2 hd]
        simpa using ⟨ih0, ih⟩
    have keep : ∀ (d : Nat) (f : Wire → Net), (∀ w, n.wires.get d = some w → w.running = true →
          ((f w).wires.get c = none → rd ++ readsAt m c n e = []) ∧
            ∀ v, (f w).wires.get c = some v → (rd ++ readsAt m c n e).length + v.buf.length ≤ v.rcvd.length) →
        ((∀ w, n.wires.get d = some w → w.running = false) → readsAt m c n e = []) →
        ((n.onWire d f).wires.get c = none → rd ++ readsAt m c n e = []) ∧
          ∀ v, (n.onWire d f).wires.get c = some v → (rd ++ readsAt m c n e).length + v.buf.length ≤ v.rcvd.length := by
      intro d f hf hno
      unfold Net.onWire
      cases hc : n.wires.get d with
      | none => rw [hno (by simp [hc])]; simpa using ⟨ih0, ih⟩
      | some w =>
        simp only
        split
        · rename_i hr; exact hf w hc hr
        · rename_i hr
          rw [hno (by rw [hc]; rintro _ ⟨⟩; simpa using hr)]
          simpa using ⟨ih0, ih⟩
    cases e with
    | accept d =>
      simp only [Net.step, readsAt, List.append_nil]
      split
      · exact ⟨ih0, ih⟩
      · rename_i hd
        simp only [Map.get_insert]
        by_cases hdc : d = c
        · subst hdc
          simp only [if_true]
          refine ⟨(by simp), ?_⟩
          intro v hv
          cases hv
          rw [ih0 hd]
          simp
        · rw [if_neg hdc]
          exact ⟨ih0, ih⟩
    | data d bytes =>
      refine keep d _ (fun w hw hr => ?_) fun _ => rfl
      split
      · split
        · exact put d w _ _ _ hw rfl (fun _ => by simp [readsAt, Nat.add_comm]) fun _ => rfl
        · exact put d w _ _ _ hw rfl (fun _ => by simp [readsAt]; omega) fun _ => rfl
      · simpa [readsAt] using ⟨ih0, ih⟩
    | turn d u wr =>
      refine keep d _ (fun w hw hr => ?_) fun hno => ?_
      · have hreads : ∀ l, (match parsePacket m w.buf with | .packet p _ => [p] | _ => []) = l →
            readsAt m c n (.turn d u wr) = if d = c then l else [] := by
          rintro _ rfl
          simp only [readsAt]
          split
          · rename_i hdc
            subst hdc
            rw [hw]
            simp only [hr, if_true]
          · rfl
        cases hp : parsePacket m w.buf with
        | needMore =>
          rw [hreads [] (by rw [hp])]
          simpa using ⟨ih0, ih⟩
        | packet p rest =>
          rw [hreads [p] (by rw [hp])]
          have := parsePacket_takes hp
          refine put d w _ _ _ hw rfl (fun hdc => ?_) fun hdc => if_neg hdc
          rw [if_pos hdc]
          simp only [List.length_singleton]
          omega
        | error x =>
          rw [hreads [] (by rw [hp])]
          exact put d w _ _ _ hw rfl (fun _ => by simp [Nat.add_comm]) fun _ => by simp
        | panicked =>
          rw [hreads [] (by rw [hp])]
          exact put d w _ _ _ hw rfl (fun _ => by simp [Nat.add_comm]) fun _ => by simp
      · simp only [readsAt]
        split
        · rename_i hdc
          subst hdc
          split
          · rename_i w hw
            rw [hno w hw]
            rfl
          · rfl
        · rfl
    | deliver d f =>
      refine keep d _ (fun w hw hr => ?_) fun _ => rfl
      split
      · exact put d w _ _ _ hw rfl (fun _ => by simp [readsAt, Nat.add_comm]) fun _ => rfl
      · simpa [readsAt] using ⟨ih0, ih⟩
    | close d =>
      refine keep d _ (fun w hw hr => ?_) fun _ => rfl
      exact put d w _ _ _ hw rfl (fun _ => by simp [readsAt, Nat.add_comm]) fun _ => rfl

example : (readOn .debug {} 0 Net.init exChunks).length = 2 ∧
    ((Net.init.run .debug {} exChunks).wires.get 0).map (fun w => (w.buf.length, w.rcvd.length)) = some (0, 25) := by decide +kernel

/-- The bytes of a CONNECT that has been answered. -/
example : Sent [.connect exNewcomer] [0x10, 14, 0, 4, 77, 81, 84, 84, 5, 2, 0, 60, 0, 0, 1, 121] ∧
    ((Net.init.run .debug {} [.accept 0, .data 0 [0x10, 14, 0, 4, 77, 81, 84, 84, 5, 2, 0, 60, 0, 0, 1, 121],
      .turn 0 (str "u") true]).wires.get 0).map (fun w => (w.rcvd, w.sent)) =
      some ([0x10, 14, 0, 4, 77, 81, 84, 84, 5, 2, 0, 60, 0, 0, 1, 121], [0x20, 3, 0, 0, 0]) := by
  refine ⟨?_, by decide +kernel⟩
  have hsv : (Packet.connect exNewcomer).Survives := by
    have ht : ∀ p : ConnectPacket, p = exNewcomer → p.Consistent ∧ p.Admissible := by
      rintro p rfl
      refine ⟨⟨rfl, rfl, by rintro ⟨⟩, by rintro ⟨⟩, by decide, fun _ => rfl, rfl, rfl⟩,
        ⟨by decide, ?_, ?_, ?_, ?_, ?_, ?_⟩⟩ <;> intro q hq <;> cases hq
    exact ht _ rfl
  exact .cons (bytes := [0x10, 14, 0, 4, 77, 81, 84, 84, 5, 2, 0, 60, 0, 0, 1, 121]) (bs := []) hsv (by decide +kernel) (by simp [FitsMqtt]) .nil

/-- A client that connects, subscribes, publishes to itself and pings: three answers and a ping response. -/
example : ((Server.init.sentTo exCfg 0 [.first 0 (.connect (exConnect (str "x") true)) (str "uuid") true,
    .recv 0 (.subscribe ⟨1, none, [⟨str "a/+", {}⟩]⟩), .recv 0 (.publish exPublish), .deliver 0 (str "a/+"),
    .recv 0 .pingReq]).map notMessage) = [true, true, true, false, true] := by decide +kernel

end Mercurio
