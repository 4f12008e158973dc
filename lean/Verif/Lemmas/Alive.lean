import Verif.Props.System
import Verif.Props.Stream

/-!
# The whole system: connections that stay up
-/

namespace Mercurio

open Spec Server

/-! ## The server -/

/-- Other connections are left alone. -/
theorem net_other {m : Mode} {cfg : AuthConfig} {n : Net} {ne : NetEvent} {c : Nat} (h : ne.conn ≠ c) :
    (n.step m cfg ne).wires.get c = n.wires.get c := by
  cases ne <;> simp only [NetEvent.conn] at h <;> simp only [Net.step, Net.onWire, Net.act]
  all_goals repeat' split
  all_goals first
    | rfl
    | simp only [Map.get_insert, if_neg h]

/-- Everything can be written. -/
theorem writes_ok {ps : List Packet} (h : ∀ q ∈ ps, Fits q) : (writePackets ps).2 = true := by
  induction ps with
  | nil => rfl
  | cons p ps ih =>
    obtain ⟨b, hb, _⟩ := h p (by simp)
    simp only [writePackets, hb]
    exact ih fun q hq => h q (by simp [hq])

/-- A packet that does not end the connection. -/
def Fine : Packet → Prop
  | .publish p => ValidTopic p.topicName
  | .subscribe _ => True
  | .unsubscribe _ => True
  | .pubAck _ => True
  | _ => False

theorem recv_stays {W : StoredWill → Prop} {cfg : AuthConfig} {srv : Server} {c : Nat} {s : Session} {q : Packet}
    (hs : srv.at c = some s) (hf : Fine q ∨ q = .pingReq) (hg : GoodPacket W q.received) :
    (srv.step cfg (.recv c q.received)).1.isOpen c := by
  have hd : ∀ d, q.received ≠ .disconnect d := by
    intro d h; cases q <;> first | (cases h; done) | (rcases hf with hf | hf <;> cases hf)
  obtain ⟨k, hk, hh, e⟩ := step_recv (cfg := cfg) (p := q.received) hs hd
  rw [e]
  have ok : ∃ r, (s.processIncoming srv.world cfg.manager c q.received).result = .ok r := by
    cases q with
    | publish p =>
      have hf : ValidTopic p.topicName := hf.resolve_right (by simp)
      have hv := (C22_publish_topic_iff p.topicName).mpr hf
      have hg : GoodMsg (Session.messageOf p.received) := hg
      have e1 : p.received.topicName = p.topicName := rfl
      simp only [Packet.received, Session.processIncoming, Session.handlePublish, e1]
      rw [hv]
      have h1 := hg.qos
      have h2 := hg.id
      simp only [Session.messageOf] at h1 h2
      simp only [Session.publishResponse]
      generalize p.received.qos = a at *
      generalize p.received.packetId = b at *
      cases a <;> cases b <;> simp_all
    | subscribe p => exact ⟨_, rfl⟩
    | unsubscribe p => exact ⟨_, rfl⟩
    | pubAck p => exact ⟨_, rfl⟩
    | pingReq => exact ⟨_, rfl⟩
    | _ => rcases hf with hf | hf <;> cases hf
  obtain ⟨r, hr⟩ := ok
  rw [hr]
  exact ⟨k, hk⟩

theorem deliver_stays {W : StoredWill → Prop} {cfg : AuthConfig} {srv : Server} (hr : srv.Reachable cfg)
    (ht : Tame W srv) {c : Nat} (f : Str) (ho : srv.isOpen c) : (srv.step cfg (.deliver c f)).1.isOpen c := by
  obtain ⟨s, ha⟩ := at_of_isOpen hr.inv ho
  obtain ⟨k, hk, hs, e⟩ := onConn_at ha (fun r s => srv.deliver c r s f)
  have e' : srv.step cfg (.deliver c f) = srv.deliver c k.session s f := e
  rw [e']
  unfold Server.deliver
  rcases processOutgoing_cases s srv.world.broker.tree f with
    ⟨h1, _⟩ | ⟨st, m, st', hst, hp, ⟨u, _, h1⟩ | ⟨h0, h1⟩⟩
  · rw [h1]; exact ho
  · rw [h1]; exact ⟨k, hk⟩
  · exfalso
    have hg := hr.sound.streams _ _ hs f st hst
    obtain ⟨sent, g1, g2⟩ := hg.channel
    obtain ⟨_, _, _, _, q5, _⟩ := poll_some (by rw [hg.path]; exact g1) g2 hp
    have hm : m ∈ st.ahead sent := q5.subset (by simp)
    have hfrom : From srv.world.log f m := by
      rcases List.mem_append.mp hm with hm | hm
      · exact hg.retained m hm
      · refine channel_from srv.world.log f sent ?_ m (List.mem_of_mem_drop hm)
        rw [← hr.faithful.tree]; exact g1
    obtain ⟨t, htl, _⟩ := hfrom
    have hq := (ht.log _ htl).1.qos
    simp only [Session.noteOutgoing, Session.outgoingPacket] at h0
    split at h0
    · cases h0
    · split at h0
      · cases h0
      · cases h0
      · cases h0
      · rename_i hx; exact hq hx

/-- What a handler does keeps the connection if the server keeps it and can write its answers. -/
theorem act_runs {cfg : AuthConfig} {n : Net} {c : Nat} {w : Wire} {e : Event}
    (h1 : (n.server.step cfg e).1.isOpen c) (h2 : ∀ q ∈ (n.server.step cfg e).2.sent, Fits q)
    (h3 : Net.resets w e = true) :
    ∃ w', (n.act cfg c w e).wires.get c = some w' ∧ w'.running = true ∧ w'.begun = w.begun := by
  have hw : (n.act cfg c w e).wires.get c = some { w with
      sent := w.sent ++ (writePackets (n.server.step cfg e).2.sent).1
      running := ((n.server.step cfg e).1.conns.get c).isSome } := by
    simp only [Net.act, Map.get_insert, if_true, writes_ok h2, h3, Bool.and_self]
  exact ⟨_, hw, Option.isSome_iff_exists.mpr h1, rfl⟩

/-! ## The client -/

/-- What an application that keeps its connection makes its client send. -/
theorem step_fine {l : Client} {i : ClientIn} (hi : InOrd i) (hh : (SysEvent.app 0 i).Harmless 0) {q : Packet}
    (h : (l.step i).2.sent = some q) : Fine q := by
  unfold Client.step at h
  split at h
  · unfold Client.take at h; split at h <;> cases h
  split at h
  · cases h
  split at h
  · cases i with
    | recv => cases h
    | read r ok =>
      cases r with
      | packet p =>
        simp only [Client.turn, Client.incoming] at h
        cases p with
        | publish p =>
          simp only at h
          split at h
          · split at h
            · cases h; exact trivial
            · cases h
            · cases h
            · cases h
          · cases h
        | _ => cases h
      | closed => cases h
      | error e => cases h
      | panicked => cases h
    | publish t pl qs r ok =>
      have := call_sent h
      subst this
      exact hh rfl
    | subscribe ts ok => have := call_sent h; subst this; exact trivial
    | unsubscribe ts ok => have := call_sent h; subst this; exact trivial
    | disconnect ok => exact absurd rfl hh
    | tick ok => exact absurd rfl hh
  · cases i <;> cases h

theorem call_runs {l : Client} {p : Packet} (h : Fits p) (ok : Bool) (r : CallResult) :
    (l.call p ok r).1.running = l.running := by
  obtain ⟨b, hb, _⟩ := h
  simp only [Client.call, Client.write, hb]
  cases ok <;> rfl

/-- The event loop goes on. -/
theorem step_runs {l : Client} {i : ClientIn} (hi : InOrd i) (hh : (SysEvent.app 0 i).Harmless 0)
    (hr : ∀ r ok, i = .read r ok → ∃ q, r = .packet q) (hrun : l.running = true) :
    (l.step i).1.running = true := by
  unfold Client.step
  split
  · unfold Client.take; split <;> exact hrun
  split
  · exact hrun
  cases i with
  | recv => exact hrun
  | read r ok =>
    obtain ⟨q, rfl⟩ := hr r ok rfl
    simp only [Client.turn, Client.incoming]
    cases q with
    | publish p =>
      simp only
      split
      · rename_i id _ _
        have hw : Client.write (.pubAck { packetId := id, reason := .success, properties := none }) ok = .ok ok := rfl
        rw [hw]
        cases ok <;> exact hrun
      · exact hrun
    | _ => exact hrun
  | publish t pl qs r ok =>
    obtain ⟨h1, h2, h3⟩ := hi
    simp only [Client.turn, Client.doPublish]
    rw [call_runs]
    · split <;> exact hrun
    · refine fits_publish _ rfl ?_
      have := h1.2
      simp only [Option.getD_some]; omega
  | subscribe ts ok =>
    obtain ⟨h1, h2, h3⟩ := hi
    simp only [Client.turn, Client.doSubscribe]
    rw [call_runs (fits_subscribe _ rfl (by simpa [List.map_map, Function.comp_def] using h3))]
    exact hrun
  | unsubscribe ts ok =>
    obtain ⟨h1, h2, h3⟩ := hi
    simp only [Client.turn, Client.doUnsubscribe]
    rw [call_runs (fits_unsubscribe _ rfl h3)]
    exact hrun
  | disconnect ok => exact absurd rfl hh
  | tick ok => exact absurd rfl hh

/-- Only the ping timer makes a client ping. -/
theorem step_ping {l : Client} {i : ClientIn} (h : (l.step i).2.sent = some .pingReq) : ∃ ok, i = .tick ok := by
  unfold Client.step at h
  split at h
  · unfold Client.take at h; split at h <;> cases h
  split at h
  · cases h
  split at h
  · cases i with
    | tick ok => exact ⟨ok, rfl⟩
    | recv => cases h
    | read r ok =>
      cases r with
      | packet p =>
        simp only [Client.turn, Client.incoming] at h
        cases p with
        | publish p =>
          simp only at h
          split at h
          · split at h <;> cases h
          · cases h
        | _ => cases h
      | closed => cases h
      | error e => cases h
      | panicked => cases h
    | publish t pl qs r ok => have := call_sent h; cases this
    | subscribe ts ok => have := call_sent h; cases this
    | unsubscribe ts ok => have := call_sent h; cases this
    | disconnect ok => have := call_sent h; cases this
  · cases i <;> cases h

/-! ## One event -/

/-- Of a client without pings nothing is left in the server's buffer if nothing is in transit. -/
theorem SysInv.empty {m : Mode} {cfg : AuthConfig} {σ : System} {es : List Event} (h : SysInv cfg σ es) {d : Nat}
    {p : Peer} {w : Wire} (hp : σ.peers.get d = some p) (hw : σ.net.wires.get d = some w) (hr : w.running = true)
    (hnp : Packet.pingReq ∉ p.outgoing)
    (hq : w.rcvd = p.wrote) (hn : parsePacket m w.buf = .needMore) : w.buf = [] := by
  have hs := (h.peer d p hp).sent
  obtain ⟨k, hk, hrest⟩ := h.net.read d w hw _ _ [] hs (by rw [List.append_nil]; exact hq)
  rcases hrest hr with ⟨done, h1, h2, h3⟩ | ⟨hx, _⟩
  · obtain ⟨a, r, s1, s2, s3⟩ := (hs.sent hnp).split k
    have := h1.unique s1
    subst this
    have hbuf : w.buf = r := by
      rw [← hq, h2] at s3
      exact List.append_cancel_left s3
    rw [hbuf]
    cases hd : p.outgoing.drop k with
    | nil => rw [hd] at s2; cases s2; rfl
    | cons q qs =>
      exfalso
      rw [hd] at s2
      cases s2 with
      | @cons _ b _ bs hsv he hft _ =>
        rw [hbuf, parsePacket_encode m hsv he hft (by rw [← hbuf]; exact h3)] at hn
        cases hn
  · exact absurd (List.mem_of_mem_take hx) hnp

/-- The client has not pinged, the packets the server has not acted on yet do not end the connection, and the
keep-alive is not 0. -/
def Pending (c : Nat) (p : Peer) (es : List Event) : Prop :=
  Packet.pingReq ∉ p.outgoing ∧ (∀ q ∈ p.outgoing.drop (packetsOf c es).length, Fine q) ∧ p.opts.keepAlive ≠ 0

theorem outgoing_keepAlive {p p' : Peer} {N : List Packet} (h : p'.outgoing = p.outgoing ++ N) :
    p'.opts.keepAlive = p.opts.keepAlive := by
  simp only [Peer.outgoing, List.cons_append, List.cons.injEq, Packet.connect.injEq] at h
  rw [← wireConnect_keepalive, h.1, wireConnect_keepalive]

theorem SysInv.packets_le {cfg : AuthConfig} {σ : System} {es : List Event} (h : SysInv cfg σ es) {c : Nat} {p : Peer}
    (hp : σ.peers.get c = some p) : (packetsOf c es).length ≤ p.outgoing.length := by
  obtain ⟨k, hk⟩ := h.packets hp
  rw [hk, List.length_map, List.length_take]; omega

theorem Pending.grow {c : Nat} {p p' : Peer} {es ex : List Event} (h : Pending c p es)
    (hle : (packetsOf c es).length ≤ p.outgoing.length) (N : List Packet) (ho : p'.outgoing = p.outgoing ++ N)
    (hN : ∀ q ∈ N, Fine q) : Pending c p' (es ++ ex) := by
  refine ⟨fun hq => ?_, fun q hq => ?_, by rw [outgoing_keepAlive ho]; exact h.2.2⟩
  · rw [ho] at hq
    rcases List.mem_append.mp hq with hq | hq
    · exact h.1 hq
    · exact hN _ hq
  rw [ho, packetsOf_append, List.length_append, ← List.drop_drop, List.drop_append_of_le_length hle] at hq
  rcases List.mem_append.mp (List.mem_of_mem_drop hq) with hq | hq
  · exact h.2.1 q hq
  · exact hN q hq

theorem up_phase {σ : System} {c : Nat} {p : Peer} {w : Wire} (h : σ.Up c p w) :
    ∃ l, p.phase = .connected l ∧ l.running = true := by
  obtain ⟨l, hl, hr⟩ := h.client
  unfold Peer.loop at hl
  split at hl
  · rename_i l' hp; cases hl; exact ⟨l, hp, hr⟩
  · cases hl

theorem Pending.next {c : Nat} {p : Peer} {es : List Event} (h : Pending c p es) :
    ∀ q, p.outgoing[(packetsOf c es).length]? = some q → Fine q := by
  intro q hq
  refine h.2.1 q (List.mem_of_getElem? (i := 0) ?_)
  rw [List.getElem?_drop]; simpa using hq

/-- The server acts on a packet of the client that does not end the connection. -/
theorem turn_runs {m : Mode} {cfg : AuthConfig} {σ : System} {es : List Event} (h : SysInv cfg σ es) {c : Nat}
    {p : Peer} {w : Wire} (hp : σ.peers.get c = some p) (hw : σ.net.wires.get c = some w)
    (hr : w.running = true) (hb : w.begun = true) (hnp : Packet.pingReq ∉ p.outgoing.take (packetsOf c es).length)
    (hnext : ∀ q, p.outgoing[(packetsOf c es).length]? = some q → Fine q) (hka : p.opts.keepAlive ≠ 0)
    (u : Str) (b : Bool) :
    ∃ w', (σ.net.step m cfg (.turn c u b)).wires.get c = some w' ∧ w'.running = true ∧ w'.begun = true := by
  obtain ⟨fut, hf⟩ := h.up c p w hp hw
  obtain ⟨k, hk, hrest⟩ := h.net.read c w hw _ _ fut (h.peer c p hp).sent hf
  have htk : p.outgoing.take (packetsOf c es).length = p.outgoing.take k := by
    rw [hk, List.length_map, List.length_take, ← List.take_take, List.take_length]
  rw [htk] at hnp
  rcases next_on m (h.peer c p hp).sent (hrest hr) hf with ⟨_, hn, _⟩ | ⟨q, bb, rest, hq, _, _, _, _, hpq, _⟩ |
    ⟨rest, hq, _⟩ | ⟨hx, _⟩
  · refine ⟨w, ?_, hr, hb⟩
    simp only [Net.step, Net.onWire, hw, hr, if_true, hn]
  · have hlt : k < p.outgoing.length := (List.getElem?_eq_some_iff.mp hq).1
    have hlen : (packetsOf c es).length = k := by
      rw [hk, List.length_map, List.length_take]; omega
    have hmem : q ∈ p.outgoing.drop k := by
      refine List.mem_of_getElem? (i := 0) ?_
      rw [List.getElem?_drop]; simpa using hq
    have hfine : Fine q := hnext q (by rw [hlen]; exact hq)
    have hout : q ∈ p.outgoing := List.mem_of_mem_drop hmem
    have hsent : q ∈ p.sents := by
      rcases List.mem_cons.mp hout with rfl | hm
      · exact hfine.elim
      · exact hm
    have hgood := ((h.peer c p hp).okFrom q hsent).good
    have ho : σ.net.server.isOpen c := (h.net.opened c).mpr ⟨w, hw, hr, hb⟩
    have hreach : Server.Reachable cfg σ.net.server := ⟨es, h.net.server⟩
    obtain ⟨s, hs⟩ := at_of_isOpen hreach.inv ho
    have e : σ.net.step m cfg (.turn c u b) =
        σ.net.act cfg c { w with buf := rest, begun := true, keepalive := w.keepalive } (.recv c q.received) := by
      simp only [Net.step, Net.onWire, hw, hr, if_true, hpq, hb]
    rw [e]
    refine act_runs (recv_stays hs (Or.inl hfine) hgood) (fun x hx => (recv_out cfg hs hgood x hx).1.2) ?_
    simp only [Net.resets, h.keepalive hp hw hb]
    simpa using hka
  · have hlt : k < p.outgoing.length := (List.getElem?_eq_some_iff.mp hq).1
    have hlen : (packetsOf c es).length = k := by
      rw [hk, List.length_map, List.length_take]; omega
    exact False.elim (hnext .pingReq (by rw [hlen]; exact hq))
  · exact absurd hx hnp

/-- An event that gives no reason to end the connection leaves it up. -/
theorem up_step {m : Mode} {cfg : AuthConfig} {σ : System} {es : List Event} (h : SysInv cfg σ es) {c : Nat}
    {p : Peer} {w : Wire} (hup : σ.Up c p w) (hb : w.begun = true) (hpend : Pending c p es)
    {k : Nat} (hdown : Down p.opts.protocolVersion (Server.init.sentTo cfg c es) p k) {e : SysEvent}
    (he : e.Ordinary) (hturn : e ≠ .clientTurn c false) (hh : e.Harmless c) :
    ∃ p' w' N, (σ.step m cfg e).Up c p' w' ∧ w'.begun = true ∧ p'.outgoing = p.outgoing ++ N ∧
      ∀ q ∈ N, Fine q := by
  obtain ⟨l, hl, hrl⟩ := up_phase hup
  have hp := hup.peer
  have hw := hup.wire
  have hr := hup.server
  have net : ∀ (ne : NetEvent) (P : Map Nat Peer), P.get c = some p →
      (∃ w', (σ.net.step m cfg ne).wires.get c = some w' ∧ w'.running = true ∧ w'.begun = true) →
      ∃ p' w' N, (System.mk (σ.net.step m cfg ne) P).Up c p' w' ∧ w'.begun = true ∧
        p'.outgoing = p.outgoing ++ N ∧ ∀ q ∈ N, Fine q := by
    rintro ne P hP ⟨w', h1, h2, h3⟩
    exact ⟨p, w', [], ⟨hP, h1, h2, hup.client⟩, h3, by simp, by simp⟩
  have other : ∀ (ne : NetEvent), ne.conn ≠ c →
      ∃ w', (σ.net.step m cfg ne).wires.get c = some w' ∧ w'.running = true ∧ w'.begun = true :=
    fun ne hne => ⟨w, by rw [net_other hne]; exact hw, hr, hb⟩
  have idle : ∃ p' w' N, σ.Up c p' w' ∧ w'.begun = true ∧ p'.outgoing = p.outgoing ++ N ∧ ∀ q ∈ N, Fine q :=
    ⟨p, w, [], hup, hb, by simp, by simp⟩
  -- a change of a client
  have put : ∀ (d : Nat) (p' : Peer), (d = c → ∃ l' N, p'.phase = .connected l' ∧ l'.running = true ∧
        p'.outgoing = p.outgoing ++ N ∧ ∀ q ∈ N, Fine q) →
      ∃ p'' w' N, (σ.put d p').Up c p'' w' ∧ w'.begun = true ∧ p''.outgoing = p.outgoing ++ N ∧
        ∀ q ∈ N, Fine q := by
    intro d p' hd
    by_cases hdc : d = c
    · subst hdc
      obtain ⟨l', N, h1, h2, h3, h4⟩ := hd rfl
      refine ⟨p', w, N, ⟨?_, hw, hr, l', by simp [Peer.loop, h1], h2⟩, hb, h3, h4⟩
      show (σ.peers.insert d p').get d = _
      rw [Map.get_insert, if_pos rfl]
    · refine ⟨p, w, [], ⟨?_, hw, hr, hup.client⟩, hb, by simp, by simp⟩
      show (σ.peers.insert d p').get c = _
      rw [Map.get_insert, if_neg hdc]; exact hp
  -- a turn of the event loop
  have act : ∀ (p0 : Peer) (i : ClientIn), p0.history = p.history → p0.opts = p.opts → InOrd i →
      (SysEvent.app 0 i).Harmless 0 → (∀ r ok, i = .read r ok → ∃ q, r = .packet q) →
      ∃ l' N, (p0.act l i).phase = .connected l' ∧ l'.running = true ∧
        (p0.act l i).outgoing = p.outgoing ++ N ∧ ∀ q ∈ N, Fine q := by
    intro p0 i h1 h2 h3 h4 h5
    refine ⟨(l.step i).1, ((l.step i).2.sent).toList, rfl, step_runs h3 h4 h5 hrl, ?_, ?_⟩
    · have e1 : (p0.act l i).opts = p0.opts := rfl
      have e2 : (p0.act l i).history = p0.history ++ [(i, (l.step i).2)] := rfl
      unfold Peer.outgoing Peer.sents
      rw [e1, e2, h1, h2, List.filterMap_append]
      cases hs : (l.step i).2.sent <;> simp [hs]
    · intro q hq
      rw [Option.mem_toList] at hq
      exact step_fine h3 h4 hq
  cases e with
  | connect d o =>
    simp only [System.step]
    split
    · rename_i b h1 h2
      have hd : d ≠ c := by rintro rfl; rw [hp] at h1; cases h1
      exact net (.accept d) _ (by rw [Map.get_insert, if_neg hd]; exact hp) (other _ hd)
    · exact idle
  | serverRead d n =>
    simp only [System.step, System.onPeer]
    split
    · exact idle
    rename_i p0 hp0
    by_cases hd : d = c
    · subst hd
      rw [hp] at hp0; cases hp0
      split
      · rw [if_neg (by simp [up_socket hup])]; exact idle
      · rename_i b bs hbs
        refine net _ _ hp ?_
        simp only [Net.step, Net.onWire, hw, hr, if_true]
        split
        · exact ⟨{ w with buf := w.buf ++ b :: bs, rcvd := w.rcvd ++ b :: bs }, by
            simp [Map.get_insert, hr], hr, hb⟩
        · exact ⟨w, hw, hr, hb⟩
    · split
      · split
        · exact net _ _ hp (other _ hd)
        · exact idle
      · exact net _ _ hp (other _ hd)
  | serverTurn d u b =>
    by_cases hd : d = c
    · subst hd; exact net _ _ hp (turn_runs h hp hw hr hb
      (fun hx => hpend.1 (List.mem_of_mem_take hx)) hpend.next hpend.2.2 u b)
    · exact net _ _ hp (other _ hd)
  | deliver d f =>
    by_cases hd : d = c
    · subst hd
      refine net _ _ hp ?_
      have ho : σ.net.server.isOpen d := (h.net.opened d).mpr ⟨w, hw, hr, hb⟩
      have hreach : Server.Reachable cfg σ.net.server := ⟨es, h.net.server⟩
      have e : σ.net.step m cfg (.deliver d f) = σ.net.act cfg d w (.deliver d f) := by
        simp only [Net.step, Net.onWire, hw, hr, if_true, hb]
      rw [e]
      obtain ⟨w', a, b, c'⟩ := act_runs (cfg := cfg) (n := σ.net) (c := d) (w := w) (deliver_stays hreach h.tame f ho)
        (fun x hx => (deliver_out cfg hreach h.tame d f .v5 x hx).2) rfl
      exact ⟨w', a, b, c'.trans hb⟩
    · exact net _ _ hp (other _ hd)
  | serverClose d => exact net _ _ hp (other _ hh)
  | clientRead d n =>
    simp only [System.step, System.onPeer]
    split
    · exact idle
    rename_i p0 hp0
    split
    · split
      · split
        · rename_i hx
          by_cases hd : d = c
          · subst hd
            simp [System.ended, hw, hr] at hx
          · exact put _ _ fun h => absurd h hd
        · exact idle
      · refine put _ _ ?_
        rintro rfl
        rw [hp] at hp0; cases hp0
        exact ⟨l, [], hl, hrl, by simp [Peer.outgoing, Peer.sents], by simp⟩
    · exact idle
  | clientTurn d ok =>
    simp only [System.step, System.onPeer]
    split
    · exact idle
    rename_i p0 hp0
    by_cases hd : d = c
    · subst hd
      rw [hp] at hp0; cases hp0
      have hok : ok = true := by cases ok with
        | true => rfl
        | false => exact absurd rfl hturn
      subst hok
      split
      · obtain ⟨dd, rs, whole, tail, h1, h2, hbuf, h3, h4, h5⟩ := hdown.parts
        have hsm := hdown.small
        rw [hbuf] at hsm
        rw [hbuf]
        rcases clientParse_whole m h2 h5 (by omega) with ⟨_, _, e⟩ | ⟨q, qs, rest, _, _, e, _⟩
        · rw [e]; exact idle
        · rw [e]
          generalize rest ++ tail = rest
          refine put _ _ fun _ => ?_
          have hrec : ({ p with buf := rest } : Peer).receive (.packet (q.receivedBy p.opts.protocolVersion)) true =
              ({ p with buf := rest } : Peer).act l (.read (.packet (q.receivedBy p.opts.protocolVersion)) true) := by
            simp [Peer.receive, hl]
          rw [hrec]
          refine act _ _ rfl rfl trivial trivial ?_
          intro r ok hx; cases hx; exact ⟨_, rfl⟩
      · exact idle
    · split
      · split
        · exact idle
        · exact put _ _ fun h => absurd h hd
        · exact put _ _ fun h => absurd h hd
        · exact put _ _ fun h => absurd h hd
      · exact idle
  | clientError d =>
    simp only [System.step, System.onPeer]
    split
    · exact idle
    split
    · exact put _ _ fun h => absurd h hh
    · exact idle
  | timeout d =>
    simp only [System.step, System.onPeer]
    split
    · exact idle
    rename_i p0 hp0
    split
    · rename_i hph
      refine put _ _ ?_
      rintro rfl
      rw [hp] at hp0; cases hp0
      rw [hl] at hph; cases hph
    · exact idle
  | app d i =>
    simp only [System.step, System.onPeer]
    split
    · exact idle
    rename_i p0 hp0
    split
    · exact idle
    · rename_i i _ _ l0 _ _
      have hl0 : p0.phase = .connected l0 := by assumption
      have hi : ∀ r ok, i = .read r ok → False := by assumption
      refine put _ _ ?_
      rintro rfl
      rw [hp] at hp0; cases hp0
      rw [hl] at hl0; cases hl0
      refine act p i rfl rfl (inOrd_app he) ?_ ?_
      · cases i <;> first | trivial | exact fun _ => hh rfl | exact absurd rfl hh
      · intro r ok hx; exact (hi r ok hx).elim
    · exact idle

/-! ## Histories -/

/-- A client whose identifier nobody else uses at the end has it for itself now. -/
theorem solo_now {m : Mode} {cfg : AuthConfig} {σ : System} {es : List Event} (h : SysInv cfg σ es)
    (evs : List SysEvent) (hord : ∀ e ∈ evs, e.Ordinary) {c : Nat} {p : Peer} (hp : σ.peers.get c = some p)
    (ho : (σ.run m cfg evs).Apart c p) :
    Solo c p.clientId p.opts.protocolVersion es := by
  obtain ⟨ext, hx⟩ := history (m := m) evs hord h
  refine h.solo hp fun d q hd hq hid => ?_
  obtain ⟨w, hw⟩ := Option.isSome_iff_exists.mp ((h.ends d).mpr (by rw [hq]; rfl))
  obtain ⟨q', w', hq', _, hev⟩ := hx.peer d q w hq hw
  have := ho d q' hd hq' (by unfold Peer.clientId at hid ⊢; rw [hev.opts]; exact hid)
  rwa [hev.opts] at this

theorem stays_up {m : Mode} {cfg : AuthConfig} {c : Nat} (evs : List SysEvent) (hord : ∀ e ∈ evs, e.Ordinary)
    (hh : ∀ e ∈ evs, e.Harmless c) : ∀ {σ : System} {es : List Event} {p : Peer} {w : Wire}, SysInv cfg σ es →
      σ.Up c p w → w.begun = true → Pending c p es → Tracked cfg c 0 σ es → ReadsWell m cfg c σ evs →
      (σ.run m cfg evs).Apart c p →
      ∃ p' w', (σ.run m cfg evs).Up c p' w' := by
  induction evs with
  | nil => intro σ es p w _ hup _ _ _ _ _; exact ⟨p, w, hup⟩
  | cons e evs ih =>
    intro σ es p w h hup hb hpend htr hrw ho
    have hm := moves m cfg σ e
    obtain ⟨ex, hg, h1⟩ := h.step (hord e (by simp)) hm
    obtain ⟨r1, r2, r3⟩ := hrw
    obtain ⟨k, _, hd⟩ := htr p w hup.peer hup.wire hup.server (up_socket hup)
      (solo_now h (e :: evs) hord hup.peer ho)
    obtain ⟨p1, w1, N, u1, u2, u3, u4⟩ := up_step (m := m) h hup hb hpend hd (hord e (by simp)) r2 (hh e (by simp))
    have hid : p1.opts = p.opts := by
      obtain ⟨p2, w2, a, _, hev⟩ := step_evolved hm hg hup.peer hup.wire
      rw [u1.peer] at a; cases a
      exact hev.opts
    refine ih (fun x hx => hord x (by simp [hx])) (fun x hx => hh x (by simp [hx])) h1 u1 u2
      (hpend.grow (h.packets_le hup.peer) N u3 u4)
      (tracked_step h h1 hm rfl hg r1 r2 (Or.inl rfl) htr) r3 ?_
    intro d q hd hq
    unfold Peer.clientId
    rw [hid]; exact ho d q hd hq

end Mercurio
