import Verif.Spec.Delivery
import Verif.Lemmas.Net
import Verif.Props.Server

/-!
# C63 - C65: the server on byte streams
-/

namespace Mercurio

open Spec Server

/-! ## C63: bytes in, bytes out -/

/-- C63: whatever has happened on all connections, in whatever chunks the bytes arrived, there is a
history `es` of packets that explains the state of the server and everything any client has seen.  The
bytes written to a client are the encodings, one after the other, of the packets sent to it in that
history (up to a packet the encoder fails on, which ends the connection).  If the bytes received from a
client so far are the beginning of the encodings of packets `ps` (pings, AUTH and DISCONNECT with
properties excluded by `Sent`), then exactly the first `k` of them, in order and as they were sent, are
the packets of this client in that history; and once the connection has nothing left to do while it is
open, these are all packets that have arrived completely. -/
theorem C63_bytes_to_packets (m : Mode) (cfg : AuthConfig) (ns : List NetEvent) (hd : ShortChunks ns) :
    let n := Net.init.run m cfg ns
    ∃ es, n.server = Server.run cfg Server.init es ∧
      (∀ c, n.server.isOpen c ↔ ∃ w, n.wires.get c = some w ∧ w.running = true ∧ w.begun = true) ∧
      ∀ c w, n.wires.get c = some w →
        (∃ qs, qs <+: Server.init.sentTo cfg c es ∧
          (w.running = true → qs = Server.init.sentTo cfg c es) ∧ Written qs w.sent) ∧
        ∀ ps bs future, Sent ps bs → w.rcvd ++ future = bs →
          ∃ k, packetsOf c es = (ps.take k).map Packet.received ∧
            (w.running = true → (∀ uuid written, n.step m cfg (.turn c uuid written) = n) →
              ∃ done tail, Sent (ps.take k) done ∧ Unfinished tail ∧ w.rcvd = done ++ tail) := by
  intro n
  obtain ⟨es, h⟩ := netInv_run m cfg ns hd
  refine ⟨es, h.server, h.opened, fun c w hw => ⟨h.written c w hw, fun ps bs future hs hf => ?_⟩⟩
  obtain ⟨k, h1, h2⟩ := h.read c w hw ps bs future hs.on hf
  refine ⟨k, h1, fun hr hidle => ?_⟩
  obtain ⟨done, h3, h4, h5⟩ : ∃ done, Sent (ps.take k) done ∧ w.rcvd = done ++ w.buf ∧ w.buf.length < 2 ^ 32 := by
    rcases h2 hr with h | ⟨h, _⟩
    · exact h
    · exact absurd (List.mem_of_mem_take h) hs.noPing
  rcases next_packet m hs h3 h4 hf h5 with ⟨hu, _⟩ | ⟨p, b, rest, _, _, he, _, hb, hp⟩
  · exact ⟨done, w.buf, h3, hu, h4⟩
  · exfalso
    have hx := hidle [] true
    have hw' : n.wires.get c = some w := hw
    have hbuf : ((n.step m cfg (.turn c [] true)).wires.get c).map (·.buf) = some rest := by
      simp only [Net.step, Net.onWire, hw', hr, if_true, hp, Net.act, Map.get_insert, Option.map_some]
    rw [hx, hw'] at hbuf
    simp only [Option.map_some, Option.some.injEq] at hbuf
    have := congrArg List.length hb
    rw [hbuf, List.length_append] at this
    exact encode_ne_nil he (List.length_eq_zero_iff.mp (by omega))

/-- The bytes of a CONNECT of client `x` and of a SUBSCRIBE to `a`, cut at unfortunate places. -/
def exChunks : List NetEvent :=
  [.accept 0, .data 0 [0x10, 14, 0, 4, 77], .turn 0 (str "u") true,
   .data 0 [81, 84, 84, 5, 2, 0, 60, 0, 0, 1, 120, 0x82, 7, 0], .turn 0 (str "u") true,
   .turn 0 (str "u") true, .data 0 [1, 0, 0, 1, 97, 0], .turn 0 (str "u") true]

example : ShortChunks exChunks ∧
    ((Net.init.run .debug {} exChunks).wires.get 0).map (fun w => (w.running, w.sent)) =
      some (true, [0x20, 3, 0, 0, 0, 0x90, 4, 0, 1, 0, 0]) := by
  constructor
  · intro c b h
    simp only [exChunks, List.mem_cons, List.not_mem_nil, or_false, reduceCtorEq, false_or,
      NetEvent.data.injEq] at h
    rcases h with ⟨_, rfl⟩ | ⟨_, rfl⟩ | ⟨_, rfl⟩ <;> decide
  · decide +kernel

/-! ## C64: hostile peers -/

/-- What happens on a connection leaves the session of another one alone unless it is the same session. -/
theorem at_apart (cfg : AuthConfig) {srv : Server} (hi : Inv srv) {e : Event} {c c' : Nat}
    (he : e.conn = some c) (hne : c' ≠ c) {id : Str} (hid : srv.clientOf c' = some id) (hc : ¬ srv.shares c' c)
    (hf : ∀ p uuid w, e = .first c (.connect p) uuid w → p.payload.clientId = id → p.flags.cleanStart = true) :
    (srv.step cfg e).1.at c' = srv.at c' := by
  have hconns := conns_other cfg srv he hne
  simp only [clientOf, Option.map_eq_some_iff] at hid
  obtain ⟨k', hk', rfl⟩ := hid
  have fin : (srv.step cfg e).1.heap.get k'.session = srv.heap.get k'.session →
      (srv.step cfg e).1.at c' = srv.at c' := by
    intro h; simp [Server.at, hconns, hk', h]
  have loc : LocalTo c e → (srv.step cfg e).1.at c' = srv.at c' := by
    intro hl
    apply fin
    rcases (step_local cfg srv hl).heap with e1 | ⟨k, s, s', hk, _, e1⟩
    · rw [e1]
    · rw [e1, Map.get_insert, if_neg]
      intro hs
      exact hc ⟨k', k, hk', hk, hs.symm⟩
  cases e with
  | first c1 p uuid w =>
    cases he
    rcases step_first_cases cfg srv c p uuid w with ⟨h', _⟩ | ⟨q, rfl, hq, h'⟩
    · rw [h']
    · obtain ⟨r, hr⟩ := start_effect srv c q uuid w
      apply fin
      rw [h']
      obtain ⟨s', hs'⟩ := hr.heap
      rw [hs', Map.get_insert, if_neg]
      rintro rfl
      rcases hr.table with ⟨b, a, _⟩ | ⟨a, _⟩
      · rw [hf q uuid w rfl (hi.keyed _ _ _ hk' a).symm] at b; cases b
      · have := (hi.conns _ _ hk').1; omega
  | recv c1 p => cases he; exact loc (.recv p)
  | deliver c1 f => cases he; exact loc (.deliver f)
  | close c1 => cases he; exact loc .close
  | abort c1 => cases he; exact fin rfl
  | restart => cases he

/-- What happens on a connection leaves the session of another one alone unless the two clients gave
the same identifier. -/
theorem at_other (cfg : AuthConfig) {srv : Server} (hi : Inv srv) {e : Event} {c c' : Nat}
    (he : e.conn = some c) (hne : c' ≠ c) {id : Str} (hid : srv.clientOf c' = some id)
    (hc : srv.clientOf c ≠ some id)
    (hf : ∀ p uuid w, e = .first c (.connect p) uuid w → p.payload.clientId ≠ id) :
    (srv.step cfg e).1.at c' = srv.at c' := by
  refine at_apart cfg hi he hne hid ?_ (fun p u w h e => absurd e (hf p u w h))
  rintro ⟨k', k, hk', hk, e⟩
  have := hi.shared _ _ _ _ hk hk' e.symm
  rw [clientOf, hk'] at hid
  rw [clientOf, hk] at hc
  exact hc (by rw [← hid]; simp [this])

theorem act_other (cfg : AuthConfig) {n : Net} (hr : n.server.Reachable cfg) {e : Event} {c c' : Nat}
    (w : Wire) (he : e.conn = some c) (hne : c' ≠ c) :
    (n.act cfg c w e).wires.get c' = n.wires.get c' ∧
    (n.act cfg c w e).server.clientOf c' = n.server.clientOf c' ∧
    ∀ id, n.server.clientOf c' = some id → n.server.clientOf c ≠ some id →
      (∀ p uuid w, e = .first c (.connect p) uuid w → p.payload.clientId ≠ id) →
      (n.act cfg c w e).server.at c' = n.server.at c' := by
  have h1 := conns_other cfg n.server he hne
  have h2 := conns_other cfg (n.server.step cfg e).1 (e := .abort c) rfl hne
  refine ⟨by simp [Net.act, Map.get_insert, Ne.symm hne], ?_, fun id hid hc hf => ?_⟩
  · unfold Net.act
    simp only [clientOf]
    split
    · rw [h1]
    · rw [h2, h1]
  · have h3 := at_other cfg hr.inv he hne hid hc hf
    unfold Net.act
    simp only
    split
    · exact h3
    · rw [← h3]
      simp only [Server.at, h2]
      rfl

/-- Events on one connection and the state of another one. -/
theorem step_other (m : Mode) {cfg : AuthConfig} {n : Net} {es : List Event} (h : NetInv cfg n es)
    (e : NetEvent) (c' : Nat) (hne : c' ≠ e.conn) :
    let n' := n.step m cfg e
    n'.wires.get c' = n.wires.get c' ∧ n'.server.clientOf c' = n.server.clientOf c' ∧
    ∀ id, n.server.clientOf c' = some id → n.server.clientOf e.conn ≠ some id →
      (∀ w p rest, n.wires.get e.conn = some w → parsePacket m w.buf = .packet (.connect p) rest →
        p.payload.clientId ≠ id) →
      n'.server.at c' = n.server.at c' := by
  intro n'
  have hr : n.server.Reachable cfg := ⟨es, h.server⟩
  have same : n' = n → n'.wires.get c' = n.wires.get c' ∧ n'.server.clientOf c' = n.server.clientOf c' ∧
    ∀ id, n.server.clientOf c' = some id → n.server.clientOf e.conn ≠ some id →
      (∀ w p rest, n.wires.get e.conn = some w → parsePacket m w.buf = .packet (.connect p) rest →
        p.payload.clientId ≠ id) →
      n'.server.at c' = n.server.at c' := by
    intro hx; rw [hx]; exact ⟨rfl, rfl, fun _ _ _ _ => rfl⟩
  have acts : ∀ w e', e'.conn = some e.conn → n' = n.act cfg e.conn w e' →
      (∀ p uuid w', e' = .first e.conn (.connect p) uuid w' → ∃ w rest, n.wires.get e.conn = some w ∧
        parsePacket m w.buf = .packet (.connect p) rest) →
      n'.wires.get c' = n.wires.get c' ∧ n'.server.clientOf c' = n.server.clientOf c' ∧
      ∀ id, n.server.clientOf c' = some id → n.server.clientOf e.conn ≠ some id →
      (∀ w p rest, n.wires.get e.conn = some w → parsePacket m w.buf = .packet (.connect p) rest →
        p.payload.clientId ≠ id) →
      n'.server.at c' = n.server.at c' := by
    intro w e' he hx hf
    obtain ⟨a1, a2, a3⟩ := act_other cfg hr w he hne
    rw [hx]
    refine ⟨a1, a2, fun id h1 h2 h3 => a3 id h1 h2 fun p uuid w' hp => ?_⟩
    obtain ⟨w, rest, b1, b2⟩ := hf p uuid w' hp
    exact h3 w p rest b1 b2
  cases e with
  | accept c =>
    have hx : n' = match n.wires.get c with
      | some _ => n
      | none => ⟨n.server, n.wires.insert c {}⟩ := rfl
    cases hw : n.wires.get c with
    | some w => rw [hw] at hx; exact same hx
    | none =>
      rw [hw] at hx
      rw [hx]
      have hne' : ¬ c = c' := Ne.symm hne
      exact ⟨by simp [Map.get_insert, hne'], rfl, fun _ _ _ _ => rfl⟩
  | data c b =>
    have hx : n' = n.onWire c fun w => match parsePacket m w.buf with
      | .needMore => if b = [] then n.act cfg c w (.close c)
          else ⟨n.server, n.wires.insert c { w with buf := w.buf ++ b, rcvd := w.rcvd ++ b }⟩
      | _ => n := rfl
    unfold Net.onWire at hx
    cases hw : n.wires.get c with
    | none => rw [hw] at hx; exact same hx
    | some w =>
      rw [hw] at hx
      simp only at hx
      split at hx
      · split at hx
        · split at hx
          · exact acts w _ rfl hx (by rintro p uuid w' ⟨⟩)
          · rw [hx]
            have hne' : ¬ c = c' := Ne.symm hne
            exact ⟨by simp [Map.get_insert, hne'], rfl, fun _ _ _ _ => rfl⟩
        · exact same hx
      · exact same hx
  | turn c uuid written =>
    have hx : n' = n.onWire c fun w => match parsePacket m w.buf with
      | .needMore => n
      | .packet p rest => n.act cfg c { w with buf := rest, begun := true, keepalive := if w.begun then w.keepalive else Net.keepaliveOf p }
          (if w.begun then .recv c p else .first c p uuid written)
      | .error _ => n.act cfg c w (.close c)
      | .panicked => n.act cfg c w (.abort c) := rfl
    unfold Net.onWire at hx
    cases hw : n.wires.get c with
    | none => rw [hw] at hx; exact same hx
    | some w =>
      rw [hw] at hx
      simp only at hx
      split at hx
      · split at hx
        · exact same hx
        · rename_i p rest hp
          refine acts _ _ ?_ hx ?_
          · cases w.begun <;> rfl
          · intro q u w' hq
            refine ⟨w, rest, hw, ?_⟩
            cases hb : w.begun with
            | true => rw [hb] at hq; cases hq
            | false =>
              rw [hb] at hq
              simp only [Bool.false_eq_true, if_false, Event.first.injEq] at hq
              rw [hp, hq.2.1]
        · exact acts w _ rfl hx (by rintro p uuid w' ⟨⟩)
        · exact acts w _ rfl hx (by rintro p uuid w' ⟨⟩)
      · exact same hx
  | deliver c f =>
    have hx : n' = n.onWire c fun w => if w.begun then n.act cfg c w (.deliver c f) else n := rfl
    unfold Net.onWire at hx
    cases hw : n.wires.get c with
    | none => rw [hw] at hx; exact same hx
    | some w =>
      rw [hw] at hx
      simp only at hx
      split at hx
      · split at hx
        · exact acts w _ rfl hx (by rintro p uuid w' ⟨⟩)
        · exact same hx
      · exact same hx
  | close c =>
    have hx : n' = n.onWire c fun w => n.act cfg c w (.close c) := rfl
    unfold Net.onWire at hx
    cases hw : n.wires.get c with
    | none => rw [hw] at hx; exact same hx
    | some w =>
      rw [hw] at hx
      simp only at hx
      split at hx
      · exact acts w _ rfl hx (by rintro p uuid w' ⟨⟩)
      · exact same hx

/-- C64: whatever the peer of connection `c` does - any bytes at all, in any chunks, malformed,
truncated, or such that its handler panics - the other connections stay as they are: the same bytes
are buffered and have been written, they stay open (or closed) with the same client, and the session
of such a client is unchanged, unless the client of `c` gives, or is about to give in its CONNECT, the
same client identifier. -/
theorem C64_hostile_peer (m : Mode) (cfg : AuthConfig) (ns : List NetEvent) (hd : ShortChunks ns)
    (e : NetEvent) (c' : Nat) (hne : c' ≠ e.conn) :
    let n := Net.init.run m cfg ns
    let n' := n.step m cfg e
    n'.wires.get c' = n.wires.get c' ∧ n'.server.clientOf c' = n.server.clientOf c' ∧
    ∀ id, n.server.clientOf c' = some id → n.server.clientOf e.conn ≠ some id →
      (∀ w p rest, n.wires.get e.conn = some w → parsePacket m w.buf = .packet (.connect p) rest →
        p.payload.clientId ≠ id) →
      n'.server.at c' = n.server.at c' := by
  intro n n'
  obtain ⟨es, h⟩ := netInv_run m cfg ns hd
  exact step_other m h e c' hne

/-- A peer sends a CONNACK without flags: its handler panics. -/
def exHostile : List NetEvent :=
  exChunks ++ [.accept 1, .data 1 [0x20, 0], .turn 1 (str "v") true]

example : parsePacket .debug [0x20, 0] = .panicked ∧
    ((Net.init.run .debug {} exHostile).wires.get 1).map (·.running) = some false ∧
    ((Net.init.run .debug {} exHostile).wires.get 0).map (·.running) = some true ∧
    (Net.init.run .debug {} exHostile).server.clientOf 0 = some (str "x") := by decide +kernel

/-! ## C65: new clients -/

/-- The events of connection `c` in a history. -/
def Spec.eventsOf (c : Nat) (ns : List NetEvent) : List NetEvent := ns.filter (·.conn = c)

/-- Events of a peer that sends some chunks, the server looking into its buffer after each. -/
def Spec.sends (c : Nat) (uuid : Str) (cs : List Buf) : List NetEvent :=
  cs.flatMap fun b => [.data c b, .turn c uuid true]

/-- The CONNACK for a new session of a client that chose its identifier, as bytes. -/
def Spec.welcome : ProtocolVersion → Buf
  | .v5 => [0x20, 3, 0, 0, 0]
  | .v3_1 | .v3_1_1 => [0x20, 2, 0, 0]

/-- A connection on which a CONNECT has been answered. -/
def welcomed (p : ConnectPacket) (bytes : Buf) : Wire :=
  { buf := [], begun := true, keepalive := p.keepalive, running := true, rcvd := bytes, sent := welcome p.protocolVersion }

theorem welcome_encode (q : ConnectPacket) (uuid : Str) (hid : q.payload.clientId ≠ []) :
    (connAckOf q uuid false).encode = .ok (welcome q.protocolVersion) := by
  unfold connAckOf
  rw [if_neg (fun h => hid h.1)]
  cases q.protocolVersion <;> decide +kernel

theorem ConnectPacket.received_payload (p : ConnectPacket) :
    p.received.protocolVersion = p.protocolVersion ∧ p.received.flags = p.flags ∧
    p.received.payload.clientId = p.payload.clientId ∧
    p.received.payload.userName = p.payload.userName ∧
    p.received.payload.password = p.payload.password := by
  unfold ConnectPacket.received
  split <;> exact ⟨rfl, rfl, rfl, rfl, rfl⟩

/-- The last chunk has arrived: the CONNECT is accepted. -/
theorem accepted (m : Mode) {cfg : AuthConfig} {n : Net} {es : List Event} (h : NetInv cfg n es)
    {c : Nat} {p : ConnectPacket} {bytes : Buf} (hs : (Packet.connect p).Survives)
    (he : (Packet.connect p).encode = .ok bytes) (hf : FitsMqtt bytes)
    (hid : p.payload.clientId ≠ []) (hclean : p.flags.cleanStart = true)
    (hcred : cfg.requireAuth = true → ∃ u pw v, p.payload.userName = some u ∧
      p.payload.password = some pw ∧ cfg.validator = some v ∧ v u pw = true) (uuid : Str)
    (hw : n.wires.get c = some { buf := bytes, rcvd := bytes }) :
    (n.step m cfg (.turn c uuid true)).wires.get c = some (welcomed p bytes) ∧
    (n.step m cfg (.turn c uuid true)).server.clientOf c = some p.payload.clientId := by
  obtain ⟨r1, r2, r3, r4, r5⟩ := p.received_payload
  have rk : p.received.keepalive = p.keepalive := by unfold ConnectPacket.received; split <;> rfl
  have hp : parsePacket m bytes = .packet (.connect p.received) [] := by
    have := parsePacket_encode m hs (rest := []) he hf (by
      unfold FitsMqtt at hf; simp only [List.append_nil]; omega)
    rwa [List.append_nil] at this
  have hopen : ¬ n.server.isOpen c := by
    intro ho
    obtain ⟨w, hw', _, hb⟩ := (h.opened c).mp ho
    rw [hw] at hw'
    cases hw'
    cases hb
  have hadm : Admitted cfg n.server c p.received := ⟨hopen, by rw [r4, r5]; exact hcred⟩
  have hstep : n.step m cfg (.turn c uuid true) =
      n.act cfg c { buf := [], begun := true, keepalive := p.keepalive, rcvd := bytes } (.first c (.connect p.received) uuid true) := by
    simp only [Net.step, Net.onWire, hw, if_true, hp, Bool.false_eq_true, if_false, Net.keepaliveOf, rk]
  have hsent : (n.server.step cfg (.first c (.connect p.received) uuid true)).2.sent =
      [.connAck (connAckOf p.received uuid false)] := by
    rw [step_first hadm]
    simp only [Server.start, if_true, r2, hclean]
    obtain ⟨h1, h2, _⟩ := enter_session (n.server.discard p.received.payload.clientId true) p.received
    have hfind : n.server.find p.received.payload.clientId true = Found.none := rfl
    rw [hfind, (begin_eq _ uuid _ p.received h1 h2).1]
    rfl
  have hconn : (n.server.step cfg (.first c (.connect p.received) uuid true)).1.clientOf c =
      some p.payload.clientId := by
    rw [step_first hadm]
    simp only [Server.start, if_true, clientOf, Server.put, Map.get_insert, Option.map_some, r3]
  have hwp : writePackets (n.server.step cfg (.first c (.connect p.received) uuid true)).2.sent =
      (welcome p.protocolVersion, true) := by
    rw [hsent]
    have : (Packet.connAck (connAckOf p.received uuid false)).encode = .ok (welcome p.protocolVersion) := by
      rw [← r1]; exact welcome_encode p.received uuid (by rw [r3]; exact hid)
    simp only [writePackets, this, List.append_nil]
  have hsome : ((n.server.step cfg (.first c (.connect p.received) uuid true)).1.conns.get c).isSome = true := by
    simp only [clientOf, Option.map_eq_some_iff] at hconn
    obtain ⟨k, hk, _⟩ := hconn
    rw [hk]; rfl
  rw [hstep]
  unfold Net.act
  simp only [hwp, Net.resets, Bool.and_self, if_true, Map.get_insert, hsome]
  exact ⟨rfl, hconn⟩

theorem new_connection (m : Mode) (cfg : AuthConfig) (c : Nat) (uuid : Str) (p : ConnectPacket)
    (bytes : Buf) (hs : (Packet.connect p).Survives)
    (he : (Packet.connect p).encode = .ok bytes) (hf : FitsMqtt bytes)
    (hid : p.payload.clientId ≠ []) (hclean : p.flags.cleanStart = true)
    (hcred : cfg.requireAuth = true → ∃ u pw v, p.payload.userName = some u ∧
      p.payload.password = some pw ∧ cfg.validator = some v ∧ v u pw = true) :
    ∀ (ns : List NetEvent), ShortChunks ns → ∀ (n : Net) (es : List Event), NetInv cfg n es →
      ∀ todo, eventsOf c ns = todo →
      ((∃ cs, n.wires.get c = none ∧ todo = .accept c :: sends c uuid cs ∧ Chunks cs ∧
          cs.flatten = bytes) ∨
       (∃ cs buf, n.wires.get c = some { buf := buf, rcvd := buf } ∧ todo = sends c uuid cs ∧ Chunks cs ∧
          buf ++ cs.flatten = bytes ∧ cs ≠ []) ∨
       (∃ cs buf, n.wires.get c = some { buf := buf, rcvd := buf } ∧
          todo = .turn c uuid true :: sends c uuid cs ∧ Chunks cs ∧ buf ++ cs.flatten = bytes) ∨
       (n.wires.get c = some (welcomed p bytes) ∧ todo = [] ∧
        n.server.clientOf c = some p.payload.clientId)) →
      (n.run m cfg ns).wires.get c = some (welcomed p bytes) ∧
      (n.run m cfg ns).server.clientOf c = some p.payload.clientId := by
  have hnil : bytes ≠ [] := encode_ne_nil he
  have hunf : ∀ buf more : Buf, buf ++ more = bytes → more ≠ [] → Unfinished buf := by
    intro buf more h1 h2
    have hl : buf.length < bytes.length := by
      rw [← h1, List.length_append]
      have := List.length_pos_iff.mpr h2
      omega
    exact ⟨_, bytes, buf.length, he, hf, hl, by rw [← h1, List.take_left]⟩
  have hcs : ∀ cs : List Buf, Chunks cs → cs ≠ [] → cs.flatten ≠ [] := by
    intro cs h1 h2 h3
    cases cs with
    | nil => exact h2 rfl
    | cons b cs =>
      rw [List.flatten_cons, List.append_eq_nil_iff] at h3
      exact (h1 b (List.mem_cons_self ..)).1 h3.1
  intro ns
  induction ns with
  | nil =>
    intro _ n es _ todo ht hp
    subst ht
    rcases hp with ⟨cs, _, h, _⟩ | ⟨cs, buf, _, h, _, _, h'⟩ | ⟨cs, buf, _, h, _⟩ | ⟨h, _, h'⟩
    · simp [eventsOf] at h
    · cases cs with
      | nil => exact absurd rfl h'
      | cons b cs => simp [eventsOf, sends] at h
    · simp [eventsOf] at h
    · exact ⟨h, h'⟩
  | cons e ns ih =>
    intro hd n es hn todo ht hp
    have hd1 : ∀ c b, e = .data c b → b.length ≤ 2 ^ 31 := fun c b h => hd c b (by simp [h])
    have hd2 : ShortChunks ns := fun c b h => hd c b (List.mem_cons_of_mem _ h)
    obtain ⟨es', _, hn'⟩ := hn.step m e hd1
    have hgo := ih hd2 (n.step m cfg e) _ hn'
    by_cases hc : e.conn = c
    · have ht' : todo = e :: eventsOf c ns := by rw [← ht]; simp [eventsOf, hc]
      rcases hp with ⟨cs, hw, h, hch, hfl⟩ | ⟨cs, buf, hw, h, hch, hfl, hne⟩ | ⟨cs, buf, hw, h, hch, hfl⟩ |
        ⟨_, h, _⟩
      · rw [ht'] at h
        obtain ⟨rfl, h2⟩ := List.cons.inj h
        refine hgo _ rfl (Or.inr (Or.inl ⟨cs, [], ?_, h2, hch, hfl, ?_⟩))
        · simp only [Net.step, hw, Map.get_insert]; rfl
        · rintro rfl; exact hnil hfl.symm
      · cases cs with
        | nil => exact absurd rfl hne
        | cons b cs =>
          rw [ht'] at h
          obtain ⟨rfl, h2⟩ := List.cons.inj (h.trans (show sends c uuid (b :: cs) =
            .data c b :: .turn c uuid true :: sends c uuid cs from rfl))
          have hb := (hch b (List.mem_cons_self ..)).1
          refine hgo _ rfl (Or.inr (Or.inr (Or.inl ⟨cs, buf ++ b, ?_, h2,
            fun x hx => hch x (List.mem_cons_of_mem _ hx), by rw [← hfl]; simp⟩)))
          have := parsePacket_unfinished m (hunf buf _ hfl (hcs _ hch (List.cons_ne_nil _ _)))
          simp only [Net.step, Net.onWire, hw, if_true, this, hb, if_false, Map.get_insert]
      · rw [ht'] at h
        obtain ⟨rfl, h2⟩ := List.cons.inj h
        by_cases hlast : cs = []
        · subst hlast
          simp only [List.flatten_nil, List.append_nil] at hfl
          subst hfl
          obtain ⟨a1, a2⟩ := accepted m hn hs he hf hid hclean hcred uuid hw
          exact hgo _ rfl (Or.inr (Or.inr (Or.inr ⟨a1, h2, a2⟩)))
        · refine hgo _ rfl (Or.inr (Or.inl ⟨cs, buf, ?_, h2, hch, hfl, hlast⟩))
          have := parsePacket_unfinished m (hunf buf _ hfl (hcs _ hch hlast))
          simp only [Net.step, Net.onWire, hw, if_true, this]
      · rw [ht'] at h; cases h
    · have ht' : todo = eventsOf c ns := by rw [← ht]; simp [eventsOf, hc]
      obtain ⟨s1, s2, _⟩ := step_other m hn e c (Ne.symm hc)
      refine hgo _ ht'.symm ?_
      rw [s1, s2]
      exact hp

/-- C65: a new client gets in whatever the other connections have done before and do in the meantime,
and however its bytes are cut into chunks: if the only thing that happens on connection `c` is that the
peer connects and sends the bytes of a CONNECT with a clean start, a client identifier and, if needed,
accepted credentials, then what it reads is exactly the CONNACK that welcomes it, and its connection is
open under its identifier.  (In the model, where the handlers do not wait for each other's locks; see
C66 for what the locks add.) -/
theorem C65_new_client (m : Mode) (cfg : AuthConfig) (ns : List NetEvent) (hd : ShortChunks ns)
    (c : Nat) (uuid : Str) (p : ConnectPacket) (cs : List Buf)
    (hs : (Packet.connect p).Survives) (he : (Packet.connect p).encode = .ok cs.flatten)
    (hf : FitsMqtt cs.flatten) (hch : Chunks cs)
    (hid : p.payload.clientId ≠ []) (hclean : p.flags.cleanStart = true)
    (hcred : cfg.requireAuth = true → ∃ u pw v, p.payload.userName = some u ∧
      p.payload.password = some pw ∧ cfg.validator = some v ∧ v u pw = true)
    (hev : eventsOf c ns = .accept c :: sends c uuid cs) :
    let n := Net.init.run m cfg ns
    (∃ w, n.wires.get c = some w ∧ w.running = true ∧ w.sent = welcome p.protocolVersion) ∧
    n.server.isOpen c ∧ n.server.clientOf c = some p.payload.clientId := by
  intro n
  obtain ⟨h1, h2⟩ := new_connection m cfg c uuid p cs.flatten hs he hf hid hclean hcred ns hd Net.init []
    (NetInv.init cfg) _ rfl (Or.inl ⟨cs, rfl, hev, hch, rfl⟩)
  refine ⟨⟨_, h1, rfl, rfl⟩, ?_, h2⟩
  simp only [clientOf, Option.map_eq_some_iff] at h2
  obtain ⟨k, hk, _⟩ := h2
  exact ⟨k, hk⟩

/-- A CONNECT of client `y`. -/
def exNewcomer : ConnectPacket :=
  { protocolVersion := .v5, flags := { cleanStart := true }, keepalive := 60, properties := none,
    payload := { clientId := str "y" } }

example : (Packet.connect exNewcomer).encode =
      .ok [[0x10, 14, 0], [4, 77, 81, 84, 84, 5, 2, 0, 60, 0, 0, 1], [121]].flatten ∧
    (Packet.connect exNewcomer).Survives ∧
    eventsOf 2 (exHostile ++ .accept 2 ::
      sends 2 (str "u") [[0x10, 14, 0], [4, 77, 81, 84, 84, 5, 2, 0, 60, 0, 0, 1], [121]]) =
      .accept 2 :: sends 2 (str "u") [[0x10, 14, 0], [4, 77, 81, 84, 84, 5, 2, 0, 60, 0, 0, 1], [121]] ∧
    ((Net.init.run .debug {} (exHostile ++ .accept 2 ::
      sends 2 (str "u") [[0x10, 14, 0], [4, 77, 81, 84, 84, 5, 2, 0, 60, 0, 0, 1], [121]])).wires.get 2).map
        (·.sent) = some [0x20, 3, 0, 0, 0] := by
  refine ⟨by decide +kernel, ?_, by decide +kernel, by decide +kernel⟩
  have ht : ∀ p : ConnectPacket, p = exNewcomer → p.Consistent ∧ p.Admissible := by
    rintro p rfl
    refine ⟨⟨rfl, rfl, by rintro ⟨⟩, by rintro ⟨⟩, by decide, fun _ => rfl, rfl, rfl⟩,
      ⟨by decide, ?_, ?_, ?_, ?_, ?_, ?_⟩⟩ <;> intro q hq <;> cases hq
  exact ht _ rfl

end Mercurio
