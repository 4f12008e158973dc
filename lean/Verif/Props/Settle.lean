import Verif.Lemmas.Large
import Verif.Lemmas.Settle
import Verif.Props.Alive

/-!
# C106: whatever is in transit on a connection can arrive
-/

namespace Mercurio

open Spec Server

/-- The connection of a client that stays connected (C75), with all that is known about it. -/
theorem live_run {m : Mode} {cfg : AuthConfig} {c : Nat} (evs : List SysEvent) (hord : ∀ e ∈ evs, e.Ordinary)
    (hh : ∀ e ∈ evs, e.Harmless c) : ∀ {σ : System} {es : List Event} {p : Peer} {w : Wire}, SysInv cfg σ es →
      σ.Up c p w → w.begun = true → Pending c p es → Tracked cfg c 0 σ es → σ.GotSent → ReadsWell m cfg c σ evs →
      (σ.run m cfg evs).Apart c p →
      ∃ es' p' w', Live cfg c (σ.run m cfg evs) es' p' w' := by
  induction evs with
  | nil => intro σ es p w h hup hb hp ht hg _ ho; exact ⟨es, p, w, h, hup, hb, hp, ht, ho, hg⟩
  | cons e evs ih =>
    intro σ es p w h hup hb hpend htr hgs hrw ho
    have hm := moves m cfg σ e
    obtain ⟨ex, hg, h1⟩ := h.step (hord e (by simp)) hm
    obtain ⟨r1, r2, r3⟩ := hrw
    obtain ⟨k, _, hd⟩ := htr p w hup.peer hup.wire hup.server (up_socket hup)
      (solo_now h (e :: evs) hord hup.peer ho)
    obtain ⟨p1, w1, N, u1, u2, u3, u4⟩ := up_step (m := m) h hup hb hpend hd (hord e (by simp)) r2 (hh e (by simp))
    have hid : p1.opts = p.opts := by
      obtain ⟨p2, w2, a, _, hev⟩ := step_evolved hm hg hup.peer hup.wire
      rw [u1.peer] at a; cases a
      exact hev.opts
    refine ih (fun x hx => hord x (by simp [hx])) (fun x hx => hh x (by simp [hx])) h1 u1 u2
      (hpend.grow (h.packets_le hup.peer) N u3 u4)
      (tracked_step h h1 hm rfl hg r1 r2 (Or.inl rfl) htr) (gotSent_step h hgs e) r3 ?_
    intro d q hd hq
    unfold Peer.clientId
    rw [hid]; exact ho d q hd hq

theorem gotSent_init : System.init.GotSent := by
  intro c p w hp; simp [System.init, Map.get] at hp

/-- From a time when nothing was in transit to the server. -/
theorem live_since (m : Mode) (cfg : AuthConfig) (evs1 evs2 : List SysEvent) (c : Nat)
    (hord : ∀ e ∈ evs1 ++ evs2, e.Ordinary) (hreads : ReadsWell m cfg c System.init (evs1 ++ evs2))
    (hh : ∀ e ∈ evs2, e.Harmless c) (hq : (System.init.run m cfg evs1).QuietUp c)
    (hka : (System.init.run m cfg evs1).Timed c)
    (ho : ∀ p, ((System.init.run m cfg evs1).run m cfg evs2).peers.get c = some p →
      ((System.init.run m cfg evs1).run m cfg evs2).Apart c p) :
    ∃ es p w, Live cfg c ((System.init.run m cfg evs1).run m cfg evs2) es p w := by
  have ho1 : ∀ e ∈ evs1, e.Ordinary := fun e he => hord e (List.mem_append_left _ he)
  have ho2 : ∀ e ∈ evs2, e.Ordinary := fun e he => hord e (List.mem_append_right _ he)
  obtain ⟨es, hx⟩ := history (m := m) evs1 ho1 (sysInv_init cfg)
  obtain ⟨rw1, rw2⟩ := readsWell_append evs1 hreads
  obtain ⟨p, w, hup, q1, q2⟩ := hq
  have hi : SysInv cfg (System.init.run m cfg evs1) es := hx.inv
  obtain ⟨hall, hb, _⟩ := hi.quiet hup.peer hup.wire hup.server q1 q2
  have hsent := (hi.quiet_sent hup.peer hup.wire hup.server q1 q2).2
  refine live_run evs2 ho2 hh hi hup hb ?_ ?_ (gotSent_run evs1 ho1 (sysInv_init cfg) gotSent_init) rw2 ?_
  · refine ⟨hsent.noPing, fun q hq => ?_, hka p hup.peer⟩
    rw [hall, List.length_map, List.drop_length] at hq
    cases hq
  · exact hx.track c 0 rw1 (Or.inl rfl) (by intro p w hp; simp [System.init, Map.get] at hp)
  · intro d q hd hq
    obtain ⟨ext, hx2⟩ := history (m := m) evs2 ho2 hi
    obtain ⟨p2, w2, hp2, _, hev⟩ := hx2.peer c p w hup.peer hup.wire
    have := ho p2 hp2 d q hd hq
    unfold Peer.clientId at this ⊢
    rwa [hev.opts] at this

theorem run_append (m : Mode) (cfg : AuthConfig) (a b : List SysEvent) (σ : System) :
    σ.run m cfg (a ++ b) = (σ.run m cfg a).run m cfg b := by
  simp [System.run, List.foldl_append]

theorem readsWell_join {m : Mode} {cfg : AuthConfig} {c : Nat} (a : List SysEvent) : ∀ {σ : System}
    {b : List SysEvent}, ReadsWell m cfg c σ a → ReadsWell m cfg c (σ.run m cfg a) b →
      ReadsWell m cfg c σ (a ++ b) := by
  induction a with
  | nil => intro σ b _ h; exact h
  | cons e a ih =>
    intro σ b h1 h2
    obtain ⟨x, y, z⟩ := h1
    exact ⟨x, y, ih z h2⟩

theorem own_join {c : Nat} {a b : List SysEvent} (h1 : ∀ e ∈ a, e.Own c) (h2 : ∀ e ∈ b, e.Own c) :
    ∀ e ∈ a ++ b, e.Own c := by
  intro e he
  rcases List.mem_append.mp he with he | he
  · exact h1 e he
  · exact h2 e he

theorem server_done {cfg : AuthConfig} {c : Nat} {m : Mode} {σ : System} (h : ∃ es p w, Live cfg c σ es p w) :
    ∃ evs : List SysEvent, (∀ e ∈ evs, e.Own c) ∧ ReadsWell m cfg c σ evs ∧
      (∃ es p w, Live cfg c (σ.run m cfg evs) es p w) ∧ (σ.run m cfg evs).ServerDone cfg c := by
  obtain ⟨e1, o1, r1, ⟨es, p, w, hl⟩, p', w', hu, a, b⟩ := settle_up m cfg c σ h
  have hp := hl.up.peer
  have hw := hl.up.wire
  rw [hu.peer, Option.some.injEq] at hp; rw [hu.wire, Option.some.injEq] at hw
  subst hp hw
  obtain ⟨e2, o2, r2, ⟨es2, p2, w2, hl2, a2, b2⟩, hid⟩ := settle_server m cfg c _ ⟨es, _, _, hl, a, b⟩
  refine ⟨e1 ++ e2, own_join o1 o2, readsWell_join e1 r1 r2, ?_, ?_⟩ <;> rw [run_append]
  · exact ⟨es2, p2, w2, hl2⟩
  · exact ⟨⟨p2, w2, hl2.up, a2, b2⟩, hid⟩

theorem client_done {cfg : AuthConfig} {c : Nat} {m : Mode} {σ : System} (h : ∃ es p w, Live cfg c σ es p w)
    (hd : σ.ServerDone cfg c)
    (hs : ∀ p w, σ.Up c p w → SmallPackets p.opts.protocolVersion w.sent) :
    ∃ evs : List SysEvent, (∀ e ∈ evs, e.Own c) ∧ ReadsWell m cfg c σ evs ∧
      (∃ es p w, Live cfg c (σ.run m cfg evs) es p w) ∧ (σ.run m cfg evs).Quiet m cfg c := by
  obtain ⟨es, p, w, hl⟩ := h
  obtain ⟨⟨p0, w0, hu, q1, q2⟩, hid⟩ := hd
  have hp := hl.up.peer
  have hw := hl.up.wire
  rw [hu.peer, Option.some.injEq] at hp; rw [hu.wire, Option.some.injEq] at hw
  subst hp hw
  have hall := (hl.inv.quiet hu.peer hu.wire hu.server q1 q2).1
  have hpa : PendingAcks c p0 es := by
    intro q hq
    rw [hall, List.length_map, List.drop_length] at hq
    cases hq
  obtain ⟨e1, o1, r1, hn, h1⟩ := settle_client m cfg c σ ⟨es, p0, w0, hl, hs p0 w0 hu, hpa⟩
  obtain ⟨e2, o2, r2, hL, h2⟩ := settle_acks m cfg c _ h1 (by rw [hn]; exact hid)
  refine ⟨e1 ++ e2, own_join o1 o2, readsWell_join e1 r1 r2, ?_, ?_⟩ <;> rw [run_append]
  · exact hL
  · exact h2

/-- C106: whatever has happened (as in C75: client `c` was connected, with a keep-alive other than 0 and nothing in
transit to the server, and since then nothing ended its connection on purpose), the server can always catch up with the client: a few steps of the two
sides of this connection, and of nobody else, after which the server has acted on everything the client sent and has
no message left to send to it. -/
theorem C106_server_catches_up (m : Mode) (cfg : AuthConfig) (evs1 evs2 : List SysEvent) (c : Nat)
    (hord : ∀ e ∈ evs1 ++ evs2, e.Ordinary) (hreads : ReadsWell m cfg c System.init (evs1 ++ evs2))
    (hh : ∀ e ∈ evs2, e.Harmless c) :
    let σ1 := System.init.run m cfg evs1
    let σ2 := σ1.run m cfg evs2
    σ1.QuietUp c → σ1.Timed c →
    (∀ p, σ2.peers.get c = some p → σ2.Apart c p) →
    ∃ evs3, (∀ e ∈ evs3, e.Own c) ∧ (σ2.run m cfg evs3).ServerDone cfg c := by
  intro σ1 σ2 hq hka ho
  obtain ⟨evs3, a, _, _, b⟩ := server_done (m := m) (live_since m cfg evs1 evs2 c hord hreads hh hq hka ho)
  exact ⟨evs3, a, b⟩

/-- C106 (partial): once the server is done, the client can catch up as well, and in the end nothing is in transit on
the connection.
Missing, because it is false: the server may have sent packets of more than 4096 bytes, see
`C106_large_message_false`. -/
theorem C106_client_catches_up_partial (m : Mode) (cfg : AuthConfig) (evs1 evs2 : List SysEvent) (c : Nat)
    (hord : ∀ e ∈ evs1 ++ evs2, e.Ordinary) (hreads : ReadsWell m cfg c System.init (evs1 ++ evs2))
    (hh : ∀ e ∈ evs2, e.Harmless c) :
    let σ1 := System.init.run m cfg evs1
    let σ2 := σ1.run m cfg evs2
    σ1.QuietUp c → σ1.Timed c →
    (∀ p, σ2.peers.get c = some p → σ2.Apart c p) →
    σ2.ServerDone cfg c →
    (∀ p w, σ2.Up c p w → SmallPackets p.opts.protocolVersion w.sent) →
    ∃ evs3, (∀ e ∈ evs3, e.Own c) ∧ (σ2.run m cfg evs3).Quiet m cfg c := by
  intro σ1 σ2 hq hka ho hd hs
  obtain ⟨evs3, a, _, _, b⟩ := client_done (m := m) (live_since m cfg evs1 evs2 c hord hreads hh hq hka ho) hd hs
  exact ⟨evs3, a, b⟩

/-- C106 (partial): so messages do arrive.  The application of `c` has subscribed to `f`, nothing was in transit, and
since then anything harmless has happened.  Then the two sides of its connection can go on so that the server is done
with the client, and, if all packets it sent have at most 4096 bytes, so that the application has got every message
that was published on topics `f` matches, if these are no more than 16.
Missing, because it is false: messages for which a packet of more than 4096 bytes is sent
(`C106_large_message_false`), and more than 16 messages (C112). -/
theorem C106_messages_arrive_partial (m : Mode) (cfg : AuthConfig) (evs1 evs2 : List SysEvent) (c : Nat) (f : Str)
    (p1 : Peer) (hord : ∀ e ∈ evs1 ++ evs2, e.Ordinary) (hreads : ReadsWell m cfg c System.init (evs1 ++ evs2))
    (hh : ∀ e ∈ evs2, e.Harmless c) (hf : ValidFilter f) :
    let σ1 := System.init.run m cfg evs1
    let σ2 := σ1.run m cfg evs2
    σ1.Quiet m cfg c → σ1.Timed c → σ1.peers.get c = some p1 → p1.subscribedTo f →
    (∀ i, SysEvent.app c i ∈ evs2 → ¬ i.Names f) →
    (∀ p, σ2.peers.get c = some p → σ2.Apart c p) →
    ∃ evs3, (∀ e ∈ evs3, e.Own c) ∧
      let σ3 := σ2.run m cfg evs3
      σ3.ServerDone cfg c ∧
      ((∀ p w, σ3.Up c p w → SmallPackets p.opts.protocolVersion w.sent) →
        ∃ evs4, (∀ e ∈ evs4, e.Own c) ∧
          let σ4 := σ3.run m cfg evs4
          ∃ L p4, PublishedBetween σ1 σ4 L ∧ σ4.Quiet m cfg c ∧ σ4.peers.get c = some p4 ∧
            ((heardFor f L).length ≤ 16 → p4.heardOn f = p1.heardOn f ++ heardFor f L)) := by
  intro σ1 σ2 hq hka hp1 hsub hnames ho
  obtain ⟨evs3, a3, r3, l3, d3⟩ := server_done (m := m) (live_since m cfg evs1 evs2 c hord hreads hh hq.1 hka ho)
  refine ⟨evs3, a3, d3, fun hs => ?_⟩
  obtain ⟨evs4, a4, r4, ⟨es4, p4, w4, l4⟩, q4⟩ := client_done (m := m) l3 d3 hs
  refine ⟨evs4, a4, ?_⟩
  have hown := own_join a3 a4
  obtain ⟨L, hL, hheard⟩ := C74_application_to_application m cfg evs1 (evs2 ++ (evs3 ++ evs4)) (by
    intro e he
    rw [← List.append_assoc] at he
    rcases List.mem_append.mp he with he | he
    · exact hord e he
    · exact Own.ordinary (hown e he))
  simp only [run_append] at hL hheard
  have hreads' : ReadsWell m cfg c System.init (evs1 ++ (evs2 ++ (evs3 ++ evs4))) := by
    rw [← List.append_assoc]
    refine readsWell_join _ hreads ?_
    rw [run_append]
    exact readsWell_join _ r3 r4
  obtain ⟨X, x1, x2, x3⟩ := hheard c f p1 p4 w4 hreads' hf hq hp1 hsub (by
    intro i hi
    rcases List.mem_append.mp hi with hi | hi
    · exact hnames i hi
    · obtain ⟨_, rfl⟩ := hown _ hi
      simp [ClientIn.Names]) l4.up l4.apart
  refine ⟨L, p4, hL, q4, l4.up.peer, fun h16 => ?_⟩
  rw [x1, (x3 h16).2 q4.2]

/-- C106 is false for large messages, always: when the next thing on its way to a connected client is a message whose
payload has at least 4096 bytes, then whatever happens afterwards (`evs` is arbitrary), the application does not get
this message nor any later one on this connection; the client never even has all the bytes of it. -/
theorem C106_large_message_false (m : Mode) (cfg : AuthConfig) (σ : System) (c : Nat) (p : Peer) (w : Wire)
    (hup : σ.Up c p w) (q : PublishPacket) (ha : q.Admissible) (bytes : Buf)
    (he : (Packet.publish q).encode = .ok bytes) (hf : FitsMqtt bytes) (hl : 4096 ≤ (q.payload.getD []).length)
    (hbuf : p.buf = []) (hnext : bytes <+: σ.downstream c p) (evs : List SysEvent) :
    let σ' := σ.run m cfg evs
    ∃ p', σ'.peers.get c = some p' ∧ p'.heard = p.heard ∧ p'.got.length < p.got.length + bytes.length ∧
      ¬ σ'.QuietDown m cfg c := by
  intro σ'
  obtain ⟨l, hphase, hrun⟩ := up_phase hup
  have hne : bytes ≠ [] := encode_ne_nil he
  have hlen : (q.payload.getD []).length < bytes.length := by
    have hb : bytes = frame q.header q.body.length q.body := PublishPacket.encode_inv he
    rw [hb, frame, q.body_head]
    simp only [List.length_cons, List.length_append]
    omega
  have h0 : Stuck c p.opts.protocolVersion bytes p.got.length p.heard σ :=
    ⟨p, w, l, [], bytes, hup.peer, hup.wire, hphase, rfl, by simpa [System.downstream, hup.wire] using hnext, rfl, rfl,
      hne, rfl, hbuf⟩
  obtain ⟨p', w', l', x, y, h1, h2, h3, h4, h5, h6, h7, h8, h9, h10⟩ := stuck_run (m := m) (cfg := cfg) ha he hf hl hlen evs h0
  have hy := List.length_pos_iff.mpr h8
  have hb := congrArg List.length h7
  rw [List.length_append] at hb
  refine ⟨p', h1, h6, by omega, ?_⟩
  rintro ⟨p2, w2, hu, _, hg, _⟩
  have e1 := hu.peer
  have e2 := hu.wire
  rw [h1, Option.some.injEq] at e1
  rw [h2, Option.some.injEq] at e2
  subst e1 e2
  have := h5.length_le
  rw [List.length_drop, ← hg] at this
  omega

/-! ## Examples -/

/-- The other client has published; the server has not yet sent the message on. -/
def exSettle2 : System := exSys1.run .debug {} (exSysPub.take 3)

/-- The server has sent it, the subscriber has read nothing of it. -/
def exSettle3 : System := exSys1.run .debug {} (exSysPub.take 4)

theorem exSettle_reads (k : Nat) : ReadsWell .debug {} 0 System.init (exSysSub ++ exSysPub.take k) := by
  have h := exSys_reads
  rw [← List.take_append_drop k exSysPub, ← List.append_assoc] at h
  exact (readsWell_append _ h).1

/-- The hypotheses of `C106_server_catches_up` and `C106_messages_arrive_partial`, with a message in transit. -/
example : (∀ e ∈ exSysSub ++ exSysPub.take 3, e.Ordinary) ∧ ReadsWell .debug {} 0 System.init (exSysSub ++ exSysPub.take 3) ∧
    (∀ e ∈ exSysPub.take 3, e.Harmless 0) ∧ exSys1.Quiet .debug {} 0 ∧ exSys1.Timed 0 ∧
    (∀ p, exSys1.peers.get 0 = some p → p.subscribedTo (str "a/+")) ∧ ValidFilter (str "a/+") ∧
    (∀ i, SysEvent.app 0 i ∈ exSysPub.take 3 → ¬ i.Names (str "a/+")) ∧
    (∀ p, exSettle2.peers.get 0 = some p → exSettle2.Apart 0 p) ∧ ¬ exSettle2.ServerDone {} 0 := by
  refine ⟨?_, exSettle_reads 3, ?_, exSys1_quiet, timed_check (by decide +kernel), ?_, (C23_filter_iff _).mp (by decide +kernel), ?_,
    fun p hp => apart_check hp (by decide +kernel), ?_⟩
  · intro e he
    refine exSys_ordinary e ?_
    rcases List.mem_append.mp he with he | he
    · exact List.mem_append_left _ he
    · exact List.mem_append_right _ (List.mem_of_mem_take he)
  · simp only [exSysPub, List.take, List.forall_mem_cons]
    simp [SysEvent.Harmless]
  · intro p hp
    have h : (exSys1.peers.get 0).map (·.history) =
      some [(.subscribe [(str "a/+", .atLeastOnce)] true,
          { sent := some (.subscribe ⟨1, none, [⟨str "a/+", { qos := .atLeastOnce }⟩]⟩)
            result := some (.subscribed [(str "a/+", .atLeastOnce, true)]) }),
        (.read (.packet (.subAck { packetId := 1, properties := some {}, payload := [.success] })) true, {})] := by
      decide +kernel
    rw [hp] at h
    simp only [Option.map_some, Option.some.injEq] at h
    simp [Peer.subscribedTo, h]
  · simp [exSysPub]
  · rintro ⟨_, h⟩
    have h := h (str "a/+")
    revert h
    decide +kernel

/-- The further hypotheses of `C106_client_catches_up_partial`: the message has been sent and not been read. -/
example : exSettle3.ServerDone {} 0 ∧ (∀ p w, exSettle3.Up 0 p w → SmallPackets p.opts.protocolVersion w.sent) ∧
    ¬ exSettle3.Quiet .debug {} 0 := by
  have hsub : ((exSettle3.net.server.at 0).map fun s => s.subscriptions.keys) = some [str "a/+"] := by decide +kernel
  refine ⟨⟨?_, ?_⟩, ?_, ?_⟩
  · refine ⟨(exSettle3.peers.get 0).get (by decide +kernel), (exSettle3.net.wires.get 0).get (by decide +kernel),
      ⟨by simp, by simp, by decide +kernel, ?_⟩, by decide +kernel, by decide +kernel⟩
    exact ⟨((exSettle3.peers.get 0).get (by decide +kernel)).loop.get (by decide +kernel), by simp, by decide +kernel⟩
  · intro f
    by_cases hf : f = str "a/+"
    · subst hf; decide +kernel
    · refine deliver_unsubscribed fun s hs => ?_
      rw [hs] at hsub
      simp only [Option.map_some, Option.some.injEq] at hsub
      cases hg : s.subscriptions.get f with
      | none => rfl
      | some st =>
        have hk := (Map.get_isSome s.subscriptions f).mp (by rw [hg]; rfl)
        rw [hsub] at hk
        exact absurd (by simpa using hk) hf
  · intro p w hu
    have h : ((exSettle3.peers.get 0).map (·.opts.protocolVersion), (exSettle3.net.wires.get 0).map (·.sent)) =
        (some .v5, some (writePackets exSysSent).1) := by decide +kernel
    rw [hu.peer, hu.wire] at h
    simp only [Option.map_some, Prod.mk.injEq, Option.some.injEq] at h
    rw [h.1, h.2]
    refine ⟨exSysSent, exSysSent_to 3 _ (by decide +kernel), ?_⟩
    intro q hq b hb
    have : ∀ q ∈ exSysSent, ((match q.encode with | .ok b => b.length | _ => 0) ≤ 4096) := by decide +kernel
    have := this q hq
    rw [hb] at this
    exact this
  · rintro ⟨_, p, w, hu, _, hg, _⟩
    have h : (exSettle3.peers.get 0).map (·.got) ≠ (exSettle3.net.wires.get 0).map (·.sent) := by decide +kernel
    rw [hu.peer, hu.wire] at h
    exact h (by simp [hg])

/-- A message of 4096 bytes. -/
def exHuge : PublishPacket := { topicName := str "a/+", payload := some (List.replicate 4096 0x61) }

/-- It is next for the subscriber. -/
def exSettleHuge : System := exSys1.run .debug {} [
  .app 1 (.publish (str "a/b") (List.replicate 4096 0x61) .atMostOnce false true),
  .serverRead 1 8192, .serverTurn 1 (str "v") true, .deliver 0 (str "a/+")]

/-- The hypotheses of `C106_large_message_false`. -/
example : exHuge.Admissible ∧ ∃ p w bytes, exSettleHuge.Up 0 p w ∧ (Packet.publish exHuge).encode = .ok bytes ∧ FitsMqtt bytes ∧
    p.buf = [] ∧ bytes <+: exSettleHuge.downstream 0 p := by
  refine ⟨⟨by decide +kernel, by decide, by decide, fun q h => (by cases h)⟩, ?_⟩
  refine ⟨(exSettleHuge.peers.get 0).get (by decide +kernel), (exSettleHuge.net.wires.get 0).get (by decide +kernel),
    (match (Packet.publish exHuge).encode with | .ok b => b | _ => []),
      ⟨by simp, by simp, by decide +kernel,
        ⟨((exSettleHuge.peers.get 0).get (by decide +kernel)).loop.get (by decide +kernel), by simp, by decide +kernel⟩⟩, ?_,
      by unfold FitsMqtt; decide +kernel, by decide +kernel, by decide +kernel⟩
  have h : (match (Packet.publish exHuge).encode with | .ok _ => true | _ => false) = true := by decide +kernel
  cases he : (Packet.publish exHuge).encode with
  | ok b => rfl
  | err e => rw [he] at h; cases h
  | panic => rw [he] at h; cases h

end Mercurio
