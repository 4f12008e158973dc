import Verif.Props.CliSystem
import Verif.Props.ClientApi

/-!
# C102: why a connection ended
-/

namespace Mercurio

open Spec Server

/-- What a client that reads `v` makes of `buf` is an error: the first packet cannot be parsed, whatever follows. -/
def Spec.Unreadable (m : Mode) (v : ProtocolVersion) (buf : Buf) : Prop :=
  buf ≠ [] ∧ ∃ err, parseWithVersion m v buf = .err err ∧ err ≠ .incomplete

/-- The client panics on `buf`: parsing it does, or writing down the packet that was parsed does, or this takes more
bytes than there are. -/
def Spec.PanicsOn (m : Mode) (v : ProtocolVersion) (buf : Buf) : Prop :=
  buf ≠ [] ∧ (parseWithVersion m v buf = .panic ∨ ∃ q rest, parseWithVersion m v buf = .ok (q, rest) ∧
    (q.encode = .panic ∨ ∃ bytes, q.encode = .ok bytes ∧ buf.length < bytes.length))

/-- What reason `r` stands for, told by client `c` (`p`) of system `σ` at event `e`: the server has closed the
connection and the client has read all it was sent; the application has called `disconnect`; the keep-alive
packet could not be written; the client's read failed, or what was sent to it is no packet. -/
def Spec.Why (m : Mode) (σ : System) (c : Nat) (p : Peer) (e : SysEvent) : DisconnectReason → Prop
  | .serverInitiated => (∃ n, e = .clientRead c n) ∧ ∃ w, σ.net.wires.get c = some w ∧ w.running = false ∧
      w.sent.length ≤ p.got.length
  | .clientInitiated => ∃ ok, e = .app c (.disconnect ok)
  | .keepAliveTimeout => e = .app c (.tick false)
  | .connectionLost => e = .clientError c ∨
      ∃ ok, e = .clientTurn c ok ∧ Unreadable m p.opts.protocolVersion p.buf

/-! ## Reading -/

theorem clientParse_error_iff {m : Mode} {v : ProtocolVersion} {buf : Buf} :
    (∃ err, clientParse m v buf = .error err) ↔ Unreadable m v buf := by
  unfold clientParse Unreadable
  cases buf with
  | nil => simp
  | cons b bs =>
    simp only [ne_eq, reduceCtorEq, not_false_eq_true, true_and]
    cases h : parseWithVersion m v (b :: bs) with
    | ok x =>
      obtain ⟨q, rest⟩ := x
      simp only [reduceCtorEq, false_and, exists_false, iff_false]
      rintro ⟨err, h1⟩
      cases hq : q.encode with
      | ok bytes => rw [hq] at h1; simp only at h1; split at h1 <;> cases h1
      | err e => exact C09_encode_no_error q e hq
      | panic => rw [hq] at h1; cases h1
    | err e => cases e <;> simp
    | panic => simp

theorem clientParse_panicked_iff {m : Mode} {v : ProtocolVersion} {buf : Buf} :
    clientParse m v buf = .panicked ↔ PanicsOn m v buf := by
  unfold clientParse PanicsOn
  cases buf with
  | nil => simp
  | cons b bs =>
    simp only [ne_eq, reduceCtorEq, not_false_eq_true, true_and]
    cases h : parseWithVersion m v (b :: bs) with
    | ok x =>
      obtain ⟨q, rest⟩ := x
      simp only [reduceCtorEq, false_or, Res.ok.injEq, Prod.mk.injEq]
      constructor
      · intro h1
        refine ⟨q, rest, ⟨rfl, rfl⟩, ?_⟩
        cases hq : q.encode with
        | ok bytes =>
          rw [hq] at h1; simp only at h1; split at h1
          · cases h1
          · rename_i hle
            exact Or.inr ⟨bytes, rfl, Nat.lt_of_not_le hle⟩
        | err e => exact absurd hq (C09_encode_no_error q e)
        | panic => exact Or.inl rfl
      · rintro ⟨_, _, ⟨rfl, rfl⟩, h1 | ⟨bytes, h1, h2⟩⟩
        · rw [h1]
        · rw [h1]
          simp only
          rw [if_neg (Nat.not_le.mpr h2)]
    | err e => cases e <;> simp
    | panic => simp

/-- C58: how the client reads, one read of the socket at a time: as long as its buffer does not begin with a packet,
it reads on; a packet, an error or a panic comes of the buffer alone, whatever is read later.  The whole system reads
this way, one round (`clientParse`) at a time. -/
theorem C58_rounds (m : Mode) (v : ProtocolVersion) (buf : Buf) (cs : List Buf) :
    clientReadPacket m v buf cs =
      match clientParse m v buf with
      | .packet q rest => (.packet q, rest, cs)
      | .error err => (.error err, buf, cs)
      | .panicked => (.panicked, buf, cs)
      | .needMore =>
        match cs with
        | [] => (.closed, buf, [])
        | c :: cs => if c = [] then (.closed, buf, cs) else clientReadPacket m v (buf ++ c) cs := by
  cases buf with
  | nil => cases cs <;> simp [clientReadPacket, clientParse]
  | cons b bs =>
    cases cs with
    | nil =>
      simp only [clientReadPacket, clientParse]
      cases h : parseWithVersion m v (b :: bs) with
      | ok x =>
        obtain ⟨q, rest⟩ := x
        simp only
        cases hq : q.encode with
        | ok bytes => simp only; split <;> rfl
        | err e => rfl
        | panic => rfl
      | err e => cases e <;> rfl
      | panic => rfl
    | cons c cs =>
      rw [clientReadPacket]
      simp only [clientParse]
      cases h : parseWithVersion m v (b :: bs) with
      | ok x =>
        obtain ⟨q, rest⟩ := x
        simp only
        cases hq : q.encode with
        | ok bytes => simp only; split <;> rfl
        | err e => rfl
        | panic => rfl
      | err e => cases e <;> rfl
      | panic => rfl

/-! ## The client -/

theorem act_end {p : Peer} {l : Client} {i : ClientIn} (hr : l.running = true)
    {p' : Peer} {l' : Client} (hp' : p' = p.act l i) (hl' : p'.phase = .connected l') (he : l'.running = false) :
    (∃ ok, i = .read .panicked ok ∧ l'.pending = l.pending) ∨
    ∃ r, EndsWith i r ∧ l'.pending = l.pending ++ [.disconnected r] := by
  subst hp'
  have : (l.step i).1 = l' := by
    simp only [Peer.act] at hl'
    exact Phase.connected.inj hl'
  subst this
  exact C81_end_told l hr i he

/-- C102: when the connection of a client ends, its application is told so, after everything else it was told, with
the reason why it ended (or its client panics on what it was sent, see C20). -/
theorem C102_end_reason (m : Mode) (cfg : AuthConfig) (σ : System) (e : SysEvent) (c : Nat) (p p' : Peer)
    (l l' : Client) (hp : σ.peers.get c = some p) (hl : p.phase = .connected l) (hr : l.running = true)
    (hp' : (σ.step m cfg e).peers.get c = some p') (hl' : p'.phase = .connected l') (he : l'.running = false) :
    (∃ ok, e = .clientTurn c ok ∧ PanicsOn m p.opts.protocolVersion p.buf ∧ l'.pending = l.pending) ∨
    ∃ r, Why m σ c p e r ∧ l'.pending = l.pending ++ [.disconnected r] := by
  have same : (σ.step m cfg e).peers.get c = σ.peers.get c → False := by
    intro h
    rw [h, hp] at hp'
    cases hp'
    rw [hl] at hl'
    cases hl'
    rw [hr] at he
    cases he
  have on : ∀ (d : Nat) (f : Peer → System), (∀ q, σ.peers.get d = some q → σ.onPeer d f = f q) := by
    intro d f q h; simp [System.onPeer, h]
  have other : ∀ (d : Nat) (q : Peer), d ≠ c → (σ.put d q).peers.get c = σ.peers.get c := by
    intro d q h
    simp only [System.put, Map.get_insert]
    rw [if_neg h]
  have mine : ∀ q : Peer, (σ.put c q).peers.get c = some q := by
    intro q; simp [System.put, Map.get_insert]
  have skip : ∀ (d : Nat) (f : Peer → System), d ≠ c → (∀ q, (f q).peers.get c = σ.peers.get c) →
      (σ.onPeer d f).peers.get c = σ.peers.get c := by
    intro d f _ h
    unfold System.onPeer
    split
    · rfl
    · exact h _
  have recv : ∀ (q : Peer) (r : ReadOut) (ok : Bool), q.phase = .connected l → q.receive r ok = q.act l (.read r ok) := by
    intro q r ok h; simp [Peer.receive, h]
  cases e with
  | connect d o =>
    exfalso; apply same
    simp only [System.step]
    split
    · rename_i h1 _
      simp only [Map.get_insert]
      rw [if_neg]
      rintro rfl
      rw [hp] at h1; cases h1
    · rfl
  | serverRead d n =>
    exfalso; apply same
    simp only [System.step, System.onPeer]
    repeat' split
    all_goals rfl
  | serverTurn d u w => exact (same rfl).elim
  | deliver d f => exact (same rfl).elim
  | serverClose d => exact (same rfl).elim
  | clientRead d n =>
    by_cases hd : d = c
    · subst hd
      simp only [System.step, on _ _ _ hp] at hp' same
      split at hp'
      · rename_i hg
        rw [if_pos hg] at same
        split at hp'
        · rename_i ht
          rw [ht] at same
          simp only at same
          split at hp'
          · rename_i hc
            rw [mine, recv p _ _ hl] at hp'
            rcases act_end hr (Option.some.inj hp').symm hl' he with ⟨ok, h, _⟩ | ⟨r, h1, h2⟩
            · cases h
            · refine Or.inr ⟨r, ?_, h2⟩
              simp only [EndsWith] at h1
              subst h1
              simp only [Bool.and_eq_true, List.isEmpty_iff] at hc
              refine ⟨⟨n, rfl⟩, ?_⟩
              have h3 := hc.2
              have h4 := hc.1
              unfold System.ended at h3
              unfold System.downstream at h4
              cases hw : σ.net.wires.get d with
              | none => rw [hw] at h3; cases h3
              | some w =>
                rw [hw] at h3 h4
                refine ⟨w, rfl, by simpa using h3, ?_⟩
                simpa [List.drop_eq_nil_iff] using h4
          · rename_i hc
            rw [if_neg hc] at same
            exact (same rfl).elim
        · rw [mine] at hp'
          cases hp'
          simp only at hl'
          rw [hl] at hl'
          cases hl'
          rw [hr] at he; cases he
      · rename_i hg
        rw [if_neg hg] at same
        exact (same rfl).elim
    · exfalso; apply same
      simp only [System.step]
      refine skip d _ hd fun q => ?_
      repeat' split
      all_goals first | rfl | exact other d _ hd
  | clientTurn d ok =>
    by_cases hd : d = c
    · subst hd
      simp only [System.step, on _ _ _ hp] at hp' same
      split at hp'
      · rename_i hg
        rw [if_pos hg] at same
        cases hq : clientParse m p.opts.protocolVersion p.buf with
        | needMore => rw [hq] at same; exact (same rfl).elim
        | packet q rest =>
          rw [hq] at hp'
          simp only at hp'
          rw [mine, recv _ _ _ (by exact hl)] at hp'
          rcases act_end hr (Option.some.inj hp').symm hl' he with ⟨ok, h, _⟩ | ⟨r, h1, _⟩
          · cases h
          · cases h1
        | error err =>
          rw [hq] at hp'
          simp only at hp'
          rw [mine, recv p _ _ hl] at hp'
          rcases act_end hr (Option.some.inj hp').symm hl' he with ⟨ok, h, _⟩ | ⟨r, h1, h2⟩
          · cases h
          · simp only [EndsWith] at h1
            subst h1
            exact Or.inr ⟨.connectionLost, Or.inr ⟨ok, rfl, clientParse_error_iff.mp ⟨err, hq⟩⟩, h2⟩
        | panicked =>
          rw [hq] at hp'
          simp only at hp'
          rw [mine, recv p _ _ hl] at hp'
          rcases act_end hr (Option.some.inj hp').symm hl' he with ⟨ok', _, h⟩ | ⟨r, h1, _⟩
          · exact Or.inl ⟨ok, rfl, clientParse_panicked_iff.mp hq, h⟩
          · cases h1
      · rename_i hg
        rw [if_neg hg] at same
        exact (same rfl).elim
    · exfalso; apply same
      simp only [System.step]
      refine skip d _ hd fun q => ?_
      repeat' split
      all_goals first | rfl | exact other d _ hd
  | clientError d =>
    by_cases hd : d = c
    · subst hd
      simp only [System.step, on _ _ _ hp] at hp' same
      split at hp'
      · rw [mine, recv p _ _ hl] at hp'
        rcases act_end hr (Option.some.inj hp').symm hl' he with ⟨ok, h, _⟩ | ⟨r, h1, h2⟩
        · cases h
        · simp only [EndsWith] at h1
          subst h1
          exact Or.inr ⟨.connectionLost, Or.inl rfl, h2⟩
      · rename_i hg
        rw [if_neg hg] at same
        exact (same rfl).elim
    · exfalso; apply same
      simp only [System.step]
      refine skip d _ hd fun q => ?_
      repeat' split
      all_goals first | rfl | exact other d _ hd
  | timeout d =>
    by_cases hd : d = c
    · subst hd
      simp only [System.step, on _ _ _ hp, hl] at same
      exact (same trivial).elim
    · exfalso; apply same
      simp only [System.step]
      refine skip d _ hd fun q => ?_
      repeat' split
      all_goals first | rfl | exact other d _ hd
  | app d i =>
    by_cases hd : d = c
    · subst hd
      simp only [System.step, on _ _ _ hp, hl] at hp' same
      by_cases hi : ∃ r ok, i = .read r ok
      · obtain ⟨r, ok, rfl⟩ := hi
        exact (same rfl).elim
      · have e1 : (match (Phase.connected l, i) with
          | (_, .read _ _) => σ
          | (.connected l, i) => σ.put d (p.act l i)
          | (_, _) => σ) = σ.put d (p.act l i) := by
          cases i <;> first | rfl | exact absurd ⟨_, _, rfl⟩ hi
        have hp2 : p' = p.act l i := by
          cases i <;> first
            | exact absurd ⟨_, _, rfl⟩ hi
            | (simp only at hp'; rw [mine] at hp'; exact (Option.some.inj hp').symm)
        rcases act_end hr hp2 hl' he with ⟨ok, h, _⟩ | ⟨r, h1, h2⟩
        · exact absurd ⟨_, _, h⟩ hi
        · refine Or.inr ⟨r, ?_, h2⟩
          cases i with
          | read x ok => exact absurd ⟨_, _, rfl⟩ hi
          | disconnect ok => simp only [EndsWith] at h1; subst h1; exact ⟨ok, rfl⟩
          | tick ok =>
            simp only [EndsWith] at h1
            obtain ⟨rfl, rfl⟩ := h1
            rfl
          | _ => cases h1
    · exfalso; apply same
      simp only [System.step]
      refine skip d _ hd fun q => ?_
      repeat' split
      all_goals first | rfl | exact other d _ hd

/-- C102: once the server has closed the connection and the client has read all it was sent, its next read ends the
connection and tells the application so (unless its queue of events is full: then the client does not read). -/
theorem C102_close_told (m : Mode) (cfg : AuthConfig) (σ : System) (c : Nat) (p : Peer) (l : Client) (w : Wire) (n : Nat)
    (hp : σ.peers.get c = some p) (hl : p.phase = .connected l) (hr : l.running = true) (hb : l.pending.length < 256)
    (hw : σ.net.wires.get c = some w) (hend : w.running = false) (hall : w.sent.length ≤ p.got.length)
    (hbuf : clientParse m p.opts.protocolVersion p.buf = .needMore) :
    ∃ p' l', (σ.step m cfg (.clientRead c n)).peers.get c = some p' ∧ p'.phase = .connected l' ∧ l'.running = false ∧
      l'.pending = l.pending ++ [.disconnected .serverInitiated] := by
  have hnb : ¬ l.blocked := by unfold Client.blocked eventCapacity; omega
  have hread : p.reading = true := by simp [Peer.reading, hl, hr, hnb]
  have hd : σ.downstream c p = [] := by simp [System.downstream, hw, List.drop_eq_nil_iff, hall]
  have he : σ.ended c = true := by simp [System.ended, hw, hend]
  have e : σ.step m cfg (.clientRead c n) = σ.put c (p.act l (.read .closed true)) := by
    simp [System.step, System.onPeer, hp, hread, hbuf, hd, he, Peer.receive, hl]
  have hs : (l.step (.read .closed true)).1 =
      { l with running := false, pending := l.pending ++ [.disconnected .serverInitiated] } := by
    simp [Client.step, hnb, hr, Client.turn, Client.stop, Client.emit]
  refine ⟨p.act l (.read .closed true), (l.step (.read .closed true)).1, ?_, rfl, ?_, ?_⟩
  · rw [e]; simp [System.put, Map.get_insert]
  · rw [hs]
  · rw [hs]

/-! ## The server -/

/-- C102 is false of the reason the server has: whatever makes the server end the connection of a client that is
in (a protocol error, a keep-alive timeout, a shutdown), it sends nothing when it does so.  MQTT 5 has the DISCONNECT
with a reason for this (sections 3.14, 4.13). -/
theorem C102_silent_end_false (cfg : AuthConfig) (srv : Server) (e : Event) (c : Nat)
    (h1 : (srv.conns.get c).isSome) (h2 : (srv.step cfg e).1.conns.get c = none) : (srv.step cfg e).2.sent = [] := by
  have onConn_ : ∀ (d : Nat) (f : Nat → Session → Server × Out),
      (∀ k s, srv.conns.get d = some k → srv.heap.get k.session = some s →
        (f k.session s).1.conns.get c = none → (f k.session s).2.sent = []) →
      (srv.onConn d f).1.conns.get c = none → (srv.onConn d f).2.sent = [] := by
    intro d f h h2
    unfold onConn at h2 ⊢
    split
    · rfl
    · rename_i k hk
      rw [hk] at h2
      simp only at h2 ⊢
      split
      · rfl
      · rename_i s hs
        rw [hs] at h2
        exact h k s hk hs h2
  have put_ : ∀ (x : Server) (r : Nat) (s : Session), (x.put r s).conns = x.conns := fun _ _ _ => rfl
  have map_ : ∀ (x : Server) (f : MemoryStore → MemoryStore), (x.mapStore f).conns = x.conns := fun _ _ => rfl
  have gone : srv.conns.get c ≠ none := by intro h; rw [h] at h1; cases h1
  cases e with
  | first d p u w =>
    simp only [Server.step] at h2 ⊢
    split
    · rfl
    · rename_i hd
      rw [if_neg hd] at h2
      cases p with
      | connect p =>
        simp only [Server.connect] at h2 ⊢
        split
        · rename_i ha
          rw [if_pos ha] at h2
          exact absurd h2 gone
        · rename_i ha
          rw [if_neg ha] at h2
          cases w with
          | false => rfl
          | true =>
            exfalso
            have hconn : ∀ (x : Server) (q : ConnectPacket), (x.enter q).1.conns = x.conns := by
              intro x q
              unfold Server.enter
              repeat' split
              all_goals rfl
            have hdis : ∀ (x : Server) (k : Str) (b : Bool), (x.discard k b).conns = x.conns := by
              intro x k b
              unfold Server.discard
              split <;> rfl
            simp only [Server.start, if_true, put_, map_, Map.get_insert, hconn, hdis] at h2
            split at h2
            · cases h2
            · exact gone h2
      | _ => rfl
  | recv d p =>
    refine onConn_ d _ ?_ h2
    intro k s hk hs h2
    by_cases hp : ∃ x, p = .disconnect x
    · obtain ⟨x, rfl⟩ := hp; rfl
    · have e1 : srv.recv cfg d k.session s p = (let h := s.processIncoming srv.world cfg.manager d p
          let srv := { srv with world := h.world }
          match h.result with
          | .error _ => (srv.finish d k.session h.session, {})
          | .ok res =>
            ((srv.mapStore (saveAfter h.session p)).put k.session h.session, { sent := res.toList })) := by
        unfold Server.recv
        cases p <;> first | rfl | exact absurd ⟨_, rfl⟩ hp
      rw [e1] at h2 ⊢
      simp only at h2 ⊢
      split
      · rfl
      · rename_i res hres
        rw [hres] at h2
        exact absurd h2 gone
  | deliver d f =>
    refine onConn_ d _ ?_ h2
    intro k s hk hs h2
    unfold Server.deliver at h2 ⊢
    split
    · rfl
    · rename_i s' q hq
      rw [hq] at h2
      exact absurd h2 gone
    · rfl
  | close d =>
    refine onConn_ d _ ?_ h2
    intro k s hk hs h2
    rfl
  | abort d => rfl
  | restart => rfl

/-- C102: nor does it say so before: a DISCONNECT from the server is never sent, to any client, in any history. -/
theorem C102_no_disconnect_false (cfg : AuthConfig) (srv : Server) (es : List Event) (c : Nat) :
    ∀ q ∈ srv.sentTo cfg c es, ∀ d, q ≠ .disconnect d :=
  sentTo_no_disconnect cfg c es srv

/-- C102: a client that is refused is told why: the CONNACK carries the reason. -/
theorem C102_refused_told_partial (cfg : AuthConfig) (srv : Server) (c : Nat) (p : ConnectPacket) (uuid : Str)
    (written : Bool) (h : srv.conns.get c = none) (ha : cfg.requireAuth = true) (hno : authenticated cfg p = false) :
    ∃ a, (srv.step cfg (.first c (.connect p) uuid written)).2.sent = [.connAck a] ∧
      a.reasonCode = .badUserNameOrPassword := by
  refine ⟨_, by simp [Server.step, h, Server.connect, ha, hno, refusal]; rfl, rfl⟩

/-- C102: while its connection is up, an application is never told that it has ended. -/
theorem C102_up_not_told (m : Mode) (cfg : AuthConfig) (evs : List SysEvent) (hord : ∀ e ∈ evs, e.Ordinary) (c : Nat)
    (hreads : ReadsWell m cfg c System.init evs) :
    let σ := System.init.run m cfg evs
    ∀ p w, σ.Up c p w → σ.Apart c p → ∀ r, ClientEvent.disconnected r ∉ p.events := by
  intro σ p w hup hap r hr
  obtain ⟨t, pl, q, r', h⟩ := only_messages m cfg evs hord c hreads p w hup hap _ hr
  cases h

/-! ## An example -/

/-- The server gives up the subscriber of C101. -/
def exClosed : System := exTool1.step .debug {} (.serverClose 0)

/-- The hypotheses of `C102_close_told` hold, those of `C102_end_reason` with its next read, and the reason. -/
example :
    (exClosed.peers.get 0).map (fun p => (p.loop.map fun l => (l.running, l.pending.length), p.got.length,
      clientParse .debug p.opts.protocolVersion p.buf)) = some (some (true, 0), 11, .needMore) ∧
    (exClosed.net.wires.get 0).map (fun w => (w.running, w.sent.length)) = some (false, 11) ∧
    ((exClosed.step .debug {} (.clientRead 0 1)).peers.get 0).map (fun p =>
      p.loop.map fun l => (l.running, l.pending)) = some (some (false, [.disconnected .serverInitiated])) := by
  decide +kernel

/-- The connection was there and is gone, and nothing was sent (`C102_silent_end_false`). -/
example : (exTool1.net.server.conns.get 0).isSome ∧
    (exTool1.net.server.step {} (.close 0)).1.conns.get 0 = none ∧
    (exTool1.net.server.step {} (.close 0)).2.sent = [] := by decide +kernel

/-- A client that is refused (`C102_refused_told_partial`). -/
example : authenticated { requireAuth := true } (buildConnect { clientId := some (str "s") }) = false := by
  decide +kernel

end Mercurio
