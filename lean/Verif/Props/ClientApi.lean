import Verif.Props.Cli

/-! # C81: what the calls of the client's interface mean -/

namespace Mercurio

open Spec

/-! ## Specification -/

/-- A call of the application that is answered by a result. -/
def ClientIn.IsCall : ClientIn → Prop
  | .publish .. | .subscribe .. | .unsubscribe .. | .disconnect .. => True
  | _ => False

/-- The socket takes what this call writes. -/
def ClientIn.SocketTakes : ClientIn → Bool
  | .publish _ _ _ _ ok | .subscribe _ ok | .unsubscribe _ ok | .disconnect ok => ok
  | _ => true

/-- The packet says what the call asked for. -/
def Spec.Carries : ClientIn → Packet → Prop
  | .publish t pl q r _, .publish p => p.topicName = t ∧ p.payload = some pl ∧ p.qos = q ∧ p.retain = r ∧
      p.dup = false ∧ (p.packetId.isSome ↔ q ≠ .atMostOnce)
  | .subscribe l _, .subscribe p => p.payload.map (fun x => (x.topicFilter, x.opts.qos)) = l
  | .unsubscribe l _, .unsubscribe p => p.payload = l
  | .disconnect _, .disconnect p => p.reason = .normalDisconnection
  | _, _ => False

/-- The result a call has if it succeeds with this packet: `publish` returns the packet identifier,
`subscribe` the topics with the QoS asked for. -/
def Spec.Succeeds : ClientIn → Packet → CallResult → Prop
  | .publish .., .publish p, r => r = .published p.packetId
  | .subscribe l _, _, r => r = .subscribed (l.map fun t => (t.1, t.2, true))
  | .unsubscribe .., _, r => r = .done
  | .disconnect .., _, r => r = .done
  | _, _, _ => False

/-- A failure. -/
def CallResult.isFailure : CallResult → Bool
  | .failed _ => true
  | _ => false

/-- The reason an application is given for the end of its connection. -/
def Spec.EndsWith : ClientIn → DisconnectReason → Prop
  | .read .closed _, r => r = .serverInitiated
  | .read (.error _) _, r => r = .connectionLost
  | .disconnect _, r => r = .clientInitiated
  | .tick ok, r => ok = false ∧ r = .keepAliveTimeout
  | _, _ => False

/-! ## Lemmas -/

namespace Client

theorem call_shape (c : Client) (p : Packet) (hp : ∃ b, p.encode = .ok b) (ok : Bool) (r : CallResult) :
    c.call p ok r = if ok then (c, { sent := some p, result := some r })
      else (c, { result := some (.failed .io) }) := by
  obtain ⟨b, hb⟩ := hp
  cases ok <;> simp [call, write, hb]

theorem disconnect_encodes :
    ∃ b, (Packet.disconnect { reason := .normalDisconnection, properties := none }).encode = .ok b :=
  ⟨[0xe0, 1, 0], by decide +kernel⟩

theorem incoming_running (c : Client) (p : Packet) (ok : Bool) :
    (c.incoming p ok).1.running = c.running := by
  have hw : ∀ id, Client.write (.pubAck { packetId := id, reason := .success, properties := none })
      ok = .ok ok := fun id => rfl
  cases p with
  | publish p =>
    simp only [incoming]
    cases hq : p.qos <;> cases hi : p.packetId <;> simp [hw, emit] <;> cases ok <;> rfl
  | disconnect d => rfl
  | _ => rfl

end Client

open Client

/-! ## The theorems -/

/-- C81: on a running client with room in its event channel every call returns; if the socket takes what
is written it succeeds, and then exactly one packet was written, which carries exactly what was asked
for; if not, it fails and nothing was written. -/
theorem C81_call (c : Client) (hr : c.running = true) (hb : ¬ c.blocked) (i : ClientIn) (hi : i.IsCall) :
    (i.SocketTakes = true →
      ∃ q r, (c.step i).2 = { sent := some q, result := some r } ∧ Carries i q ∧ Succeeds i q r) ∧
    (i.SocketTakes = false → (c.step i).2 = { result := some (.failed .io) }) := by
  have hstep : i ≠ .recv → c.step i = c.turn i := by
    intro h; simp only [Client.step, h, if_false, hb, hr, if_true]
  cases i with
  | publish t pl q r ok =>
    rw [hstep (by simp)]
    simp only [turn, doPublish]
    rw [call_shape _ _ ⟨_, rfl⟩]
    cases ok with
    | true =>
      refine ⟨fun _ => ⟨_, _, rfl, ⟨rfl, rfl, rfl, rfl, rfl, ?_⟩, rfl⟩, (by intro h; cases h)⟩
      by_cases hq : q = .atMostOnce <;> simp [hq]
    | false => exact ⟨(by intro h; cases h), fun _ => rfl⟩
  | subscribe l ok =>
    rw [hstep (by simp)]
    simp only [turn, doSubscribe]
    rw [call_shape _ _ ⟨_, rfl⟩]
    cases ok with
    | true =>
      refine ⟨fun _ => ⟨_, _, rfl, ?_, rfl⟩, (by intro h; cases h)⟩
      show List.map _ (List.map _ l) = l
      rw [List.map_map]
      exact (List.map_congr_left (fun a _ => rfl)).trans (List.map_id' l)
    | false => exact ⟨(by intro h; cases h), fun _ => rfl⟩
  | unsubscribe l ok =>
    rw [hstep (by simp)]
    simp only [turn, doUnsubscribe]
    rw [call_shape _ _ ⟨_, rfl⟩]
    cases ok with
    | true => exact ⟨fun _ => ⟨_, _, rfl, rfl, rfl⟩, (by intro h; cases h)⟩
    | false => exact ⟨(by intro h; cases h), fun _ => rfl⟩
  | disconnect ok =>
    rw [hstep (by simp)]
    simp only [turn, doDisconnect]
    rw [call_shape _ _ disconnect_encodes]
    cases ok with
    | true => exact ⟨fun _ => ⟨_, _, rfl, rfl, rfl⟩, (by intro h; cases h)⟩
    | false => exact ⟨(by intro h; cases h), fun _ => rfl⟩
  | read r ok => exact hi.elim
  | tick ok => exact hi.elim
  | recv => exact hi.elim

/-- C81: whatever the state of the client, a call that returns a success wrote its packet. -/
theorem C81_success_written (c : Client) (i : ClientIn) (hi : i.IsCall) (r : CallResult)
    (h : (c.step i).2.result = some r) (hs : r.isFailure = false) :
    ∃ q, (c.step i).2.sent = some q ∧ Carries i q ∧ Succeeds i q r := by
  have hne : i ≠ .recv := by rintro rfl; exact hi
  by_cases hb : c.blocked
  · simp [Client.step, hne, hb] at h
  · cases hr : c.running with
    | true =>
      obtain ⟨hok, hfail⟩ := C81_call c hr hb i hi
      cases ht : i.SocketTakes with
      | true =>
        obtain ⟨q, r', h1, h2, h3⟩ := hok ht
        rw [h1] at h
        cases h
        exact ⟨q, by rw [h1], h2, h3⟩
      | false =>
        rw [hfail ht] at h
        cases h
        cases hs
    | false =>
      have hstep : c.step i = c.refuse i := by simp only [Client.step, hne, hb, hr, if_false, Bool.false_eq_true]
      rw [hstep] at h
      cases i <;> first | exact hi.elim | (simp only [refuse, Option.some.injEq] at h; rw [← h] at hs; cases hs)

/-- C81: `disconnect` ends the connection, also if the DISCONNECT cannot be written, and is the last
thing the application is told. -/
theorem C81_disconnect (c : Client) (hr : c.running = true) (hb : ¬ c.blocked) (ok : Bool) :
    (c.step (.disconnect ok)).1.running = false ∧
    (c.step (.disconnect ok)).1.pending = c.pending ++ [.disconnected .clientInitiated] := by
  simp only [Client.step, reduceCtorEq, if_false, hb, hr, if_true, turn, doDisconnect]
  rw [call_shape _ _ disconnect_encodes]
  cases ok <;> simp [emit]

/-- C81: once the connection has ended, it has ended for good: whatever happens, nothing more is
written, every call fails, and the application is only given the events that were waiting for it. -/
theorem C81_after_the_end (is : List ClientIn) : ∀ (c : Client), c.running = false →
    (c.run is).1.running = false ∧
    (∀ o ∈ (c.run is).2, o.sent = none ∧ ∀ r, o.result = some r → r.isFailure = true) ∧
    (c.run is).2.filterMap (·.event) ++ (c.run is).1.pending = c.pending := by
  induction is with
  | nil => intro c h; exact ⟨h, by simp [Client.run], by simp [Client.run]⟩
  | cons i is ih =>
    intro c h
    have one : (c.step i).1.running = false ∧ ((c.step i).2.sent = none ∧
        ∀ r, (c.step i).2.result = some r → r.isFailure = true) ∧
        (c.step i).2.event.toList ++ (c.step i).1.pending = c.pending := by
      unfold Client.step
      split
      · unfold take
        split
        · exact ⟨h, ⟨rfl, by intro r hr; cases hr⟩, rfl⟩
        · rename_i heq
          exact ⟨h, ⟨rfl, by intro r hr; cases hr⟩, by rw [heq]; rfl⟩
      · split
        · exact ⟨h, ⟨rfl, by intro r hr; cases hr⟩, rfl⟩
        · rw [if_neg (by simp [h])]
          cases i <;> refine ⟨h, ⟨rfl, ?_⟩, rfl⟩ <;> intro r hr <;> cases hr <;> rfl
    obtain ⟨h1, h2, h3⟩ := ih (c.step i).1 one.1
    refine ⟨h1, ?_, ?_⟩
    · intro o ho
      rcases List.mem_cons.mp ho with rfl | ho
      · exact one.2.1
      · exact h2 o ho
    · have e1 : (c.run (i :: is)).2.filterMap (·.event) =
          (c.step i).2.event.toList ++ ((c.step i).1.run is).2.filterMap (·.event) := by
        simp only [Client.run, List.filterMap_cons]
        cases (c.step i).2.event <;> rfl
      have e2 : (c.run (i :: is)).1 = ((c.step i).1.run is).1 := rfl
      rw [e1, e2, List.append_assoc, h3, one.2.2]

/-- C81: a connection ends only through `disconnect`, the end of the stream, an error on reading or a ping
that cannot be written, and then the application is told, with the matching reason, after everything
that arrived before; the exception is a panic of the reader, of which it is not told. -/
theorem C81_end_told (c : Client) (hr : c.running = true) (i : ClientIn)
    (hend : (c.step i).1.running = false) :
    (∃ ok, i = .read .panicked ok ∧ (c.step i).1.pending = c.pending) ∨
    ∃ r, EndsWith i r ∧ (c.step i).1.pending = c.pending ++ [.disconnected r] := by
  have hrecv : i ≠ .recv := by
    rintro rfl
    simp only [Client.step, if_true, take] at hend
    split at hend <;> simp [hr] at hend
  have hb : ¬ c.blocked := by
    intro hb
    simp [Client.step, hrecv, hb, hr] at hend
  have hstep : c.step i = c.turn i := by simp only [Client.step, hrecv, if_false, hb, hr, if_true]
  rw [hstep] at hend ⊢
  cases i with
  | recv => exact absurd rfl hrecv
  | read x ok =>
    cases x with
    | packet p =>
      have := incoming_running c p ok
      simp only [turn] at hend
      rw [this, hr] at hend
      cases hend
    | closed => exact Or.inr ⟨_, rfl, rfl⟩
    | error e => exact Or.inr ⟨_, rfl, rfl⟩
    | panicked => exact Or.inl ⟨ok, rfl, rfl⟩
  | publish t pl q r ok =>
    simp only [turn, doPublish] at hend
    rw [call_shape _ _ ⟨_, rfl⟩] at hend
    cases ok <;> by_cases hq : q = .atMostOnce <;> simp [hq, hr] at hend
  | subscribe l ok =>
    simp only [turn, doSubscribe] at hend
    rw [call_shape _ _ ⟨_, rfl⟩] at hend
    cases ok <;> simp [hr] at hend
  | unsubscribe l ok =>
    simp only [turn, doUnsubscribe] at hend
    rw [call_shape _ _ ⟨_, rfl⟩] at hend
    cases ok <;> simp [hr] at hend
  | disconnect ok =>
    have := (C81_disconnect c hr hb ok).2
    rw [hstep] at this
    exact Or.inr ⟨_, rfl, this⟩
  | tick ok =>
    have hw : ∀ ok, write .pingReq ok = .ok ok := by intro ok; cases ok <;> decide
    simp only [turn, hw] at hend ⊢
    cases ok with
    | true => simp [hr] at hend
    | false => exact Or.inr ⟨_, ⟨rfl, rfl⟩, rfl⟩

/-- C81 is false for a DISCONNECT the server sends, always: the application is told that it is
disconnected, but its client goes on: it still reads, and calls still succeed. -/
theorem C81_server_disconnect_false (c : Client) (hr : c.running = true) (hb : c.pending.length < 256)
    (d : DisconnectPacket) (ok : Bool) :
    let c' := (c.step (.read (.packet (.disconnect d)) ok)).1
    c'.pending = c.pending ++ [.disconnected .serverInitiated] ∧ c'.running = true ∧
    ∀ t pl q r, ∃ id, (c'.step (.publish t pl q r true)).2.result = some (.published id) := by
  have hnb : ¬ c.blocked := by unfold blocked eventCapacity; omega
  have hc : (c.step (.read (.packet (.disconnect d)) ok)).1 = c.emit (.disconnected .serverInitiated) := by
    simp only [Client.step, reduceCtorEq, if_false, hnb, hr, if_true, turn, incoming]
  intro c'
  have hc' : c' = c.emit (.disconnected .serverInitiated) := hc
  have hr' : c'.running = true := by rw [hc']; exact hr
  have hb' : ¬ c'.blocked := by
    rw [hc']; unfold blocked eventCapacity emit; simp only [List.length_append, List.length_singleton]; omega
  refine ⟨by rw [hc']; rfl, hr', fun t pl q r => ?_⟩
  simp only [Client.step, reduceCtorEq, if_false, hb', hr', if_true, turn, doPublish]
  rw [call_shape _ _ ⟨_, rfl⟩]
  exact ⟨_, rfl⟩

/-- C80, what exit status 0 means, whatever happens: the tool was connected and gave the connection a
PUBLISH with exactly the topic, message, QoS and retain flag of its arguments, and then a DISCONNECT. -/
theorem C80_success_written (a : PubArgs) (stdin : Option Str) (client : Option Client) (ok1 ok2 : Bool)
    (between : List ClientIn) (h : (runPublish a stdin client ok1 between ok2).success = true) :
    ∃ payload q p mid d, (a.message = some payload ∨ (a.message = none ∧ stdin = some payload)) ∧
      NamesQos a.qos q ∧ p.topicName = a.topic ∧ p.payload = some payload ∧ p.qos = q ∧ p.retain = a.retain ∧
      (runPublish a stdin client ok1 between ok2).outs.map (·.sent) =
        some (.publish p) :: mid ++ [some (.disconnect d)] ∧ d.reason = .normalDisconnection := by
  unfold runPublish at h ⊢
  cases hpl : a.payload stdin with
  | none => rw [hpl] at h; cases h
  | some payload =>
    have hpay : a.message = some payload ∨ (a.message = none ∧ stdin = some payload) := by
      unfold PubArgs.payload at hpl
      cases hm : a.message with
      | none => rw [hm] at hpl; exact Or.inr ⟨rfl, hpl⟩
      | some x => rw [hm] at hpl; exact Or.inl hpl
    rw [hpl] at h
    cases hq : cliQos a.qos with
    | none => rw [hq] at h; cases h
    | some q =>
      rw [hq] at h
      cases client with
      | none => cases h
      | some l =>
        have hret : (if a.retain = true then true else false) = a.retain := by cases a.retain <;> rfl
        simp only [hret] at h ⊢
        cases hr : (l.step (.publish a.topic payload q a.retain ok1)).2.result with
        | none => rw [hr] at h; cases h
        | some r =>
          rw [hr] at h
          cases r with
          | published id =>
            simp only [decide_eq_true_eq] at h
            obtain ⟨p1, e1, c1, s1⟩ := C81_success_written l _ (by trivial) _ hr rfl
            obtain ⟨p2, e2, c2, s2⟩ := C81_success_written _ _ (by trivial) _ h rfl
            cases p1 <;> try exact s1.elim
            rename_i p
            cases p2 <;> try exact c2.elim
            rename_i d
            obtain ⟨t1, t2, t3, t4, _, _⟩ := c1
            refine ⟨payload, q, p, (((l.step (.publish a.topic payload q a.retain ok1)).1.run between).2).map (·.sent),
              d, hpay, cliQos_some.mp hq, t1, t2, t3, t4, ?_, c2⟩
            simp only [List.map_cons, List.map_append, List.map_nil, e1, e2]
          | _ => cases h

/-- C80, when the message cannot be published: without a connection the tool makes no call at all; with one, if
`publish` does not succeed, that is its only call.  Either way it does not end successfully. -/
theorem C80_failed_publish (a : PubArgs) (stdin : Option Str) (payload : Str)
    (hpl : a.message = some payload ∨ (a.message = none ∧ stdin = some payload)) (q : QoS) (hq : NamesQos a.qos q)
    (ok1 ok2 : Bool) (between : List ClientIn) :
    ((runPublish a stdin none ok1 between ok2).success = false ∧ (runPublish a stdin none ok1 between ok2).outs = []) ∧
    ∀ l : Client, (∀ id, (l.step (.publish a.topic payload q a.retain ok1)).2.result ≠ some (.published id)) →
      (runPublish a stdin (some l) ok1 between ok2).success = false ∧
      (runPublish a stdin (some l) ok1 between ok2).outs = [(l.step (.publish a.topic payload q a.retain ok1)).2] := by
  have hmsg : a.payload stdin = some payload := by
    unfold PubArgs.payload
    rcases hpl with h | ⟨h1, h2⟩
    · rw [h]
    · rw [h1, h2]
  have hret : (if a.retain = true then true else false) = a.retain := by cases a.retain <;> rfl
  unfold runPublish
  rw [hmsg, cliQos_some.mpr hq, hret]
  refine ⟨⟨rfl, rfl⟩, fun l h => ?_⟩
  cases hr : (l.step (.publish a.topic payload q a.retain ok1)).2.result with
  | none => simp [hr]
  | some r =>
    cases r with
    | published id => exact absurd hr (h id)
    | _ => simp [hr]

/-- A case for `C80_success_written`, and one in which the connection is lost before the message is
written. -/
example : (runPublish exPubArgs none (some {}) true [] true).success = true ∧
    (runPublish exPubArgs none (some {}) false [] true).success = false ∧
    (runPublish exPubArgs none (some {}) true [.read .closed true] true).success = false := by decide +kernel

/-- A case for `C80_failed_publish`: the socket refuses the PUBLISH. -/
example : (({} : Client).step (.publish exPubArgs.topic (str "m") .atLeastOnce exPubArgs.retain false)).2.result ≠
      none ∧
    ∀ id, (({} : Client).step (.publish exPubArgs.topic (str "m") .atLeastOnce exPubArgs.retain false)).2.result ≠
      some (.published id) := by
  have h : (({} : Client).step (.publish exPubArgs.topic (str "m") .atLeastOnce exPubArgs.retain false)).2.result.map
      (fun r => match r with | .failed _ => true | _ => false) = some true := by decide +kernel
  refine ⟨fun hn => (by rw [hn] at h; cases h), fun id hi => (by rw [hi] at h; cases h)⟩

/-! ## Examples -/

/-- A client that publishes, disconnects and tries again. -/
example : (Client.run {} [.publish (str "t") [1] .atLeastOnce false true, .subscribe [(str "a", .atMostOnce)] false,
      .disconnect true, .publish (str "t") [2] .atMostOnce false true, .recv]).2 =
    [{ sent := some (.publish { dup := false, qos := .atLeastOnce, retain := false, topicName := str "t"
                                packetId := some 1, payload := some [1] })
       result := some (.published (some 1)) },
     { result := some (.failed .io) },
     { sent := some (.disconnect { reason := .normalDisconnection }), result := some .done },
     { result := some (.failed .closed) },
     { event := some (.disconnected .clientInitiated) }] := by decide +kernel

example : ((({} : Client).step (.read .closed true)).1.running = false) ∧ ({} : Client).running = true ∧
    ¬ ({} : Client).blocked := by decide

/-! ## The exit status of `mercurio pub` (C80) -/

/-- A DISCONNECT call that has written something has written a DISCONNECT and succeeds. -/
theorem disconnect_sent (c : Client) (ok : Bool) (q : Packet) (h : (c.step (.disconnect ok)).2.sent = some q) :
    (c.step (.disconnect ok)).2.result = some .done := by
  by_cases hb : c.blocked
  · simp [Client.step, hb] at h
  · cases hr : c.running with
    | false => simp [Client.step, hb, hr, Client.refuse] at h
    | true =>
      obtain ⟨h1, h2⟩ := C81_call c hr hb (.disconnect ok) trivial
      cases ok with
      | true =>
        obtain ⟨q', r, e, _, h3⟩ := h1 rfl
        rw [e]
        simp only [Succeeds] at h3
        rw [h3]
      | false => rw [h2 rfl] at h; cases h

/-- C80: the exit status of `mercurio pub` is 0 exactly if its client has written a PUBLISH with the message of its arguments (or of
standard input) to the socket first and a DISCONNECT last.  (The exit status says nothing about the answer of the server:
`C80_exit_status_false`.) -/
theorem C80_exit_status (a : PubArgs) (stdin : Option Str) (client : Option Client) (ok1 : Bool) (between : List ClientIn) (ok2 : Bool) :
    let run := runPublish a stdin client ok1 between ok2
    run.success = true ↔ ∃ payload q pk d first mid last,
      (a.message = some payload ∨ (a.message = none ∧ stdin = some payload)) ∧ NamesQos a.qos q ∧
      run.outs = first :: mid ++ [last] ∧ first.sent = some (.publish pk) ∧ pk.topicName = a.topic ∧ pk.payload = some payload ∧
      pk.qos = q ∧ pk.retain = a.retain ∧ last.sent = some (.disconnect d) ∧ d.reason = .normalDisconnection := by
  intro run
  have hret : (if a.retain = true then true else false) = a.retain := by cases a.retain <;> rfl
  have hrun : run = runPublish a stdin client ok1 between ok2 := rfl
  unfold runPublish at hrun
  cases hm : a.payload stdin with
  | none =>
    rw [hm] at hrun
    rw [hrun]
    simp
  | some payload =>
    rw [hm] at hrun
    cases hq : cliQos a.qos with
    | none =>
      rw [hq] at hrun
      rw [hrun]
      simp
    | some q =>
      rw [hq] at hrun
      have hpl : a.message = some payload ∨ (a.message = none ∧ stdin = some payload) := by
        unfold PubArgs.payload at hm
        cases h : a.message with
        | none => rw [h] at hm; exact .inr ⟨rfl, hm⟩
        | some x => rw [h] at hm; exact .inl hm
      cases client with
      | none =>
        simp only at hrun
        rw [hrun]
        simp
      | some l =>
        simp only [hret] at hrun
        have hw := C81_success_written l (.publish a.topic payload q a.retain ok1) trivial
        have hone : ∀ (o : Option ConnectOptions) (x : ClientOut), run = { options := o, outs := [x] } →
            (run.success = true ↔ ∃ payload q pk d first mid last,
              (a.message = some payload ∨ (a.message = none ∧ stdin = some payload)) ∧ NamesQos a.qos q ∧
              run.outs = first :: mid ++ [last] ∧ first.sent = some (.publish pk) ∧ pk.topicName = a.topic ∧
              pk.payload = some payload ∧ pk.qos = q ∧ pk.retain = a.retain ∧ last.sent = some (.disconnect d) ∧
              d.reason = .normalDisconnection) := by
          intro o x e
          rw [e]
          simp only [Bool.false_eq_true, false_iff]
          rintro ⟨_, _, _, _, _, mid, _, _, _, h, _⟩
          have := congrArg List.length h
          simp at this
        split at hrun
        · rename_i id hres
          obtain ⟨pk', h1, h2, _⟩ := hw _ hres rfl
          cases pk' with
          | publish pk =>
            obtain ⟨g1, g2, g3, g4, _⟩ := h2
            rw [hrun]
            simp only [decide_eq_true_eq]
            constructor
            · intro hd
              obtain ⟨d', e1, e2, _⟩ := C81_success_written _ (.disconnect ok2) trivial _ hd rfl
              cases d' with
              | disconnect d =>
                exact ⟨payload, q, pk, d, _, _, _, hpl, cliQos_some.mp hq, rfl, h1, g1, g2, g3, g4, e1, e2⟩
              | _ => exact e2.elim
            · rintro ⟨_, _, _, d, _, mid, last, _, _, h, _, _, _, _, _, hl, _⟩
              have hlast := congrArg List.getLast? h
              simp only [List.getLast?_append, List.getLast?_singleton, Option.some_or, List.cons_append,
                ← List.cons_append, Option.some.injEq] at hlast
              rw [← hlast] at hl
              exact disconnect_sent _ _ _ hl
          | _ => exact h2.elim
        · exact hone _ _ hrun

/-- A run with exit status 0, and one without because the server has gone meanwhile. -/
example : (runPublish exPubArgs none (some {}) true [.read (.packet (.pubAck ⟨1, .success, none⟩)) true] true).success = true ∧
    (runPublish exPubArgs none (some {}) true [.read .closed true] true).success = false := by decide +kernel

end Mercurio
