import Verif.Spec.ClientQueue

/-! # C90, C91: callers of the client, slow applications, dropped clients -/

namespace Mercurio

open Spec

/-! ## Lemmas -/

namespace Spec

theorem callsMade_append (es fs : List ApiEvent) : callsMade (es ++ fs) = callsMade es ++ callsMade fs := by
  induction es with
  | nil => rfl
  | cons e es ih =>
    cases e with
    | call k i => simp only [List.cons_append, callsMade]; split <;> simp [ih]
    | _ => simpa only [List.cons_append, callsMade] using ih

theorem WrittenFor.append {l l' : List (ClientIn × CallResult)} {ps ps' : List Packet} (h : WrittenFor l ps) (h' : WrittenFor l' ps') :
    WrittenFor (l ++ l') (ps ++ ps') := by
  induction h with
  | nil => exact h'
  | success a b c _ ih => exact .success a b c ih
  | failure a _ ih => exact .failure a ih

theorem WrittenFor.failures (qs : List Queued) : WrittenFor (qs.map fun q => (q.call, CallResult.failed .closed)) [] := by
  induction qs with
  | nil => exact .nil
  | cons q qs ih => exact .failure rfl ih

end Spec

theorem isCommand_isCall {i : ClientIn} (h : i.isCommand = true) : i.IsCall := by
  cases i <;> first | trivial | cases h

theorem carries_ofCall {i : ClientIn} {q : Packet} (h : Carries i q) : OfCall q = true := by
  cases i <;> cases q <;> first | rfl | exact h.elim

namespace Client

/-- What a turn writes when it is not for a call. -/
theorem wake_sent (c : Client) (i : ClientIn) (h : i.isCommand = false) (p : Packet) (hp : (c.step i).2.sent = some p) :
    OfCall p = false := by
  unfold Client.step at hp
  split at hp
  · unfold take at hp; split at hp <;> cases hp
  split at hp
  · cases hp
  split at hp
  · cases i with
    | read r ok =>
      cases r with
      | packet q =>
        cases q with
        | publish q =>
          simp only [turn, incoming] at hp
          have hw : ∀ id, Client.write (.pubAck { packetId := id, reason := .success, properties := none })
            ok = .ok ok := fun id => rfl
          cases hq : q.qos <;> cases hi : q.packetId <;> simp [hq, hi, hw] at hp
          cases ok <;> simp at hp
          rw [← hp]; rfl
        | _ => simp [turn, incoming] at hp
      | _ => simp [turn, stop, crash] at hp
    | tick ok =>
      have hw : Client.write .pingReq ok = .ok ok := rfl
      cases ok <;> simp [turn, hw, stop] at hp
      rw [← hp]; rfl
    | recv => simp [turn] at hp
    | _ => cases h
  · cases i <;> simp [refuse] at hp

theorem step_counter_free (c : Client) : (c.step .recv).2.sent = none := by
  simp only [Client.step, if_true, take]; split <;> rfl

end Client

namespace Api

/-- What is true after every history. -/
structure Inv (s : Api) (es : List ApiEvent) (done : List (Queued × CallResult)) : Prop where
  written : WrittenFor (done.map fun d => (d.1.call, d.2)) (s.wrote.filter OfCall)
  answers : s.answers = (done.filter fun d => d.1.waiting).map fun d => (d.1.caller, d.2)
  calls : (done.map (fun d => (d.1.caller, d.1.call)) ++ s.queue.map fun q => (q.caller, q.call)).Sublist (callsMade es)
  all : Patient es → done.map (fun d => (d.1.caller, d.1.call)) ++ s.queue.map (fun q => (q.caller, q.call)) = callsMade es ∧
    (∀ d ∈ done, d.1.waiting = true) ∧ (∀ q ∈ s.queue, q.waiting = true) ∧ s.dropped = false
  commands : ∀ q ∈ s.queue, q.call.isCommand = true

theorem Inv.settle {s : Api} {es : List ApiEvent} {done : List (Queued × CallResult)} (h : Inv s es done) :
    ∃ done', Inv s.settle es done' := by
  unfold Api.settle
  split
  · refine ⟨done ++ s.queue.map fun q => (q, CallResult.failed .closed), ⟨?_, ?_, ?_, ?_, ?_⟩⟩
    · have := h.written.append (WrittenFor.failures s.queue)
      simpa [List.map_map, Function.comp_def] using this
    · simp only [h.answers, List.filter_append, List.map_append, List.filter_map, List.map_map, Function.comp_def]
    · have := h.calls
      simpa [List.map_map, Function.comp_def] using this
    · intro hp
      obtain ⟨a, b, c, d⟩ := h.all hp
      refine ⟨by simpa [List.map_map, Function.comp_def] using a, ?_, by simp, d⟩
      intro d hd
      rcases List.mem_append.mp hd with hd | hd
      · exact b d hd
      · obtain ⟨q, hq, rfl⟩ := List.mem_map.mp hd
        exact c q hq
    · simp
  · exact ⟨done, h⟩

theorem giveUp_calls (k : Nat) : ∀ (qs : List Queued) (n : Nat),
    ((giveUp k n qs).map fun q => (q.caller, q.call)).Sublist (qs.map fun q => (q.caller, q.call)) := by
  intro qs
  induction qs with
  | nil => intro n; cases n <;> exact List.Sublist.slnil
  | cons q qs ih =>
    intro n
    cases n with
    | zero =>
      simp only [giveUp]
      split
      · exact (ih 0).cons _
      · exact (ih 0).cons_cons _
    | succ n =>
      simp only [giveUp, List.map_cons]
      split <;> exact (ih n).cons_cons _

theorem giveUp_commands (k : Nat) : ∀ (qs : List Queued) (n : Nat), (∀ q ∈ qs, q.call.isCommand = true) →
    ∀ q ∈ giveUp k n qs, q.call.isCommand = true := by
  intro qs
  induction qs with
  | nil => intro n _ q hq; cases n <;> cases hq
  | cons q qs ih =>
    intro n h x hx
    have h' := fun y hy => h y (List.mem_cons_of_mem _ hy)
    cases n with
    | zero =>
      simp only [giveUp] at hx
      split at hx
      · exact ih 0 h' x hx
      · rcases List.mem_cons.mp hx with rfl | hx
        · exact h _ (List.mem_cons_self ..)
        · exact ih 0 h' x hx
    | succ n =>
      simp only [giveUp] at hx
      rcases List.mem_cons.mp hx with rfl | hx
      · split <;> exact h q (List.mem_cons_self ..)
      · exact ih n h' x hx

theorem Inv.act {s : Api} {es : List ApiEvent} {done : List (Queued × CallResult)} (h : Inv s es done)
    (i : ClientIn) (hi : i.isCommand = false) : Inv (s.act i) es done := by
  refine ⟨?_, h.answers, h.calls, h.all, h.commands⟩
  have : (s.act i).wrote.filter OfCall = s.wrote.filter OfCall := by
    simp only [Api.act, List.filter_append]
    cases hs : (s.client.step i).2.sent with
    | none => simp
    | some p => simp [s.client.wake_sent i hi p hs]
  rw [this]; exact h.written

theorem Inv.weaken {s : Api} {es : List ApiEvent} {done : List (Queued × CallResult)} (h : Inv s es done) (e : ApiEvent)
    (hc : callsMade [e] = []) : Inv s (es ++ [e]) done := by
  refine ⟨h.written, h.answers, ?_, ?_, h.commands⟩
  · rw [callsMade_append, hc, List.append_nil]; exact h.calls
  · intro hp
    rw [callsMade_append, hc, List.append_nil]
    exact h.all fun x hx => hp x (List.mem_append_left _ hx)

theorem Inv.serve {s : Api} {es : List ApiEvent} {done : List (Queued × CallResult)} (h : Inv s es done) :
    ∃ done', Inv s.serveNext es done' := by
  unfold serveNext
  split
  · exact ⟨done, h⟩
  · rename_i q rest hq
    split
    · rename_i hg
      simp only [Bool.and_eq_true, Bool.not_eq_true', decide_eq_false_iff_not] at hg
      have hcall : q.call.IsCall := isCommand_isCall (h.commands q (by rw [hq]; simp))
      obtain ⟨hok, hfail⟩ := C81_call s.client hg.1 hg.2 q.call hcall
      have key : ∃ r, (s.client.step q.call).2.result = some r ∧
          WrittenFor [(q.call, r)] ((s.client.step q.call).2.sent.toList.filter OfCall) := by
        cases ht : q.call.SocketTakes with
        | true =>
          obtain ⟨p, r, e, c1, c2⟩ := hok ht
          refine ⟨r, by rw [e], ?_⟩
          rw [e]
          simp only [Option.toList_some, List.filter_cons, carries_ofCall c1, if_true, List.filter_nil]
          refine .success ?_ c1 c2 .nil
          revert c2
          cases hc : q.call <;> cases p <;> simp only [Succeeds] <;> intro c2 <;> first | exact c2.elim | (rw [c2]; rfl)
        | false =>
          have e := hfail ht
          refine ⟨.failed .io, by rw [e], ?_⟩
          rw [e]
          exact .failure rfl .nil
      obtain ⟨r, hr, hw⟩ := key
      refine ⟨done ++ [(q, r)], ⟨?_, ?_, ?_, ?_, ?_⟩⟩
      · have := h.written.append hw
        simpa [Api.act, List.filter_append] using this
      · simp only [Api.act, hr, h.answers, List.filter_append, List.map_append]
        cases hwt : q.waiting <;> simp [hwt]
      · have := h.calls
        rw [hq] at this
        simpa using this
      · intro hp
        obtain ⟨a, b, c, d⟩ := h.all hp
        rw [hq] at a c
        refine ⟨by simpa using a, ?_, fun x hx => c x (List.mem_cons_of_mem _ hx), d⟩
        intro x hx
        rcases List.mem_append.mp hx with hx | hx
        · exact b x hx
        · rw [List.mem_singleton.mp hx]; exact c q (List.mem_cons_self ..)
      · intro x hx
        exact h.commands x (by rw [hq]; exact List.mem_cons_of_mem _ hx)
    · exact ⟨done, h⟩

theorem inv_step {s : Api} {es : List ApiEvent} {done : List (Queued × CallResult)} (h : Inv s es done) (e : ApiEvent) :
    ∃ done', Inv (s.step e) (es ++ [e]) done' := by
  have pre : ∀ {x : ApiEvent}, Patient (es ++ [x]) → Patient es := fun hp x hx => hp x (List.mem_append_left _ hx)
  cases e with
  | call k i =>
    simp only [step]
    split
    · rename_i hg
      simp only [Bool.and_eq_true, Bool.not_eq_true'] at hg
      have hc : callsMade [ApiEvent.call k i] = [(k, i)] := by simp [callsMade, hg.1]
      refine Inv.settle (done := done) ⟨h.written, h.answers, ?_, ?_, ?_⟩
      · rw [callsMade_append, hc]
        have := h.calls.append (List.Sublist.refl [(k, i)])
        simpa using this
      · intro hp
        obtain ⟨a, b, c, d⟩ := h.all (pre hp)
        refine ⟨by rw [callsMade_append, hc, ← a]; simp, b, ?_, d⟩
        intro q hq
        rcases List.mem_append.mp hq with hq | hq
        · exact c q hq
        · rw [List.mem_singleton.mp hq]
      · intro q hq
        rcases List.mem_append.mp hq with hq | hq
        · exact h.commands q hq
        · rw [List.mem_singleton.mp hq]; exact hg.1
    · rename_i hg
      refine ⟨done, ⟨h.written, h.answers, ?_, ?_, h.commands⟩⟩
      · rw [callsMade_append]
        exact h.calls.trans (List.sublist_append_left ..)
      · intro hp
        obtain ⟨a, b, c, d⟩ := h.all (pre hp)
        have hi : i.isCommand = false := by
          cases hc : i.isCommand
          · rfl
          · simp [hc, d] at hg
        refine ⟨?_, b, c, d⟩
        rw [callsMade_append, a]
        simp [callsMade, hi]
  | cancel k =>
    refine ⟨done, ⟨h.written, h.answers, ?_, ?_, giveUp_commands k _ _ h.commands⟩⟩
    · rw [callsMade_append]
      simp only [callsMade, List.append_nil]
      exact ((List.Sublist.refl _).append (giveUp_calls k _ _)).trans h.calls
    · intro hp
      exact absurd rfl ((hp (.cancel k) (by simp)).1 k)
  | serve =>
    obtain ⟨d, hd⟩ := h.serve
    obtain ⟨d', hd'⟩ := hd.settle
    exact ⟨d', hd'.weaken .serve rfl⟩
  | wake i =>
    simp only [step]
    split
    · rename_i hi
      have hi' : i.isCommand = false := by cases i <;> first | rfl | cases hi
      obtain ⟨d', hd'⟩ := (h.act i hi').settle
      exact ⟨d', hd'.weaken _ rfl⟩
    · exact ⟨done, h.weaken _ rfl⟩
  | recv =>
    simp only [step]
    split
    · exact ⟨done, h.weaken _ rfl⟩
    · obtain ⟨d', hd'⟩ := (h.act .recv rfl).settle
      exact ⟨d', hd'.weaken _ rfl⟩
  | drop =>
    simp only [step]
    split
    · have h' : Inv { s with dropped := true, client := { s.client with pending := [] } } (es ++ [.drop]) done := by
        refine ⟨h.written, h.answers, ?_, ?_, h.commands⟩
        · rw [callsMade_append]
          simp only [callsMade, List.append_nil]
          exact h.calls
        · intro hp
          exact absurd rfl (hp .drop (by simp)).2
      exact h'.settle
    · exact ⟨done, h.weaken _ rfl⟩

theorem run_snoc (s : Api) (es : List ApiEvent) (e : ApiEvent) : s.run (es ++ [e]) = (s.run es).step e := by
  simp [run, List.foldl_append]

theorem inv_run (es : List ApiEvent) : ∃ done, Inv (run {} es) es done := by
  induction es using snoc_induction with
  | h0 => exact ⟨[], ⟨.nil, rfl, List.Sublist.slnil, fun _ => ⟨rfl, by simp, by simp [run], rfl⟩, by simp [run]⟩⟩
  | hs es e ih =>
    obtain ⟨d, hd⟩ := ih
    rw [run_snoc]
    exact inv_step hd e

end Api

/-! ## C90 -/

/-- C90: calls made at the same time are carried out one at a time, in the order in which they were made.  At every
moment the calls made are those that have been carried out (or refused because the connection had ended) followed by
those still waiting; every one of the former has been answered, each caller with the result of its own call; and what was
written to the connection for calls is, in this order, one packet for each call that succeeded, saying what this call
asked for, and nothing for a call that failed. -/
theorem C90_in_order (es : List ApiEvent) (hp : Patient es) :
    ∃ done : List (Nat × ClientIn × CallResult),
      callsMade es = done.map (fun d => (d.1, d.2.1)) ++ (Api.run {} es).queue.map (fun q => (q.caller, q.call)) ∧
      (Api.run {} es).answers = done.map (fun d => (d.1, d.2.2)) ∧
      WrittenFor (done.map fun d => (d.2.1, d.2.2)) ((Api.run {} es).wrote.filter OfCall) := by
  obtain ⟨done, h⟩ := Api.inv_run es
  obtain ⟨a, b, _, _⟩ := h.all hp
  refine ⟨done.map fun d => (d.1.caller, d.1.call, d.2), ?_, ?_, ?_⟩
  · rw [← a]; simp [List.map_map, Function.comp_def]
  · rw [h.answers, List.filter_eq_self.mpr b]; simp [List.map_map, Function.comp_def]
  · simpa [List.map_map, Function.comp_def] using h.written

/-- C90, whoever gives up waiting: the calls carried out or waiting are among those made, in their order, every answer is
that of the caller's own call, and for each call that succeeded one packet was written, saying what it asked for; so no caller
gets two answers. -/
theorem C90_given_up (es : List ApiEvent) :
    (∃ done : List (Nat × ClientIn × CallResult),
      (done.map (fun d => (d.1, d.2.1)) ++ (Api.run {} es).queue.map (fun q => (q.caller, q.call))).Sublist (callsMade es) ∧
      (Api.run {} es).answers.Sublist (done.map fun d => (d.1, d.2.2)) ∧
      WrittenFor (done.map fun d => (d.2.1, d.2.2)) ((Api.run {} es).wrote.filter OfCall)) ∧
    (((callsMade es).map Prod.fst).Nodup → ((Api.run {} es).answers.map Prod.fst).Nodup) := by
  obtain ⟨done, h⟩ := Api.inv_run es
  have hs : (Api.run {} es).answers.Sublist (done.map fun d => (d.1.caller, d.2)) := by
    rw [h.answers]; exact List.filter_sublist.map _
  refine ⟨⟨done.map fun d => (d.1.caller, d.1.call, d.2), ?_, ?_, ?_⟩, fun hn => ?_⟩
  · simpa [List.map_map, Function.comp_def] using h.calls
  · simpa [List.map_map, Function.comp_def] using hs
  · simpa [List.map_map, Function.comp_def] using h.written
  · have h1 := hs.map Prod.fst
    have h2 := (List.sublist_append_left _ _).trans h.calls |>.map Prod.fst
    rw [List.map_map] at h1 h2
    exact hn.sublist (h1.trans h2)

namespace Api

theorem recv_drains (n : Nat) : ∀ s : Api, s.dropped = false → s.client.pending.length ≤ n →
    (s.run (List.replicate n .recv)).client.pending = [] ∧ (s.run (List.replicate n .recv)).dropped = false ∧
    (s.run (List.replicate n .recv)).queue.length ≤ s.queue.length := by
  induction n with
  | zero =>
    intro s hd h
    exact ⟨List.length_eq_zero_iff.mp (Nat.le_zero.mp h), hd, Nat.le_refl _⟩
  | succ n ih =>
    intro s hd h
    have hset : ∀ x : Api, x.settle.client = x.client ∧ x.settle.dropped = x.dropped ∧ x.settle.queue.length ≤ x.queue.length := by
      intro x; unfold settle; split <;> simp
    obtain ⟨h1, h2, h3⟩ := hset (s.act .recv)
    have e : s.step .recv = (s.act .recv).settle := by simp [step, hd]
    have hp : (s.step .recv).client.pending.length ≤ n := by
      rw [e, h1]
      simp only [act, hd, Client.step, if_true, Client.take, Bool.false_eq_true, if_false]
      cases hq : s.client.pending with
      | nil => simp [hq]
      | cons a l => rw [hq] at h; simpa using h
    obtain ⟨a, b, c⟩ := ih (s.step .recv) (by rw [e, h2]; exact hd) hp
    refine ⟨a, b, Nat.le_trans c ?_⟩
    rw [e]; exact h3

/-- Nothing waits for the application, or the connection has ended and only that is to be told. -/
def Clear (s : Api) : Prop := s.dropped = false ∧ s.client.pending.length ≤ 1 ∧ (s.client.running = true → s.client.pending = [])

theorem serve_empties (m : Nat) : ∀ s : Api, Clear s → (∀ q ∈ s.queue, q.call.isCommand = true) →
    s.queue.length ≤ m → (s.client.running = false → s.queue = []) → (s.run (List.replicate m .serve)).queue = [] := by
  induction m with
  | zero =>
    intro s _ _ h _
    exact List.length_eq_zero_iff.mp (Nat.le_zero.mp h)
  | succ m ih =>
    intro s hc hcmd h hend
    show ((s.step .serve).run (List.replicate m .serve)).queue = []
    cases hq : s.queue with
    | nil =>
      have e : (s.step .serve).client = s.client ∧ (s.step .serve).dropped = s.dropped ∧ (s.step .serve).queue = [] := by
        simp only [step, serveNext, hq, settle]; split <;> simp [hq]
      obtain ⟨e1, e2, e3⟩ := e
      refine ih _ ?_ (by rw [e3]; simp) (by rw [e3]; simp) (fun _ => e3)
      unfold Clear; rw [e1, e2]; exact hc
    | cons q rest =>
      have hr : s.client.running = true := by
        cases hr : s.client.running
        · have := hend hr; rw [hq] at this; cases this
        · rfl
      have hpend := hc.2.2 hr
      have hb : ¬ s.client.blocked := by simp [Client.blocked, hpend]
      have hs : s.step .serve = settle { s.act q.call with
          queue := rest
          answers := (s.act q.call).answers ++
            if q.waiting then ((s.client.step q.call).2.result.map fun r => (q.caller, r)).toList else [] } := by
        simp only [step, serveNext, hq, hr, hb, decide_false, Bool.not_false, Bool.and_self, if_true]
      have hact : (s.act q.call).client = (s.client.step q.call).1 := by simp [act, hc.1]
      have hcl : (s.client.step q.call).1.pending.length ≤ 1 ∧
          ((s.client.step q.call).1.running = true → (s.client.step q.call).1.pending = []) := by
        have hcm := hcmd q (by rw [hq]; simp)
        have hcall : ∀ (c : Client) p ok r, (c.call p ok r).1.pending = c.pending := by
          intro c p ok r; unfold Client.call; split <;> rfl
        cases hi : q.call with
        | publish t pl qq r ok =>
          simp only [Client.step, reduceCtorEq, if_false, hb, hr, if_true, Client.turn, Client.doPublish, hcall]
          split <;> simp [hpend]
        | subscribe l ok =>
          simp only [Client.step, reduceCtorEq, if_false, hb, hr, if_true, Client.turn, Client.doSubscribe, hcall]
          simp [hpend]
        | unsubscribe l ok =>
          simp only [Client.step, reduceCtorEq, if_false, hb, hr, if_true, Client.turn, Client.doUnsubscribe, hcall]
          simp [hpend]
        | disconnect ok =>
          obtain ⟨a, b⟩ := C81_disconnect s.client hr hb ok
          rw [a, b, hpend]; simp
        | _ => rw [hi] at hcm; cases hcm
      have hset : ∀ x : Api, x.settle.client = x.client ∧ x.settle.dropped = x.dropped ∧
          (x.settle.queue = x.queue ∨ x.settle.queue = []) ∧
          (x.client.running = false → x.client.pending.length ≤ 1 → x.settle.queue = []) := by
        intro x; unfold settle over; split
        · simp
        · rename_i hn
          refine ⟨rfl, rfl, Or.inl rfl, fun h1 h2 => ?_⟩
          have : ¬ x.client.blocked := by unfold Client.blocked eventCapacity; omega
          simp [h1, this] at hn
      obtain ⟨g1, g2, g3, g4⟩ := hset { s.act q.call with
          queue := rest
          answers := (s.act q.call).answers ++
            if q.waiting then ((s.client.step q.call).2.result.map fun r => (q.caller, r)).toList else [] }
      rw [← hs] at g1 g2 g3 g4
      have g1' : (s.step .serve).client = (s.client.step q.call).1 := by rw [g1]; exact hact
      have hlen : rest.length ≤ m := by rw [hq] at h; simpa using h
      refine ih _ ?_ ?_ ?_ ?_
      · refine ⟨by rw [g2]; exact hc.1, ?_, ?_⟩ <;> rw [g1']
        · exact hcl.1
        · exact hcl.2
      · intro x hx
        rcases g3 with g3 | g3
        · rw [g3] at hx; exact hcmd x (by rw [hq]; exact List.mem_cons_of_mem _ hx)
        · rw [g3] at hx; cases hx
      · rcases g3 with g3 | g3 <;> rw [g3]
        · exact hlen
        · simp
      · intro hrun
        exact g4 (by show (s.act q.call).client.running = false; rw [hact, ← g1']; exact hrun)
          (by show (s.act q.call).client.pending.length ≤ 1; rw [hact]; exact hcl.1)

theorem run_append (s : Api) (es fs : List ApiEvent) : s.run (es ++ fs) = (s.run es).run fs := by
  simp [run, List.foldl_append]

end Api

/-- When the loop is over no call waits. -/
theorem Api.over_empty (es : List ApiEvent) : (Api.run {} es).over = true → (Api.run {} es).queue = [] := by
  induction es using snoc_induction with
  | h0 => intro _; rfl
  | hs es e ih =>
    rw [Api.run_snoc]
    have hset : ∀ x : Api, x.settle.over = true → x.settle.queue = [] := by
      intro x
      unfold Api.settle
      split
      · intro _; rfl
      · rename_i h; intro h'; exact absurd h' h
    cases e with
    | call k i =>
      simp only [Api.step]
      split
      · exact hset _
      · exact ih
    | cancel k =>
      intro h
      have := ih h
      simp only [Api.step, this]
      rfl
    | serve => exact hset _
    | wake i =>
      simp only [Api.step]
      split
      · exact hset _
      · exact ih
    | recv =>
      simp only [Api.step]
      split
      · exact ih
      · exact hset _
    | drop =>
      simp only [Api.step]
      split
      · exact hset _
      · exact ih

/-- C90: every call is answered.  At any moment, once the application has taken the events waiting for it and the event loop has
taken as many commands as there are calls waiting, each caller has its answer, in the order of the calls. -/
theorem C90_answered (es : List ApiEvent) (hp : Patient es) (n m : Nat)
    (hn : (Api.run {} es).client.pending.length ≤ n) (hm : (Api.run {} es).queue.length ≤ m) :
    (Api.run {} (es ++ List.replicate n .recv ++ List.replicate m .serve)).answers.map Prod.fst =
      (callsMade es).map Prod.fst := by
  have hr : ∀ k, callsMade (List.replicate k ApiEvent.recv) = [] := by
    intro k; induction k with
    | zero => rfl
    | succ k ih => exact ih
  have hs : ∀ k, callsMade (List.replicate k ApiEvent.serve) = [] := by
    intro k; induction k with
    | zero => rfl
    | succ k ih => exact ih
  have hp1 : Patient (es ++ List.replicate n .recv) := by
    intro e he
    rcases List.mem_append.mp he with he | he
    · exact hp e he
    · rw [(List.mem_replicate.mp he).2]; simp
  have hp2 : Patient (es ++ List.replicate n .recv ++ List.replicate m .serve) := by
    intro e he
    rcases List.mem_append.mp he with he | he
    · exact hp1 e he
    · rw [(List.mem_replicate.mp he).2]; simp
  obtain ⟨d0, h0⟩ := Api.inv_run es
  obtain ⟨d1, h1⟩ := Api.inv_run (es ++ List.replicate n .recv)
  obtain ⟨a, b, c⟩ := Api.recv_drains n (Api.run {} es) (h0.all hp).2.2.2 hn
  rw [← Api.run_append] at a b c
  have hq : (Api.run {} (es ++ List.replicate n .recv ++ List.replicate m .serve)).queue = [] := by
    rw [Api.run_append]
    refine Api.serve_empties m _ ⟨b, by rw [a]; simp, fun _ => a⟩ h1.commands (Nat.le_trans c hm) ?_
    intro hrun
    refine Api.over_empty _ ?_
    simp [Api.over, hrun, Client.blocked, a, eventCapacity]
  obtain ⟨done, e1, e2, -⟩ := C90_in_order _ hp2
  rw [hq, callsMade_append, callsMade_append, hr, hs] at e1
  simp only [List.append_nil, List.map_nil] at e1
  rw [e2, e1]
  simp [List.map_map, Function.comp_def]

/-! ## C91 -/

namespace Client

theorem turn_pending (c : Client) (i : ClientIn) : (c.turn i).1.pending.length ≤ c.pending.length + 1 := by
  have hcall : ∀ (c : Client) p ok r, (c.call p ok r).1.pending = c.pending := by
    intro c p ok r; unfold Client.call; split <;> rfl
  cases i with
  | read r ok =>
    cases r with
    | packet p =>
      cases p with
      | publish p =>
        simp only [turn, incoming]
        split
        · split <;> simp [emit, crash]
        · simp [emit]
      | disconnect d => simp [turn, incoming, emit]
      | _ => simp [turn, incoming]
    | _ => simp [turn, stop, emit, crash]
  | publish t pl q r ok => simp only [turn, doPublish, hcall]; split <;> simp
  | subscribe l ok => simp only [turn, doSubscribe, hcall]; simp
  | unsubscribe l ok => simp only [turn, doUnsubscribe, hcall]; simp
  | disconnect ok => simp only [turn, doDisconnect, emit, List.length_append, List.length_singleton, hcall]; exact Nat.le_refl _
  | tick ok => simp only [turn]; split <;> simp [stop, emit, crash]
  | recv => simp [turn]

theorem step_pending (c : Client) (i : ClientIn) (h : c.pending.length ≤ 257) : (c.step i).1.pending.length ≤ 257 := by
  unfold step
  split
  · unfold take
    split
    · exact h
    · rename_i hp; rw [hp] at h; simp at h ⊢; omega
  split
  · exact h
  · rename_i hb
    unfold blocked eventCapacity at hb
    split
    · have := c.turn_pending i; omega
    · cases i <;> simpa [refuse] using h

end Client

/-- C91, what holds: however slowly the application takes its events, never more than 257 of them are kept for it.
Missing: that its calls return and its connection is kept alive (`C91_hangs_false`), that a call it gave up is not
carried out (`C91_given_up_false`), and that dropping the client ends its connection (`C91_dropped_false`). -/
theorem C91_bounded_partial (es : List ApiEvent) : (Api.run {} es).client.pending.length ≤ 257 := by
  induction es using snoc_induction with
  | h0 => simp [Api.run]
  | hs es e ih =>
    rw [Api.run_snoc]
    have hset : ∀ x : Api, x.settle.client = x.client := by intro x; unfold Api.settle; split <;> rfl
    have hact : ∀ (x : Api) i, x.client.pending.length ≤ 257 → (x.act i).client.pending.length ≤ 257 := by
      intro x i h
      simp only [Api.act]
      split
      · simp
      · exact x.client.step_pending i h
    cases e with
    | call k i =>
      simp only [Api.step]
      split
      · rw [hset]; exact ih
      · exact ih
    | cancel k => exact ih
    | serve =>
      simp only [Api.step, hset, Api.serveNext]
      split
      · exact ih
      split
      · exact hact _ _ ih
      · exact ih
    | wake i =>
      simp only [Api.step]
      split
      · rw [hset]; exact hact _ _ ih
      · exact ih
    | recv =>
      simp only [Api.step]
      split
      · exact ih
      · rw [hset]; exact hact _ _ ih
    | drop =>
      simp only [Api.step]
      split
      · rw [hset]; simp
      · exact ih

namespace Api

theorem blocked_step (s : Api) (hb : s.client.blocked) (hd : s.dropped = false) (e : ApiEvent) (h1 : e ≠ .recv) (h2 : e ≠ .drop) :
    (s.step e).client = s.client ∧ (s.step e).dropped = false ∧ (s.step e).answers = s.answers ∧
    (s.step e).wrote = s.wrote ∧ (s.step e).told = s.told := by
  have hset : ∀ x : Api, x.client.blocked → x.settle = x := by
    intro x hx; unfold settle over; rw [if_neg (by simp [hx])]
  cases e with
  | call k i =>
    simp only [step]
    split
    · rw [hset _ (by exact hb)]; exact ⟨rfl, hd, rfl, rfl, rfl⟩
    · exact ⟨rfl, hd, rfl, rfl, rfl⟩
  | cancel k => exact ⟨rfl, hd, rfl, rfl, rfl⟩
  | serve =>
    have : s.serveNext = s := by
      unfold serveNext
      split
      · rfl
      · simp [hb]
    simp only [step, this, hset s hb]
    exact ⟨trivial, hd, trivial, trivial, trivial⟩
  | wake i =>
    simp only [step]
    split
    · rename_i hi
      have hne : i ≠ .recv := by rintro rfl; cases hi
      have ha : s.act i = s := by
        have : s.client.step i = (s.client, {}) := by simp only [Client.step, hne, if_false, hb, if_true]
        cases s
        cases hd
        simp only [act, this]
        simp
      rw [ha, hset s hb]; exact ⟨rfl, hd, rfl, rfl, rfl⟩
    · exact ⟨rfl, hd, rfl, rfl, rfl⟩
  | recv => exact absurd rfl h1
  | drop => exact absurd rfl h2

theorem blocked_run (es : List ApiEvent) : ∀ s : Api, s.client.blocked → s.dropped = false →
    (∀ e ∈ es, e ≠ .recv ∧ e ≠ .drop) →
    (s.run es).client = s.client ∧ (s.run es).answers = s.answers ∧ (s.run es).wrote = s.wrote ∧ (s.run es).told = s.told := by
  induction es with
  | nil => intro s _ _ _; exact ⟨rfl, rfl, rfl, rfl⟩
  | cons e es ih =>
    intro s hb hd h
    obtain ⟨a1, a2, a3, a4, a5⟩ := s.blocked_step hb hd e (h e (by simp)).1 (h e (by simp)).2
    obtain ⟨b1, b2, b3, b4⟩ := ih (s.step e) (by rw [a1]; exact hb) a2 (fun x hx => h x (by simp [hx]))
    exact ⟨b1.trans a1, b2.trans a3, b3.trans a4, b4.trans a5⟩

/-- A PUBLISH that arrives while there is room is kept for the application. -/
theorem fill (ps : List PublishPacket) : ∀ s : Api, s.client.running = true → s.dropped = false →
    s.client.pending.length + ps.length ≤ 257 →
    (s.run (ps.map fun p => .wake (.read (.packet (.publish p)) true))).client.pending.length = s.client.pending.length + ps.length ∧
    (s.run (ps.map fun p => .wake (.read (.packet (.publish p)) true))).client.running = true ∧
    (s.run (ps.map fun p => .wake (.read (.packet (.publish p)) true))).dropped = false ∧
    (s.run (ps.map fun p => .wake (.read (.packet (.publish p)) true))).answers = s.answers := by
  induction ps with
  | nil => intro s hr hd _; exact ⟨rfl, hr, hd, rfl⟩
  | cons p ps ih =>
    intro s hr hd hl
    simp only [List.length_cons] at hl
    have hb : ¬ s.client.blocked := by unfold Client.blocked eventCapacity; omega
    obtain ⟨e, -, -, -⟩ := C59_publish s.client hr hb p
    have ha : (s.act (.read (.packet (.publish p)) true)).client =
        { s.client with pending := s.client.pending ++ [.message p.topicName (p.payload.getD []) p.qos p.retain] } := by
      simp only [act, hd, Bool.false_eq_true, if_false]; exact e
    have hset : (s.act (.read (.packet (.publish p)) true)).settle = s.act (.read (.packet (.publish p)) true) := by
      unfold settle over; rw [if_neg (by rw [ha]; simp [hr])]
    have hs : s.step (.wake (.read (.packet (.publish p)) true)) = s.act (.read (.packet (.publish p)) true) := by
      simp only [step, ClientIn.isWake, if_true]; exact hset
    obtain ⟨a, b, c, d⟩ := ih (s.act (.read (.packet (.publish p)) true)) (by rw [ha]; exact hr) hd (by rw [ha]; simp; omega)
    simp only [List.map_cons]
    rw [show ∀ (x : Api) y l, x.run (y :: l) = (x.step y).run l from fun _ _ _ => rfl, hs]
    refine ⟨?_, b, c, d⟩
    rw [a, ha]; simp; omega

end Api

/-- C91 is false: when 257 messages have arrived and the application has taken none of them, then, as long as it takes none and whatever
else happens, no call returns, nothing is written (no acknowledgement, no ping), and no packet is read. -/
theorem C91_hangs_false (ps : List PublishPacket) (hps : ps.length = 257) (es : List ApiEvent)
    (hes : ∀ e ∈ es, e ≠ .recv ∧ e ≠ .drop) :
    let s := Api.run {} (ps.map fun p => .wake (.read (.packet (.publish p)) true))
    (s.run es).answers = [] ∧ (s.run es).wrote = s.wrote ∧ (s.run es).client = s.client := by
  intro s
  obtain ⟨a, b, c, d⟩ := Api.fill ps {} rfl rfl (by simp [hps])
  have hb : s.client.blocked := by
    show eventCapacity < _
    rw [a, hps]; decide
  obtain ⟨h1, h2, h3, h4⟩ := Api.blocked_run es s hb c hes
  exact ⟨h2.trans d, h3, h1⟩

/-- C91 is false for calls that are given up, in general: a call given up after it got into the command channel is carried out
all the same. -/
theorem C91_given_up_false (s : Api) (hr : s.client.running = true) (hb : ¬ s.client.blocked) (hd : s.dropped = false)
    (hq : s.queue = []) (k : Nat) (t : Str) (pl : Buf) (q : QoS) (retain : Bool) :
    ∃ p, (s.run [.call k (.publish t pl q retain true), .cancel k, .serve]).wrote = s.wrote ++ [.publish p] ∧
      p.topicName = t ∧ p.payload = some pl ∧ p.qos = q ∧ p.retain = retain ∧
      (s.run [.call k (.publish t pl q retain true), .cancel k, .serve]).answers = s.answers := by
  obtain ⟨c, qs, dr, an, wr, to⟩ := s
  simp only at hr hb hd hq
  subst hq hd
  obtain ⟨x, r, e, c1, c2⟩ := (C81_call c hr hb (.publish t pl q retain true) trivial).1 rfl
  cases x <;> try exact c1.elim
  rename_i p
  obtain ⟨h1, h2, h3, h4, -, -⟩ := c1
  have hset1 : Api.settle ⟨c, [⟨k, .publish t pl q retain true, true⟩], false, an, wr, to⟩ =
      ⟨c, [⟨k, .publish t pl q retain true, true⟩], false, an, wr, to⟩ := by
    unfold Api.settle Api.over; rw [if_neg (by simp [hr])]
  have hw : ∀ x : Api, x.settle.wrote = x.wrote := by intro x; unfold Api.settle; split <;> rfl
  have ha : ∀ x : Api, x.queue = [] → x.settle.answers = x.answers := by
    intro x hx; unfold Api.settle; split <;> simp [hx]
  have key : (Api.step (Api.step ⟨c, [], false, an, wr, to⟩ (.call k (.publish t pl q retain true))) (.cancel k)) =
      ⟨c, [⟨k, .publish t pl q retain true, false⟩], false, an, wr, to⟩ := by
    have e1 : Api.step ⟨c, [], false, an, wr, to⟩ (.call k (.publish t pl q retain true)) = _ := hset1
    rw [e1]
    simp [Api.step, commandCapacity, Api.giveUp]
  refine ⟨p, ?_, h1, h2, h3, h4, ?_⟩
  · simp only [Api.run, List.foldl_cons, List.foldl_nil, key]
    simp only [Api.step, hw, Api.serveNext, hr, hb, decide_false, Bool.not_false, Bool.and_self, if_true, Api.act, e]
    simp
  · simp only [Api.run, List.foldl_cons, List.foldl_nil, key]
    simp only [Api.step, Api.serveNext, hr, hb, decide_false, Bool.not_false, Bool.and_self, if_true]
    rw [ha _ rfl]
    simp [Api.act]

/-- What a client whose application is gone writes when something happens: acknowledgements and pings. -/
def Spec.stillWrites : ApiEvent → Option Packet
  | .wake (.read (.packet (.publish p)) _) =>
    if p.qos = .atLeastOnce then p.packetId.map fun id => .pubAck ⟨id, .success, none⟩ else none
  | .wake (.tick _) => some .pingReq
  | _ => none

/-- Nothing that would end a connection: the stream does not end or fail, and the socket takes what is written. -/
def Spec.Healthy : ApiEvent → Prop
  | .wake (.read (.packet _) ok) => ok = true
  | .wake (.read _ _) => False
  | .wake (.tick ok) => ok = true
  | _ => True

namespace Api

theorem dropped_step (s : Api) (hr : s.client.running = true) (hd : s.dropped = true) (hp : s.client.pending = [])
    (hq : s.queue = []) (e : ApiEvent) (he : Healthy e) :
    (s.step e).client.running = true ∧ (s.step e).dropped = true ∧ (s.step e).client.pending = [] ∧ (s.step e).queue = [] ∧
    (s.step e).wrote = s.wrote ++ (stillWrites e).toList ∧ (s.step e).told = s.told := by
  obtain ⟨c, qs, dr, an, wr, to⟩ := s
  simp only at hr hd hp hq
  subst hq hd
  have hb : ¬ c.blocked := by simp [Client.blocked, hp]
  have hset : ∀ x : Api, x.client.running = true → x.settle = x := by
    intro x hx; unfold settle over; rw [if_neg (by simp [hx])]
  cases e with
  | call k i => simp [step, stillWrites, hr, hp]
  | cancel k => simp [step, stillWrites, hr, hp, commandCapacity, giveUp]
  | serve =>
    have : serveNext ⟨c, [], true, an, wr, to⟩ = ⟨c, [], true, an, wr, to⟩ := rfl
    simp only [step, this, hset ⟨c, [], true, an, wr, to⟩ hr]
    simp [stillWrites, hr, hp]
  | recv => simp [step, stillWrites, hr, hp]
  | drop =>
    simp only [step, List.all_nil, if_true]
    rw [hset _ hr]
    simp [stillWrites, hr]
  | wake i =>
    have fin : ∀ (c' : Client) (o : ClientOut), c.step i = (c', o) → c'.running = true → o.event = none →
        i.isWake = true → o.sent = stillWrites (.wake i) →
        let s' := step ⟨c, [], true, an, wr, to⟩ (.wake i)
        s'.client.running = true ∧ s'.dropped = true ∧ s'.client.pending = [] ∧ s'.queue = [] ∧
        s'.wrote = wr ++ (stillWrites (.wake i)).toList ∧ s'.told = to := by
      intro c' o h1 h2 h3 h4 h5
      simp only [step, h4, if_true]
      rw [hset _ (by simp [act, h1, h2])]
      simp [act, h1, h2, h3, h5]
    cases i with
    | read r ok =>
      cases r with
      | packet p =>
        have hok : ok = true := he
        subst hok
        cases p with
        | publish p =>
          have hw : ∀ id, Client.write (.pubAck { packetId := id, reason := .success, properties := none })
            true = .ok true := fun id => rfl
          cases hqq : p.qos <;> cases hi : p.packetId <;>
            refine fin _ _ (by
              simp only [Client.step, reduceCtorEq, if_false, hb, hr, if_true, Client.turn, Client.incoming, hqq, hi, hw]
              rfl) ?_ ?_ rfl ?_ <;> simp [Client.emit, hr, stillWrites, hqq, hi]
        | disconnect d =>
          exact fin (c.emit (.disconnected .serverInitiated)) {} (by simp only [Client.step, reduceCtorEq, if_false, hb, hr, if_true, Client.turn, Client.incoming]) hr rfl rfl rfl
        | _ =>
          exact fin _ _ (by simp only [Client.step, reduceCtorEq, if_false, hb, hr, if_true, Client.turn, Client.incoming]; rfl) hr rfl rfl rfl
      | _ => exact he.elim
    | tick ok =>
      have hok : ok = true := he
      subst hok
      exact fin c { sent := some .pingReq } (by simp only [Client.step, reduceCtorEq, if_false, hb, hr, if_true, Client.turn]; rfl) hr rfl rfl rfl
    | _ => simp [step, stillWrites, hr, hp, ClientIn.isWake]

theorem dropped_run (es : List ApiEvent) : ∀ s : Api, s.client.running = true → s.dropped = true → s.client.pending = [] →
    s.queue = [] → (∀ e ∈ es, Healthy e) →
    (s.run es).client.running = true ∧ (s.run es).wrote = s.wrote ++ es.filterMap stillWrites ∧ (s.run es).told = s.told := by
  induction es with
  | nil => intro s hr _ _ _ _; exact ⟨hr, by simp [run], rfl⟩
  | cons e es ih =>
    intro s hr hd hp hq h
    obtain ⟨a1, a2, a3, a4, a5, a6⟩ := s.dropped_step hr hd hp hq e (h e (by simp))
    obtain ⟨b1, b2, b3⟩ := ih (s.step e) a1 a2 a3 a4 (fun x hx => h x (by simp [hx]))
    refine ⟨b1, ?_, b3.trans a6⟩
    show ((s.step e).run es).wrote = _
    rw [b2, a5]
    cases hs : stillWrites e <;> simp [hs, List.filterMap_cons]

end Api

/-- C91 is false for clients that are dropped, always: when an application drops its connected client, the connection stays open
until the server or the network ends it, and no DISCONNECT is written.  Until then every QoS 1 message is acknowledged, although
nobody is given it, and pings keep the connection alive. -/
theorem C91_dropped_false (s : Api) (hr : s.client.running = true) (hq : s.queue = []) (es : List ApiEvent)
    (hes : ∀ e ∈ es, Healthy e) :
    (s.run (.drop :: es)).client.running = true ∧
    (s.run (.drop :: es)).wrote = s.wrote ++ es.filterMap stillWrites ∧ (s.run (.drop :: es)).told = s.told := by
  have e : s.step .drop = { s with dropped := true, client := { s.client with pending := [] } } := by
    simp only [Api.step, hq, List.all_nil, if_true]
    unfold Api.settle Api.over
    rw [if_neg (by simp [hr])]
  show ((s.step .drop).run es).client.running = true ∧ ((s.step .drop).run es).wrote = _ ∧ ((s.step .drop).run es).told = _
  rw [e]
  exact Api.dropped_run es _ hr rfl rfl hq hes

/-! ## Calls that are given up -/

theorem giveUp_spec (k : Nat) : ∀ (qs : List Queued) (n : Nat),
    (Api.giveUp k n qs).map (fun q => (q.caller, q.call)) =
      (qs.map fun q => (q.caller, q.call)).take n ++
        ((qs.map fun q => (q.caller, q.call)).drop n).filter (fun c => c.1 ≠ k) := by
  intro qs
  induction qs with
  | nil => intro n; cases n <;> simp [Api.giveUp]
  | cons q qs ih =>
    intro n
    cases n with
    | zero =>
      have := ih 0
      simp only [List.take_zero, List.drop_zero, List.nil_append] at this
      simp only [Api.giveUp, List.map_cons, List.take_zero, List.drop_zero, List.nil_append, List.filter_cons]
      by_cases h : q.caller = k
      · simp [h, this]
      · simp [h, this]
    | succ n =>
      simp only [Api.giveUp, List.map_cons, List.take_succ_cons, List.drop_succ_cons, List.cons_append]
      rw [ih n]
      by_cases h : q.caller = k <;> simp [h]

theorem giveUp_waiting (k : Nat) : ∀ (qs : List Queued) (n : Nat),
    ((Api.giveUp k n qs).filter (·.waiting)).map (·.caller) =
      ((qs.filter (·.waiting)).map (·.caller)).filter (· ≠ k) := by
  intro qs
  induction qs with
  | nil => intro n; cases n <;> simp [Api.giveUp]
  | cons q qs ih =>
    intro n
    cases n with
    | zero =>
      simp only [Api.giveUp]
      by_cases h : q.caller = k
      · rw [if_pos h, ih 0]
        by_cases hw : q.waiting <;> simp [hw, h]
      · rw [if_neg h]
        by_cases hw : q.waiting
        · simp only [List.filter_cons, hw, if_true, List.map_cons, ih 0]; simp [h]
        · simp [List.filter_cons, hw]; simpa using ih 0
    | succ n =>
      simp only [Api.giveUp]
      by_cases h : q.caller = k
      · rw [if_pos h]
        by_cases hw : q.waiting
        · simp only [List.filter_cons, hw, if_true, List.map_cons]; simp [h, ih n]
        · simp only [List.filter_cons, hw]; simp [ih n]
      · rw [if_neg h]
        by_cases hw : q.waiting
        · simp only [List.filter_cons, hw, if_true, List.map_cons, ih n]; simp [h]
        · simp [List.filter_cons, hw]; simpa using ih n

/-- C91, exactly which calls are withdrawn by giving up: those that have 32 or more calls before them. The first 32 calls that
wait stay as they are (so they are carried out, see `C91_given_up_false`). In either case only that caller stops waiting, and
nothing else changes. -/
theorem C91_withdrawn_partial (s : Api) (k : Nat) :
    let s' := s.step (.cancel k)
    s'.queue.map (fun q => (q.caller, q.call)) =
      (s.queue.map fun q => (q.caller, q.call)).take 32 ++
        ((s.queue.map fun q => (q.caller, q.call)).drop 32).filter (fun c => c.1 ≠ k) ∧
    (s'.queue.filter (·.waiting)).map (·.caller) = ((s.queue.filter (·.waiting)).map (·.caller)).filter (· ≠ k) ∧
    s'.client = s.client ∧ s'.wrote = s.wrote ∧ s'.answers = s.answers ∧ s'.told = s.told ∧ s'.dropped = s.dropped :=
  ⟨giveUp_spec k _ 32, giveUp_waiting k _ 32, rfl, rfl, rfl, rfl, rfl⟩

theorem Api.settle_waiting (s : Api) (h : ∀ q ∈ s.queue, q.waiting = false) : ∀ q ∈ s.settle.queue, q.waiting = false := by
  unfold Api.settle
  split
  · intro q hq; cases hq
  · exact h

theorem Api.settle_dropped (s : Api) : s.settle.dropped = s.dropped := by unfold Api.settle; split <;> rfl
theorem Api.act_dropped (s : Api) (i : ClientIn) : (s.act i).dropped = s.dropped := rfl
theorem Api.act_queue (s : Api) (i : ClientIn) : (s.act i).queue = s.queue := rfl

theorem Api.serveNext_dropped (s : Api) : s.serveNext.dropped = s.dropped := by
  unfold Api.serveNext
  split
  · rfl
  · split <;> rfl

theorem Api.serveNext_sub (s : Api) : ∀ q ∈ s.serveNext.queue, q ∈ s.queue := by
  unfold Api.serveNext
  split
  · intro q hq; exact hq
  · rename_i x rest hq
    split
    · intro q h
      have h : q ∈ rest := h
      rw [hq]; exact List.mem_cons_of_mem _ h
    · intro q h; exact h

/-- C90: the client is never dropped under its callers: after any history, if the application has dropped its client, nobody
waits for an answer. -/
theorem C90_client_kept (es : List ApiEvent) (h : (Api.run {} es).dropped = true) :
    ∀ q ∈ (Api.run {} es).queue, q.waiting = false := by
  induction es using snoc_induction with
  | h0 => cases h
  | hs es e ih =>
    rw [Api.run_snoc] at h ⊢
    cases e with
    | call k i =>
      simp only [Api.step] at h ⊢
      split at h
      · rename_i hc
        rw [Api.settle_dropped] at h
        have h : (Api.run {} es).dropped = true := h
        simp [h] at hc
      · rename_i hc
        rw [if_neg hc]; exact ih h
    | cancel k =>
      have h : (Api.run {} es).dropped = true := h
      have hw := giveUp_waiting k (Api.run {} es).queue commandCapacity
      have hn : (Api.run {} es).queue.filter (·.waiting) = [] :=
        List.filter_eq_nil_iff.mpr (fun q hq => by simp [ih h q hq])
      rw [hn] at hw
      simp only [List.map_nil, List.filter_nil, List.map_eq_nil_iff, List.filter_eq_nil_iff] at hw
      intro q hq
      have := hw q hq
      simpa using this
    | serve =>
      simp only [Api.step, Api.settle_dropped, Api.serveNext_dropped] at h
      refine Api.settle_waiting _ fun q hq => ih h q (Api.serveNext_sub _ q hq)
    | wake i =>
      simp only [Api.step] at h ⊢
      split at h
      · rename_i hc
        rw [if_pos hc]
        rw [Api.settle_dropped] at h
        exact Api.settle_waiting _ (ih h)
      · rename_i hc
        rw [if_neg hc]; exact ih h
    | recv =>
      simp only [Api.step] at h ⊢
      split at h
      · rename_i hc
        rw [if_pos hc]; exact ih h
      · rename_i hc
        rw [Api.settle_dropped] at h
        exact absurd h hc
    | drop =>
      simp only [Api.step] at h ⊢
      split at h
      · rename_i hc
        rw [if_pos hc]
        refine Api.settle_waiting _ fun q hq => ?_
        have := List.all_eq_true.mp hc q hq
        simpa using this
      · rename_i hc
        rw [if_neg hc]; exact ih h

/-- Thirty-three callers wait; the 33rd and the first give up. -/
def exCrowd : List ApiEvent :=
  (List.range 33).map (fun k => .call k (.publish (str "a") [] .atMostOnce false true)) ++ [.cancel 32, .cancel 0]

example : (Api.run {} exCrowd).queue.map (·.caller) = List.range 32 ∧
    ((Api.run {} exCrowd).queue.filter (·.waiting)).map (·.caller) = (List.range 32).tail := by decide +kernel

example : (Api.run {} [.drop]).dropped = true := by decide +kernel

/-! ## Examples -/

/-- Three callers, the second call fails, the third still waits. -/
def exApiCalls : List ApiEvent :=
  [.call 1 (.publish (str "a") [1] .atLeastOnce false true), .call 2 (.subscribe [(str "b", .atMostOnce)] false), .serve,
   .wake (.tick true), .call 3 (.unsubscribe [str "b"] true), .serve]

example : Patient exApiCalls := by unfold Patient exApiCalls; simp
example : (Api.run {} exApiCalls).answers = [(1, .published (some 1)), (2, .failed .io)] ∧
    (Api.run {} exApiCalls).queue = [⟨3, .unsubscribe [str "b"] true, true⟩] ∧ (Api.run {} exApiCalls).wrote.length = 2 ∧
    ((Api.run {} exApiCalls).wrote.filter OfCall).length = 1 := by decide +kernel

/-- `disconnect` ends the connection for a call that came later. -/
example : (Api.run {} [.call 1 (.disconnect true), .call 2 (.publish (str "a") [] .atMostOnce false true), .serve]).answers =
    [(1, .done), (2, .failed .closed)] := by decide +kernel

/-- A message is acknowledged although the application is gone. -/
example : ∀ e ∈ [ApiEvent.wake (.read (.packet (.publish samplePublish)) true), .wake (.tick true)], Healthy e := by
  simp [Healthy]
example : (Api.run {} [.drop, .wake (.read (.packet (.publish samplePublish)) true), .wake (.tick true), .recv]).wrote =
    [.pubAck ⟨10, .success, none⟩, .pingReq] := by decide +kernel

/-- The case of `C91_hangs_false`: a message 257 times, then a call. -/
example : (Api.run {} ((List.replicate 257 (ApiEvent.wake (.read (.packet (.publish samplePublish)) true))) ++
    [.call 1 (.disconnect true), .serve, .serve])).answers = [] := by decide +kernel

end Mercurio
