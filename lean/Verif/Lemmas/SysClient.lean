import Verif.Lemmas.Fits
import Mathlib.Data.List.Basic
import Verif.Spec.System

/-!
# What a client sends, and what its application hears

Facts about one client of the whole system.
-/

namespace Mercurio

open Spec

/-! ## Sizes -/

theorem sum_ge {α : Type} (g : α → Nat) (k : Nat) (l : List α) : l.length * k ≤ (l.map fun t => g t + k).sum := by
  induction l with
  | nil => simp
  | cons t ts ih =>
    simp only [List.length_cons, List.map_cons, List.sum_cons]
    rw [Nat.add_mul]; omega

theorem fits_subscribe (p : SubscribePacket) (hp : p.properties = none)
    (hl : (p.payload.map fun e => e.topicFilter.length + 3).sum + 3 < 2 ^ 28) : Fits (.subscribe p) := by
  have h1 : optProps SubscribeProperties.toProps p.properties = [] := by rw [hp]; rfl
  obtain ⟨b, hb⟩ : ∃ b, (Packet.subscribe p).encode = .ok b := by
    simp only [Packet.encode, SubscribePacket.encode_def, h1, blockSize_nil]
    exact ⟨_, rfl⟩
  refine ⟨b, hb, ?_⟩
  rw [SubscribePacket.encode_inv hb]
  apply fits_frame
  have e1 : (p.payload.flatMap SubscribePayload.encode).length =
      (p.payload.map fun e => e.topicFilter.length + 3).sum := by
    rw [List.length_flatMap]
    congr 1
    apply List.map_congr_left
    intro e _
    have := str_len e.topicFilter
    simp only [SubscribePayload.encode, List.length_append, List.length_singleton]; omega
  simp only [SubscribePacket.body, List.length_append, h1, encodeBlock_nil, e1, encodeU16_length]
  omega

theorem fits_unsubscribe (p : UnsubscribePacket) (hp : p.properties = none)
    (hl : (p.payload.map fun e => e.length + 2).sum + 3 < 2 ^ 28) : Fits (.unsubscribe p) := by
  have h1 : optProps UnsubscribeProperties.toProps p.properties = [] := by rw [hp]; rfl
  obtain ⟨b, hb⟩ : ∃ b, (Packet.unsubscribe p).encode = .ok b := by
    simp only [Packet.encode, UnsubscribePacket.encode_def, h1, blockSize_nil]
    exact ⟨_, rfl⟩
  refine ⟨b, hb, ?_⟩
  rw [UnsubscribePacket.encode_inv hb]
  apply fits_frame
  have e1 : (p.payload.flatMap encodeStr).length = (p.payload.map fun e => e.length + 2).sum := by
    rw [List.length_flatMap]
    exact congrArg List.sum (List.map_congr_left fun e _ => str_len e)
  simp only [UnsubscribePacket.body, List.length_append, h1, encodeBlock_nil, e1, encodeU16_length]
  omega

theorem fits_disconnect : Fits (.disconnect { reason := .normalDisconnection, properties := none }) :=
  ⟨[0xe0, 1, 0], by decide, by unfold FitsMqtt; decide⟩

/-! ## What one turn sends -/

/-- Calls an ordinary application makes, and everything the client reads. -/
def InOrd (i : ClientIn) : Prop := SysEvent.Ordinary (.app 0 i)

theorem inOrd_app {c : Nat} {i : ClientIn} (h : SysEvent.Ordinary (.app c i)) : InOrd i := by
  cases i <;> exact h

/-- A packet of an ordinary client. -/
structure OkFrom (q : Packet) : Prop where
  survives : q.Survives ∨ q = .pingReq
  fits : Fits q
  good : GoodPacket (fun _ => False) q.received
  notConnect : ∀ p, q ≠ .connect p

theorem call_sent {l : Client} {p : Packet} {ok : Bool} {r : CallResult} {q : Packet}
    (h : (l.call p ok r).2.sent = some q) : q = p := by
  rcases (l.call_counter p ok r).2.2 with h' | h'
  · rw [h'] at h; cases h
  · rw [h'] at h; cases h; rfl

theorem okFrom_pubAck (id : UInt16) : OkFrom (.pubAck { packetId := id }) :=
  ⟨Or.inl (fun _ h => by cases h), fits_ack .pubAck _ (fun _ => rfl) id, trivial, by simp⟩

theorem step_okFrom {l : Client} {i : ClientIn} (hi : InOrd i) {q : Packet}
    (h : (l.step i).2.sent = some q) : OkFrom q := by
  unfold Client.step at h
  split at h
  · unfold Client.take at h; split at h <;> cases h
  split at h
  · cases h
  split at h
  · cases i with
    | recv => cases h
    | read r ok =>
      cases r with
      | packet p =>
        simp only [Client.turn, Client.incoming] at h
        cases p with
        | publish p =>
          simp only at h
          split at h
          · split at h
            · cases h; exact okFrom_pubAck _
            · cases h
            · cases h
            · cases h
          · cases h
        | _ => cases h
      | closed => cases h
      | error e => cases h
      | panicked => cases h
    | publish t pl qs r ok =>
      have := call_sent h
      subst this
      obtain ⟨h1, h2, h3⟩ := hi
      refine ⟨Or.inl ⟨h1, h2, ?_, (fun _ h => by cases h)⟩, fits_publish _ rfl ?_, ?_, by simp⟩
      · by_cases hq : qs = .atMostOnce <;> simp [hq]
      · have := h1.2
        simp only [Option.getD_some]; omega
      · refine ⟨h2, ?_, ?_⟩
        · by_cases hq : qs = .atMostOnce <;> simp [hq, Session.messageOf, PublishPacket.received]
        · exact h3
    | subscribe ts ok =>
      have := call_sent h
      subst this
      obtain ⟨h1, h2, h3⟩ := hi
      have e : ∀ t : Str × QoS, t ∈ ts → ∀ x : SubscribePayload, x = { topicFilter := t.1, opts := { qos := t.2 } } →
          TextField x.topicFilter ∧ x.opts.Admissible := by
        rintro t ht x rfl
        exact ⟨(h2 t ht).1, (h2 t ht).2, by simp⟩
      have hs := sum_ge (fun t : Str × QoS => t.1.length) 3 ts
      have hp : 0 < ts.length := List.length_pos_iff.mpr h1
      refine ⟨Or.inl ⟨(fun _ h => by cases h), by simpa using h1, fun x hx => ?_⟩, fits_subscribe _ rfl ?_, ⟨?_, fun x hx => ?_, ?_⟩, by simp⟩
      · obtain ⟨t, ht, rfl⟩ := List.mem_map.mp hx
        exact e t ht _ rfl
      · simpa [List.map_map, Function.comp_def] using h3
      · simpa [SubscribePacket.received] using h1
      · obtain ⟨t, ht, rfl⟩ := List.mem_map.mp hx
        exact (e t ht _ rfl).1
      · simp only [SubscribePacket.received, List.length_map]; omega
    | unsubscribe ts ok =>
      have := call_sent h
      subst this
      obtain ⟨h1, h2, h3⟩ := hi
      have hs := sum_ge (fun t : Str => t.length) 2 ts
      have hp : 0 < ts.length := List.length_pos_iff.mpr h1
      refine ⟨Or.inl ⟨(fun _ h => by cases h), h1, h2⟩, fits_unsubscribe _ rfl h3, ⟨h1, ?_⟩, by simp⟩
      simp only [UnsubscribePacket.received]; omega
    | disconnect ok =>
      have := call_sent h
      subst this
      exact ⟨Or.inl rfl, fits_disconnect, trivial, by simp⟩
    | tick ok =>
      simp only [Client.turn] at h
      split at h
      · cases h; exact ⟨Or.inr rfl, ⟨[0xc0, 0], rfl, by unfold FitsMqtt; decide⟩, trivial, by simp⟩
      all_goals cases h
  · cases i <;> cases h

/-! ## Calls and packets -/

/-- The message of a PUBLISH as a client application gave it. -/
def pubOf : Packet → Option Publication
  | .publish p => some ⟨p.topicName, p.payload.getD [], p.qos, p.retain⟩
  | _ => none

theorem pubOf_received (q : Packet) : pubOf q.received = pubOf q := by
  cases q <;> rfl

/-- The effect of a packet from a client on whether it is subscribed to `f`. -/
def subStep (f : Str) (b : Prop) : Packet → Prop
  | .connect _ => False
  | .subscribe p => b ∨ f ∈ p.payload.map (·.topicFilter)
  | .unsubscribe p => b ∧ f ∉ p.payload
  | _ => b

theorem subStep_received (f : Str) (b : Prop) (q : Packet) : subStep f b q.received = subStep f b q := by
  cases q <;> rfl

/-- After these packets the client is subscribed to `f`. -/
def subscribedBy (f : Str) (ps : List Packet) : Prop := ps.foldl (subStep f) False

/-- A call in the history of a client. -/
def entryPub (e : ClientIn × ClientOut) : Option Publication :=
  match e with
  | (.publish t pl q r _, o) => match o.result with
    | some (.published _) => some ⟨t, pl, q, r⟩
    | _ => none
  | _ => none

/-- The effect of a call on whether the client is subscribed to `f`. -/
def entrySub (f : Str) (b : Prop) (e : ClientIn × ClientOut) : Prop :=
  match e with
  | (.subscribe l _, o) => match o.result with
    | some (.subscribed _) => b ∨ f ∈ l.map (·.1)
    | _ => b
  | (.unsubscribe l _, o) => match o.result with
    | some .done => b ∧ f ∉ l
    | _ => b
  | _ => b

theorem published_entries (p : Peer) : p.published = p.history.filterMap entryPub := rfl

theorem subscribedTo_entries (p : Peer) (f : Str) : p.subscribedTo f = p.history.foldl (entrySub f) False := rfl

theorem call_cases (l : Client) (p : Packet) (ok : Bool) (r : CallResult) :
    (l.call p ok r).2 = { sent := some p, result := some r } ∨
      (∃ e, (l.call p ok r).2 = { result := some (.failed e) }) := by
  unfold Client.call
  split
  · exact Or.inl rfl
  · exact Or.inr ⟨_, rfl⟩
  · exact Or.inr ⟨_, rfl⟩
  · exact Or.inr ⟨_, rfl⟩

/-- A call succeeds exactly if its packet was sent. -/
theorem step_entry (l : Client) (i : ClientIn) (f : Str) (b : Prop) :
    entryPub (i, (l.step i).2) = (l.step i).2.sent.bind pubOf ∧
    entrySub f b (i, (l.step i).2) = (match (l.step i).2.sent with
      | some q => subStep f b q
      | none => b) := by
  unfold Client.step
  split
  · rename_i h; subst h
    unfold Client.take; split <;> exact ⟨rfl, rfl⟩
  split
  · cases i <;> exact ⟨rfl, rfl⟩
  split
  · cases i with
    | recv => exact ⟨rfl, rfl⟩
    | read r ok =>
      cases r with
      | packet p =>
        simp only [Client.turn, Client.incoming]
        cases p with
        | publish p =>
          simp only
          split
          · split <;> exact ⟨rfl, rfl⟩
          · exact ⟨rfl, rfl⟩
        | _ => exact ⟨rfl, rfl⟩
      | closed => exact ⟨rfl, rfl⟩
      | error e => exact ⟨rfl, rfl⟩
      | panicked => exact ⟨rfl, rfl⟩
    | publish t pl qs r ok =>
      simp only [Client.turn, Client.doPublish]
      rcases call_cases (if qs ≠ .atMostOnce then { l with counter := l.counter + 1 } else l) (.publish { dup := false, qos := qs, retain := r, topicName := t, packetId := if qs ≠ .atMostOnce then some l.counter else none, properties := none, payload := some pl }) ok (.published (if qs ≠ .atMostOnce then some l.counter else none)) with h | ⟨e, h⟩
      · rw [h]; exact ⟨rfl, rfl⟩
      · rw [h]; exact ⟨rfl, rfl⟩
    | subscribe ts ok =>
      simp only [Client.turn, Client.doSubscribe]
      rcases call_cases { l with counter := l.counter + 1 } (.subscribe { packetId := l.counter, properties := none, payload := ts.map fun t => { topicFilter := t.1, opts := { qos := t.2 } } }) ok (.subscribed (ts.map fun t => (t.1, t.2, true))) with h | ⟨e, h⟩
      · rw [h]
        refine ⟨rfl, ?_⟩
        simp [entrySub, subStep, List.map_map, Function.comp_def]
      · rw [h]; exact ⟨rfl, rfl⟩
    | unsubscribe ts ok =>
      simp only [Client.turn, Client.doUnsubscribe]
      rcases call_cases { l with counter := l.counter + 1 } (.unsubscribe { packetId := l.counter, properties := none, payload := ts }) ok .done with h | ⟨e, h⟩
      · rw [h]; exact ⟨rfl, rfl⟩
      · rw [h]; exact ⟨rfl, rfl⟩
    | disconnect ok =>
      simp only [Client.turn, Client.doDisconnect]
      rcases call_cases l (.disconnect { reason := .normalDisconnection, properties := none }) ok .done with h | ⟨e, h⟩
      · simp only [h]; exact ⟨rfl, rfl⟩
      · simp only [h]; exact ⟨rfl, rfl⟩
    | tick ok =>
      simp only [Client.turn]
      split <;> exact ⟨rfl, rfl⟩
  · cases i <;> exact ⟨rfl, rfl⟩

/-! ## A client of the system -/

/-- The packets the client sent after its CONNECT. -/
def Peer.sents (p : Peer) : List Packet := p.history.filterMap (·.2.sent)

/-- All packets the client sent. -/
def Peer.outgoing (p : Peer) : List Packet := .connect (wireConnect p.opts) :: p.sents

/-- What holds for every client whose application is ordinary. -/
structure PeerInv (p : Peer) : Prop where
  opts : p.opts.Admissible
  will : ∀ w, p.opts.will = some w → ValidTopic w.topic ∧ w.qos = .atMostOnce
  sent : SentOn p.outgoing p.wrote
  steps : ∀ e ∈ p.history, ∃ l : Client, InOrd e.1 ∧ e.2 = (l.step e.1).2
  idle : p.loop = none → p.history = []

theorem PeerInv.okFrom {p : Peer} (h : PeerInv p) : ∀ q ∈ p.sents, OkFrom q := by
  intro q hq
  obtain ⟨e, he, hq⟩ := List.mem_filterMap.mp hq
  obtain ⟨l, hi, e2⟩ := h.steps e he
  rw [e2] at hq
  exact step_okFrom hi hq

theorem PeerInv.published {p : Peer} (h : PeerInv p) : p.published = p.sents.filterMap pubOf := by
  rw [published_entries, Peer.sents, List.filterMap_filterMap]
  apply List.filterMap_congr
  rintro ⟨i, o⟩ he
  obtain ⟨l, _, e⟩ := h.steps _ he
  have e : o = (l.step i).2 := e
  subst e
  exact (step_entry l i [] False).1

theorem PeerInv.subscribedTo {p : Peer} (h : PeerInv p) (f : Str) :
    p.subscribedTo f = p.sents.foldl (subStep f) False := by
  rw [subscribedTo_entries, Peer.sents]
  have : ∀ (es : List (ClientIn × ClientOut)) (b : Prop),
      (∀ e ∈ es, ∃ l : Client, e.2 = (l.step e.1).2) →
      es.foldl (entrySub f) b = (es.filterMap (·.2.sent)).foldl (subStep f) b := by
    intro es
    induction es with
    | nil => intro b _; rfl
    | cons e es ih =>
      intro b he
      obtain ⟨l, hl⟩ := he e List.mem_cons_self
      have h2 := (step_entry l e.1 f b).2
      rw [← hl] at h2
      rw [List.foldl_cons, ih _ (fun x hx => he x (List.mem_cons_of_mem _ hx)), List.filterMap_cons]
      cases hs : e.2.sent with
      | none => rw [hs] at h2; rw [show entrySub f b e = b from h2]
      | some q => rw [hs] at h2; rw [show entrySub f b e = subStep f b q from h2]; rfl
  exact this _ _ (fun e he => by obtain ⟨l, _, hl⟩ := h.steps e he; exact ⟨l, hl⟩)

/-- A new client. -/
theorem peerInv_new {o : ConnectOptions} (ho : o.Admissible)
    (hw : ∀ w, o.will = some w → ValidTopic w.topic ∧ w.qos = .atMostOnce) {b : Buf}
    (hb : (Packet.connect (buildConnect o)).encode = .ok b) : PeerInv { opts := o, wrote := b } := by
  refine ⟨ho, hw, ?_, by simp, fun _ => rfl⟩
  obtain ⟨b', hb', hf⟩ := buildConnect_encode_ok o ho
  have hbb : b' = b := by
    have : (buildConnect o).encode = .ok b := hb
    rw [hb'] at this; cases this; rfl
  subst hbb
  have he : (Packet.connect (wireConnect o)).encode = .ok b' := by
    rw [← hb']; exact wireConnect_encode o
  simpa [Peer.outgoing, Peer.sents] using SentOn.cons (wireConnect_survives o ho) he hf .nil

/-- A turn of the event loop. -/
theorem PeerInv.act {p : Peer} (h : PeerInv p) {l : Client} {i : ClientIn} (hi : InOrd i) :
    PeerInv (p.act l i) := by
  refine ⟨h.opts, h.will, ?_, ?_, fun hl => by cases hl⟩
  · show SentOn (.connect (wireConnect p.opts) :: (p.history ++ [(i, (l.step i).2)]).filterMap (·.2.sent))
      (p.wrote ++ _)
    rw [List.filterMap_append]
    cases hs : (l.step i).2.sent with
    | none => simp only [List.filterMap_cons, hs, List.filterMap_nil, List.append_nil]; exact h.sent
    | some q =>
      have hq := step_okFrom hi hs
      obtain ⟨b, hb, hf⟩ := hq.fits
      simp only [List.filterMap_cons, hs, List.filterMap_nil, hb]
      exact h.sent.snoc (hq.survives.imp (fun x => ⟨x, hf⟩) id) hb
  · intro e he
    rcases List.mem_append.mp he with he | he
    · exact h.steps e he
    · cases List.mem_singleton.mp he
      exact ⟨l, hi, rfl⟩

theorem PeerInv.receive {p : Peer} (h : PeerInv p) (r : ReadOut) (ok : Bool) : PeerInv (p.receive r ok) := by
  unfold Peer.receive
  split
  · rename_i hp
    exact ⟨h.opts, h.will, h.sent, h.steps, fun _ => h.idle (by simp [Peer.loop, hp])⟩
  · exact h.act trivial
  · exact h

theorem PeerInv.buf {p : Peer} (h : PeerInv p) (b g : Buf) : PeerInv { p with buf := b, got := g } :=
  ⟨h.opts, h.will, h.sent, h.steps, h.idle⟩

end Mercurio
