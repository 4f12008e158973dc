import Verif.Props.Server

/-!
# C42: will messages
-/

namespace Mercurio

open Spec Server

/-! ## Lemmas -/

theorem willPublications_append (c : Nat) (a b : List Call) :
    willPublications c (a ++ b) = willPublications c a ++ willPublications c b := by
  simp [willPublications]

theorem willPublications_subscribes (c : Nat) (fs : List Str) :
    willPublications c (fs.map Call.subscribe) = [] := by
  induction fs with
  | nil => rfl
  | cons f fs ih => simpa [willPublications] using ih

theorem willPublications_packet (c c' : Nat) (p : Packet) :
    willPublications c (packetCalls c' p) = [] := by
  cases p <;> simp only [packetCalls]
  case publish p => split <;> rfl
  case subscribe p => exact willPublications_subscribes _ _
  all_goals rfl

theorem willPublications_other {c c' : Nat} (h : c' ≠ c) (s : Session) :
    willPublications c (willCalls c' s) = [] := by
  unfold willCalls
  cases s.will <;> simp [willPublications, h]

theorem willPublications_own (c : Nat) (s : Session) :
    willPublications c (willCalls c s) = willCalls c s := by
  unfold willCalls
  cases s.will <;> simp [willPublications]

/-- Events that are not events of `c` publish no will of `c`. -/
theorem willPublications_foreign (cfg : AuthConfig) (srv : Server) (c : Nat) (e : Event)
    (h : ¬ LocalTo c e ∨ srv.at c = none) : willPublications c (eventCalls cfg srv e) = [] := by
  cases e with
  | first c' p uuid w =>
    cases p <;> simp only [eventCalls] <;> try rfl
    split
    · exact willPublications_subscribes _ _
    · rfl
  | recv c' p =>
    simp only [eventCalls]
    cases ha : srv.at c' with
    | none => rfl
    | some s =>
      have hne : c' ≠ c := by
        rintro rfl
        rcases h with h | h
        · exact h (.recv p)
        · simp [h] at ha
      simp only [willPublications_append, willPublications_packet]
      split
      · rfl
      · exact willPublications_other hne s
  | deliver c' f => rfl
  | close c' =>
    simp only [eventCalls]
    cases ha : srv.at c' with
    | none => rfl
    | some s =>
      have hne : c' ≠ c := by
        rintro rfl
        rcases h with h | h
        · exact h .close
        · simp [h] at ha
      exact willPublications_other hne s
  | abort c' => rfl
  | restart => rfl

/-- Connection `c` is the only one on its session, which has the will `w`. -/
structure SoleWill (srv : Server) (c : Nat) (id : Str) (w : Option StoredWill) : Prop where
  inv : Inv srv
  holds : ∃ k s, srv.conns.get c = some k ∧ k.key = id ∧ srv.heap.get k.session = some s ∧ s.will = w ∧
    ∀ c' k', srv.conns.get c' = some k' → k'.session = k.session → c' = c

/-- Nothing in the event concerns connection `c` or the client identifier `id` except the events of
`c` itself: no CONNECT with the same identifier, no restart of the server, no crash of the task. -/
structure Undisturbed (c : Nat) (id : Str) (e : Event) : Prop where
  connect : ∀ c' p uuid w, e = .first c' (.connect p) uuid w → p.payload.clientId ≠ id
  restart : e ≠ .restart
  abort : e ≠ .abort c

/-- An event of `c` itself that leaves it open. -/
theorem own_open {cfg : AuthConfig} {srv : Server} {c : Nat} {s : Session} {e : Event}
    (he : LocalTo c e) (ha : srv.at c = some s) (ho : (srv.step cfg e).1.isOpen c) :
    ∃ s', (srv.step cfg e).1.at c = some s' ∧ s'.will = s.will ∧ s'.clientId = s.clientId ∧
      s'.connect = s.connect := by
  cases he with
  | recv p =>
    by_cases hd : ∃ d, p = .disconnect d
    · obtain ⟨d, rfl⟩ := hd
      obtain ⟨k, hk, hs, e⟩ := step_disconnect (cfg := cfg) (d := d) ha
      rw [e] at ho
      exact absurd ho (not_open_finish _ _ _ _)
    · obtain ⟨k, hk, hs, e⟩ := step_recv (cfg := cfg) (p := p) ha (fun d he => hd ⟨d, he⟩)
      rw [e] at ho ⊢
      cases hr : (s.processIncoming srv.world cfg.manager c p).result with
      | error err => rw [hr] at ho; exact absurd ho (not_open_finish _ _ _ _)
      | ok res =>
        exact ⟨_, at_put_same (srv := ({ srv with world := _ } : Server).mapStore _) hk _,
          processIncoming_keeps _ _ _ _ _⟩
  | deliver f =>
    obtain ⟨k, hk, hs, e⟩ := onConn_at ha (fun r s => srv.deliver c r s f)
    have e' : srv.step cfg (.deliver c f) = srv.deliver c k.session s f := e
    rw [e', Server.deliver] at ho ⊢
    have hkeep := processOutgoing_keeps (s := s) (t := srv.world.broker.tree) (f := f)
    cases hp : s.processOutgoing srv.world.broker.tree f with
    | idle => exact ⟨s, ha, rfl, rfl, rfl⟩
    | packet s' p => exact ⟨s', at_put_same (srv := srv.mapStore _) hk _, hkeep.1 _ _ hp⟩
    | panicked s' =>
      rw [hp] at ho
      obtain ⟨k', hk'⟩ := ho
      simp [Map.get_erase] at hk'
  | close =>
    obtain ⟨k, hk, hs, e⟩ := onConn_at ha (fun r s => (srv.finish c r s, {}))
    have e' : srv.step cfg (.close c) = (srv.finish c k.session s, {}) := e
    rw [e'] at ho
    exact absurd ho (not_open_finish _ _ _ _)

/-- Events of other connections leave an unshared session alone. -/
theorem frame_session {cfg : AuthConfig} {srv : Server} {c : Nat} {k : Conn} (hinv : Inv srv)
    (hk : srv.conns.get c = some k)
    (hex : ∀ c' k', srv.conns.get c' = some k' → k'.session = k.session → c' = c) {e : Event}
    (hu : Undisturbed c k.key e) (hl : ¬ LocalTo c e) :
    (srv.step cfg e).1.conns.get c = some k ∧
    (srv.step cfg e).1.heap.get k.session = srv.heap.get k.session ∧
    ∀ c' k', (srv.step cfg e).1.conns.get c' = some k' → k'.session = k.session → c' = c := by
  have loc : ∀ c', c' ≠ c → LocalEffect srv (srv.step cfg e).1 c' →
      (srv.step cfg e).1.conns.get c = some k ∧
      (srv.step cfg e).1.heap.get k.session = srv.heap.get k.session ∧
      ∀ c' k', (srv.step cfg e).1.conns.get c' = some k' → k'.session = k.session → c' = c := by
    intro c' hc' he
    refine ⟨?_, ?_, fun c1 k1 h1 => hex c1 k1 ?_⟩
    · rcases he.conns with e1 | e1
      · rw [e1]; exact hk
      · rw [e1, Map.get_erase, if_neg hc']; exact hk
    · rcases he.heap with e1 | ⟨k', s, s', h1, _, e1⟩
      · rw [e1]
      · rw [e1, Map.get_insert, if_neg]
        intro h; exact hc' (hex c' k' h1 h)
    · rcases he.conns with e1 | e1
      · rw [e1] at h1; exact h1
      · rw [e1] at h1; exact get_erase_some _ _ _ _ h1
  cases e with
  | first c' p uuid w =>
    rcases step_first_cases cfg srv c' p uuid w with ⟨h', _⟩ | ⟨q, rfl, hq, h'⟩
    · rw [h']; exact ⟨hk, rfl, hex⟩
    · rw [h']
      have hne : c' ≠ c := by rintro rfl; exact hq.1 ⟨k, hk⟩
      obtain ⟨r, hr⟩ := start_effect srv c' q uuid w
      have hrk : r ≠ k.session := by
        rintro rfl
        rcases hr.table with ⟨_, a, _⟩ | ⟨a, _⟩
        · exact hu.connect c' q uuid w rfl (hinv.keyed c k _ hk a).symm
        · have := (hinv.conns c k hk).1; omega
      obtain ⟨x, hx⟩ := hr.heap
      refine ⟨?_, ?_, fun c1 k1 h1 h2 => ?_⟩
      · rw [hr.conns]
        cases w with
        | false => exact hk
        | true => simp only [if_true, Map.get_insert, if_neg hne]; exact hk
      · rw [hx, Map.get_insert, if_neg hrk]
      · rw [hr.conns] at h1
        cases w with
        | false => exact hex c1 k1 h1 h2
        | true =>
          simp only [if_true, Map.get_insert] at h1
          split at h1
          · simp only [Option.some.injEq] at h1
            rw [← h1] at h2; exact absurd h2 hrk
          · exact hex c1 k1 h1 h2
  | recv c' p =>
    exact loc c' (by rintro rfl; exact hl (.recv p)) (step_local cfg srv (.recv p))
  | deliver c' f =>
    exact loc c' (by rintro rfl; exact hl (.deliver f)) (step_local cfg srv (.deliver f))
  | close c' => exact loc c' (by rintro rfl; exact hl .close) (step_local cfg srv .close)
  | abort c' =>
    have hne : c' ≠ c := by rintro rfl; exact hu.abort rfl
    refine ⟨?_, rfl, fun c1 k1 h1 => hex c1 k1 (get_erase_some _ _ _ _ h1)⟩
    simp only [Server.step, Map.get_erase, if_neg hne]; exact hk
  | restart => exact absurd rfl hu.restart

theorem SoleWill.step {cfg : AuthConfig} {srv : Server} {c : Nat} {id : Str} {w : Option StoredWill}
    (h : SoleWill srv c id w) {e : Event} (hu : Undisturbed c id e)
    (ho : (srv.step cfg e).1.isOpen c) :
    SoleWill (srv.step cfg e).1 c id w ∧
    willPublications c (srv.step cfg e).1.world.log = willPublications c srv.world.log := by
  obtain ⟨k, s, hk, hkey, hs, hw, hex⟩ := h.holds
  subst hkey
  have ha : srv.at c = some s := at_eq_some.mpr ⟨k, hk, hs⟩
  rw [step_log, willPublications_append]
  by_cases hl : LocalTo c e
  · constructor
    · obtain ⟨s', ha', hw', _⟩ := own_open hl ha ho
      obtain ⟨k', hk', hs'⟩ := at_eq_some.mp ha'
      have hle := step_local cfg srv hl
      have hcs : (srv.step cfg e).1.conns = srv.conns := by
        rcases hle.conns with e1 | e1
        · exact e1
        · rw [e1, Map.get_erase] at hk'; simp at hk'
      rw [hcs, hk] at hk'
      cases hk'
      exact ⟨h.inv.step cfg e, k, s', by rw [hcs]; exact hk, rfl, hs', hw'.trans hw,
        by rw [hcs]; exact hex⟩
    · have : willPublications c (eventCalls cfg srv e) = [] := by
        cases hl with
        | recv p =>
          simp only [eventCalls, ha]
          rw [if_pos (Or.inr ho)]
          simp [willPublications_packet]
        | deliver f => rfl
        | close =>
          obtain ⟨s', ha', _⟩ := own_open .close ha ho
          obtain ⟨k', hk', hs', e'⟩ := onConn_at ha (fun r s => (srv.finish c r s, {}))
          have e'' : srv.step cfg (.close c) = (srv.finish c k'.session s, {}) := e'
          rw [e''] at ho
          exact absurd ho (not_open_finish _ _ _ _)
      rw [this, List.append_nil]
  · obtain ⟨h1, h2, h3⟩ := frame_session (cfg := cfg) h.inv hk hex hu hl
    refine ⟨⟨h.inv.step cfg e, k, s, h1, rfl, h2.trans hs, hw, h3⟩, ?_⟩
    rw [willPublications_foreign cfg srv c e (Or.inl hl), List.append_nil]

theorem SoleWill.run {cfg : AuthConfig} {c : Nat} {id : Str} {w : Option StoredWill} (es : List Event) :
    ∀ {srv : Server}, SoleWill srv c id w → (∀ e ∈ es, Undisturbed c id e) →
      (∀ es1 es2, es = es1 ++ es2 → (srv.run cfg es1).isOpen c) →
      SoleWill (srv.run cfg es) c id w ∧
      willPublications c (srv.run cfg es).world.log = willPublications c srv.world.log := by
  induction es with
  | nil => intro srv h _ _; exact ⟨h, rfl⟩
  | cons e es ih =>
    intro srv h hu ho
    obtain ⟨h1, h2⟩ := h.step (cfg := cfg) (hu e (by simp)) (ho [e] es rfl)
    obtain ⟨h3, h4⟩ := ih h1 (fun e' he' => hu e' (by simp [he']))
      (fun es1 es2 hs => ho (e :: es1) es2 (by simp [hs]))
    exact ⟨h3, h4.trans h2⟩

/-- A connection that is not open stays so until a first packet arrives on it. -/
theorem not_open_step {cfg : AuthConfig} {srv : Server} {c : Nat} {e : Event}
    (h : ¬ srv.isOpen c) (he : ∀ p uuid w, e ≠ .first c p uuid w) : ¬ (srv.step cfg e).1.isOpen c := by
  rintro ⟨k, hk⟩
  have loc : ∀ c', LocalTo c' e → False := by
    intro c' hl
    rcases (step_local cfg srv hl).conns with e1 | e1
    · rw [e1] at hk; exact h ⟨k, hk⟩
    · rw [e1] at hk; exact h ⟨k, get_erase_some _ _ _ _ hk⟩
  cases e with
  | first c' p uuid w =>
    rcases step_first_cases cfg srv c' p uuid w with ⟨h', _⟩ | ⟨q, rfl, hq, h'⟩
    · rw [h'] at hk; exact h ⟨k, hk⟩
    · have hne : c' ≠ c := by rintro rfl; exact he _ _ _ rfl
      obtain ⟨r, hr⟩ := start_effect srv c' q uuid w
      rw [h', hr.conns] at hk
      cases w with
      | false => exact h ⟨k, hk⟩
      | true => simp only [if_true, Map.get_insert, if_neg hne] at hk; exact h ⟨k, hk⟩
  | recv c' p => exact loc c' (.recv p)
  | deliver c' f => exact loc c' (.deliver f)
  | close c' => exact loc c' .close
  | abort c' => exact h ⟨k, get_erase_some _ _ _ _ hk⟩
  | restart => simp [Server.step, Map.get] at hk

/-- While a connection stays open, it was open at every moment before (no second first packet). -/
theorem open_prefix {cfg : AuthConfig} {c : Nat} (es : List Event) : ∀ {srv : Server},
    (∀ e ∈ es, ∀ p uuid w, e ≠ .first c p uuid w) → (srv.run cfg es).isOpen c →
    ∀ es1 es2, es = es1 ++ es2 → (srv.run cfg es1).isOpen c := by
  intro srv he ho es1 es2 hs
  subst hs
  rw [run_append] at ho
  by_cases h : (srv.run cfg es1).isOpen c
  · exact h
  · exfalso
    generalize srv.run cfg es1 = q at *
    have he2 : ∀ e ∈ es2, ∀ p uuid w, e ≠ Event.first c p uuid w :=
      fun e hm => he e (List.mem_append_right _ hm)
    clear he
    induction es2 generalizing q with
    | nil => exact h ho
    | cons e es2 ih =>
      exact ih _ ho (not_open_step h (he2 e (by simp))) (fun e' hm => he2 e' (by simp [hm]))

theorem closed_run {cfg : AuthConfig} {c : Nat} (es : List Event) : ∀ {srv : Server},
    ¬ srv.isOpen c → (∀ e ∈ es, ∀ p uuid w, e ≠ Event.first c p uuid w) →
    willPublications c (srv.run cfg es).world.log = willPublications c srv.world.log := by
  induction es with
  | nil => intro srv _ _; rfl
  | cons e es ih =>
    intro srv h he
    rw [run_cons, ih (not_open_step h (he e (by simp))) (fun e' hm => he e' (by simp [hm])), step_log,
      willPublications_append, willPublications_foreign, List.append_nil]
    right
    cases ha : srv.at c with
    | none => rfl
    | some s => obtain ⟨k, hk, _⟩ := at_eq_some.mp ha; exact absurd ⟨k, hk⟩ h

open Classical in
/-- The event that ends an unshared connection. -/
theorem SoleWill.ending {cfg : AuthConfig} {srv : Server} {c : Nat} {id : Str}
    {w : Option StoredWill} (h : SoleWill srv c id w) {e : Event} (hu : Undisturbed c id e)
    (ho : ¬ (srv.step cfg e).1.isOpen c) (hp : (srv.step cfg e).2.panicked = false) :
    LocalTo c e ∧ ∃ s, srv.at c = some s ∧ s.will = w ∧
      willPublications c (srv.step cfg e).1.world.log = willPublications c srv.world.log ++
        (if ∃ d, e = .recv c (.disconnect d) then [] else willCalls c s) := by
  obtain ⟨k, s, hk, hkey, hs, hw, hex⟩ := h.holds
  subst hkey
  have ha : srv.at c = some s := at_eq_some.mpr ⟨k, hk, hs⟩
  have hl : LocalTo c e := by
    by_cases hl : LocalTo c e
    · exact hl
    · obtain ⟨h1, _⟩ := frame_session (cfg := cfg) h.inv hk hex hu hl
      exact absurd ⟨k, h1⟩ ho
  refine ⟨hl, s, ha, hw, ?_⟩
  rw [step_log, willPublications_append]
  congr 1
  cases hl with
  | recv p =>
    simp only [eventCalls, ha, willPublications_append, willPublications_packet, List.nil_append]
    by_cases hd : ∃ d, p = .disconnect d
    · rw [if_pos (Or.inl hd), if_pos]
      · rfl
      · obtain ⟨d, rfl⟩ := hd; exact ⟨d, rfl⟩
    · rw [if_neg, if_neg]
      · exact willPublications_own _ _
      · rintro ⟨d, hd'⟩; cases hd'; exact hd ⟨d, rfl⟩
      · rintro (h | h)
        · exact hd h
        · exact ho h
  | deliver f =>
    exfalso
    obtain ⟨k', hk', hs', e⟩ := onConn_at ha (fun r s => srv.deliver c r s f)
    have e' : srv.step cfg (.deliver c f) = srv.deliver c k'.session s f := e
    rw [e', Server.deliver] at ho hp
    cases hpo : s.processOutgoing srv.world.broker.tree f with
    | idle => rw [hpo] at ho; exact ho ⟨k, hk⟩
    | packet s' p => rw [hpo] at ho; exact ho ⟨k, hk⟩
    | panicked s' => rw [hpo] at hp; simp at hp
  | close =>
    simp only [eventCalls, ha, willPublications_own]
    rw [if_neg]
    rintro ⟨d, hd⟩; cases hd

/-- Opening a connection on a session nobody else uses. -/
theorem SoleWill.start {cfg : AuthConfig} {srv : Server} (hr : srv.Reachable cfg) {c : Nat}
    {p : ConnectPacket} (uuid : Str) (ha : Admitted cfg srv c p)
    (hother : ∀ c', srv.clientOf c' ≠ some p.payload.clientId)
    (hstored : p.flags.cleanStart = true ∨ (∃ r, srv.sessions.get p.payload.clientId = some r) ∨
      srv.store.getWill p.payload.clientId = none) :
    SoleWill (srv.step cfg (.first c (.connect p) uuid true)).1 c p.payload.clientId
      (willOfConnect p) := by
  refine ⟨hr.inv.step cfg _, ?_⟩
  rw [step_first ha]
  obtain ⟨r, hS⟩ := start_effect srv c p uuid true
  have hwill : (srv.find p.payload.clientId p.flags.cleanStart).will = none := by
    unfold Server.find
    rcases hstored with h | ⟨r, h⟩ | h
    · simp [h, Found.none]
    · cases p.flags.cleanStart <;> simp [h, Found.none]
    · cases p.flags.cleanStart with
      | true => rfl
      | false =>
        simp only [Bool.false_eq_true, if_false]
        split
        · rfl
        · cases srv.store.loadSession p.payload.clientId with
          | none => rfl
          | some st => exact h
  have hc : (srv.start c p uuid true).1.conns.get c = some ⟨r, p.payload.clientId⟩ := by
    rw [hS.conns]; simp [Map.get_insert]
  obtain ⟨s, hs⟩ := (hr.inv.start hS).conns c _ hc |>.2
  refine ⟨⟨r, p.payload.clientId⟩, s, hc, rfl, hs, ?_, ?_⟩
  · -- the will of the session
    let e := (srv.discard p.payload.clientId p.flags.cleanStart).enter p
    have hre : e.2.1 = r := by
      have h2 : (srv.start c p uuid true).1.conns.get c = some ⟨e.2.1, p.payload.clientId⟩ :=
        (Map.get_insert _ _ _ _).trans (if_pos rfl)
      rw [hc] at h2
      simpa using h2.symm
    have hheap : (srv.start c p uuid true).1.heap.get r =
        some (restoreWill ((e.2.2.begin uuid (srv.find p.payload.clientId p.flags.cleanStart).resume).1.restoreSubscriptions
          (e.1.mapStore (saveStart (e.2.2.begin uuid (srv.find p.payload.clientId p.flags.cleanStart).resume).1
            (srv.find p.payload.clientId p.flags.cleanStart).subscriptions)).world
          (srv.find p.payload.clientId p.flags.cleanStart).subscriptions).1
          (srv.find p.payload.clientId p.flags.cleanStart).will) := by
      rw [← hre]
      exact (Map.get_insert _ _ _ _).trans (if_pos rfl)
    rw [hheap, hwill] at hs
    simp only [restoreWill, Option.some.injEq] at hs
    rw [← hs]
    have hrest : ∀ (fs : List Str) (s : Session) (w : World),
        (s.restoreSubscriptions w fs).1.will = s.will := by
      intro fs
      induction fs with
      | nil => intro s w; rfl
      | cons f fs ih => intro s w; simp only [Session.restoreSubscriptions, ih]; rfl
    rw [hrest]
    obtain ⟨e1, e2, e3⟩ := enter_session (srv.discard p.payload.clientId p.flags.cleanStart) p
    rw [(begin_eq _ uuid _ p e1 e2).2.2.1, e3]
  · intro c' k' hk' hses
    by_cases hcc : c' = c
    · exact hcc
    · exfalso
      rw [hS.conns] at hk'
      simp only [if_true, Map.get_insert, if_neg (Ne.symm hcc)] at hk'
      have hses : k'.session = r := hses
      rcases hS.table with ⟨_, a, _⟩ | ⟨a, _⟩
      · have := hr.inv.keyed c' k' _ hk' (by rw [hses]; exact a)
        exact hother c' (by simp [clientOf, hk', this])
      · have := (hr.inv.conns c' k' hk').1; omega

/-! ## The property -/

/-- Client `p.payload.clientId` connects with a will, nobody else is connected with or connects with
the same identifier, no older will of the client is stored, and the server neither restarts nor
crashes.  Then
* as long as the connection is open, its will is not published;
* when event `e` ends it, the will is published exactly once, with the topic, payload, QoS and retain
  flag of the CONNECT — unless `e` is a DISCONNECT packet, in which case it is not published;
* afterwards it is never published again.
Missing from C42: the cases excluded by the hypotheses, see the theorems below. -/
theorem C42_will_partial (cfg : AuthConfig) (srv : Server) (hr : srv.Reachable cfg) (c : Nat)
    (p : ConnectPacket) (uuid : Str) (ha : Admitted cfg srv c p)
    (hother : ∀ c', srv.clientOf c' ≠ some p.payload.clientId)
    (hstored : p.flags.cleanStart = true ∨ (∃ r, srv.sessions.get p.payload.clientId = some r) ∨
      srv.store.getWill p.payload.clientId = none)
    (t : Str) (payload : Buf) (hf : p.flags.willFlag = true) (ht : p.payload.willTopic = some t)
    (hp : p.payload.willPayload = some payload)
    (es : List Event) (hes : ∀ e ∈ es, Undisturbed c p.payload.clientId e ∧
      ∀ p uuid w, e ≠ .first c p uuid w)
    (ho : (srv.run cfg (.first c (.connect p) uuid true :: es)).isOpen c) :
    let before := srv.run cfg (.first c (.connect p) uuid true :: es)
    willPublications c before.world.log = willPublications c srv.world.log ∧
    ∀ e, Undisturbed c p.payload.clientId e → ¬ (before.step cfg e).1.isOpen c →
      (before.step cfg e).2.panicked = false →
      ∀ es2, (∀ e ∈ es2, ∀ p uuid w, e ≠ .first c p uuid w) →
        ((∃ d, e = .recv c (.disconnect d)) →
          willPublications c ((before.step cfg e).1.run cfg es2).world.log =
            willPublications c srv.world.log) ∧
        ((¬ ∃ d, e = .recv c (.disconnect d)) →
          willPublications c ((before.step cfg e).1.run cfg es2).world.log =
            willPublications c srv.world.log ++
              [.publish (.will c) t ⟨none, t, false, p.flags.willQos, p.flags.willRetain, some payload⟩]) := by
  intro before
  have h0 := SoleWill.start hr uuid ha hother hstored
  obtain ⟨h1, h2⟩ := SoleWill.run (cfg := cfg) es h0 (fun e he => (hes e he).1)
    (open_prefix es (fun e he => (hes e he).2) ho)
  have hlog0 : willPublications c (srv.step cfg (.first c (.connect p) uuid true)).1.world.log =
      willPublications c srv.world.log := by
    rw [step_log, willPublications_append, willPublications_foreign _ _ _ _ (Or.inl (by rintro ⟨⟩)),
      List.append_nil]
  have hb : willPublications c before.world.log = willPublications c srv.world.log := h2.trans hlog0
  refine ⟨hb, fun e hu hclosed hnp es2 hes2 => ?_⟩
  rw [closed_run es2 hclosed hes2]
  obtain ⟨hl, s, hs, hsw, hlog⟩ := SoleWill.ending (cfg := cfg) h1 hu hclosed hnp
  have hw : willCalls c s =
      [.publish (.will c) t ⟨none, t, false, p.flags.willQos, p.flags.willRetain, some payload⟩] := by
    simp [willCalls, hsw, willOfConnect, hf, ht, hp]
  refine ⟨fun hd => hlog.trans ?_, fun hd => hlog.trans ?_⟩
  · rw [if_pos hd, List.append_nil]; exact hb
  · rw [if_neg hd, hw]; exact congrArg (· ++ _) hb

/-- Under the same conditions a client that connects without a will publishes none. -/
theorem C42_no_will_partial (cfg : AuthConfig) (srv : Server) (hr : srv.Reachable cfg) (c : Nat)
    (p : ConnectPacket) (uuid : Str) (ha : Admitted cfg srv c p)
    (hother : ∀ c', srv.clientOf c' ≠ some p.payload.clientId)
    (hstored : p.flags.cleanStart = true ∨ (∃ r, srv.sessions.get p.payload.clientId = some r) ∨
      srv.store.getWill p.payload.clientId = none)
    (hf : p.flags.willFlag = false)
    (es : List Event) (hes : ∀ e ∈ es, Undisturbed c p.payload.clientId e ∧
      ∀ p uuid w, e ≠ .first c p uuid w) :
    willPublications c (srv.run cfg (.first c (.connect p) uuid true :: es)).world.log =
      willPublications c srv.world.log := by
  have h0 := SoleWill.start hr uuid ha hother hstored
  have hn : willOfConnect p = none := by simp [willOfConnect, hf]
  rw [hn] at h0
  have hlog0 : willPublications c (srv.step cfg (.first c (.connect p) uuid true)).1.world.log =
      willPublications c srv.world.log := by
    rw [step_log, willPublications_append, willPublications_foreign _ _ _ _ (Or.inl (by rintro ⟨⟩)),
      List.append_nil]
  rw [run_cons]
  refine Eq.trans ?_ hlog0
  generalize (srv.step cfg (.first c (.connect p) uuid true)).1 = q at h0
  clear hlog0
  induction es generalizing q with
  | nil => rfl
  | cons e es ih =>
    have hu := (hes e (by simp)).1
    rw [run_cons]
    by_cases ho : (q.step cfg e).1.isOpen c
    · obtain ⟨h1, h2⟩ := h0.step (cfg := cfg) hu ho
      rw [ih (fun e' he' => hes e' (by simp [he'])) _ h1, h2]
    · rw [closed_run es ho (fun e' he' => (hes e' (by simp [he'])).2), step_log,
        willPublications_append]
      by_cases hl : LocalTo c e
      · obtain ⟨k, s, hk, hkey, hs, hw, hex⟩ := h0.holds
        have hat : q.at c = some s := at_eq_some.mpr ⟨k, hk, hs⟩
        have hwc : willCalls c s = [] := by simp [willCalls, hw]
        cases hl with
        | recv p =>
          simp only [eventCalls, hat, willPublications_append, willPublications_packet, hwc]
          simp [willPublications]
        | deliver f => simp [eventCalls, willPublications]
        | close => simp [eventCalls, hat, hwc, willPublications]
      · rw [willPublications_foreign cfg q c e (Or.inl hl), List.append_nil]

/-- A history that meets the hypotheses: client `z` connects to a server with other clients, whose
events follow; then its connection breaks. -/
example : Admitted exCfg exServer 2 (exConnect (str "z") true) ∧
    (∀ c', exServer.clientOf c' ≠ some (str "z")) ∧
    Undisturbed 2 (str "z") (.recv 0 (.publish exPublish)) ∧
    (exServer.run exCfg [.first 2 (.connect (exConnect (str "z") true)) [] true,
      .recv 0 (.publish exPublish)]).isOpen 2 := by
  refine ⟨⟨?_, fun _ => ⟨str "u", str "p", _, rfl, rfl, rfl, by decide +kernel⟩⟩, ?_, ?_, ?_⟩
  · have h : exServer.conns.get 2 = none := by decide +kernel
    rintro ⟨k, hk⟩; rw [h] at hk; exact absurd hk (by simp)
  · have h : exServer.conns = [(0, ⟨0, str "x"⟩)] := by decide +kernel
    intro c'
    simp only [clientOf, h, Map.get]
    split <;> decide +kernel
  · exact ⟨by simp, by simp, by simp⟩
  · exact Option.isSome_iff_exists.mp (by decide +kernel)

/-! ## Where C42 fails -/

/-- C42 is false when two connections use the same client identifier: the session's will is replaced
by the second CONNECT.  Here the second client has no will, and then the will of the first one is not
published when its connection breaks. -/
theorem C42_same_id_false (cfg : AuthConfig) (srv : Server) (hr : srv.Reachable cfg) (c1 c2 : Nat)
    (hc : c1 ≠ c2) (p1 p2 : ConnectPacket) (uuid1 uuid2 : Str) (h1 : Admitted cfg srv c1 p1)
    (h2 : Admitted cfg srv c2 p2) (hid : p1.payload.clientId = p2.payload.clientId)
    (hcl : p2.flags.cleanStart = false) (hw : p2.flags.willFlag = false) :
    let before := srv.run cfg [.first c1 (.connect p1) uuid1 true, .first c2 (.connect p2) uuid2 true]
    before.isOpen c1 ∧ ¬ (before.step cfg (.close c1)).1.isOpen c1 ∧
    willPublications c1 (before.step cfg (.close c1)).1.world.log =
      willPublications c1 srv.world.log := by
  intro before
  obtain ⟨r, hS⟩ := start_effect srv c1 p1 uuid1 true
  have hstep : (srv.step cfg (.first c1 (.connect p1) uuid1 true)).1 = (srv.start c1 p1 uuid1 true).1 := by
    rw [step_first h1]
  have hinv1 : Inv (srv.start c1 p1 uuid1 true).1 := hr.inv.start hS
  have hlog1 : willPublications c1 (srv.start c1 p1 uuid1 true).1.world.log =
      willPublications c1 srv.world.log := by
    rw [← hstep, step_log, willPublications_append,
      willPublications_foreign _ _ _ _ (Or.inl (by rintro ⟨⟩)), List.append_nil]
  generalize hsrv1 : (srv.start c1 p1 uuid1 true).1 = srv1 at *
  have hconn1 : srv1.conns.get c1 = some ⟨r, p1.payload.clientId⟩ := by
    rw [hS.conns]; simp [Map.get_insert]
  have hses1 : srv1.sessions.get p2.payload.clientId = some r := by
    rcases hS.table with ⟨_, a, _, b, _⟩ | ⟨_, _, d⟩
    · rw [b, ← hid]; exact a
    · rw [d, if_pos hid]
  have h2' : Admitted cfg srv1 c2 p2 := by
    refine ⟨?_, h2.2⟩
    rintro ⟨k, hk⟩
    rw [hS.conns] at hk
    simp only [if_true, Map.get_insert, if_neg hc] at hk
    exact h2.1 ⟨k, hk⟩
  have hb : before = (srv1.start c2 p2 uuid2 true).1 := by
    show ((srv.step cfg _).1.step cfg _).1 = _
    rw [hstep, step_first h2']
  obtain ⟨s0, hs0⟩ := (hinv1.table _ _ hses1).2
  have hdis : srv1.discard p2.payload.clientId p2.flags.cleanStart = srv1 := by rw [hcl]; rfl
  have hent : srv1.enter p2 = (srv1, r, s0.setConnect p2) := by simp [Server.enter, hses1, hs0]
  have hfind : srv1.find p2.payload.clientId p2.flags.cleanStart = ⟨true, [], none, []⟩ := by
    simp [Server.find, hcl, hses1]
  have hcon : before.conns = srv1.conns.insert c2 ⟨r, p2.payload.clientId⟩ := by
    rw [hb]; simp [Server.start, hdis, hent]
  have hheap : ∃ s, before.heap.get r = some s ∧ s.will = none := by
    rw [hb]
    simp only [Server.start, hdis, hent, hfind, if_true, heap_put, Map.get_insert,
      Session.restoreSubscriptions, restoreWill]
    refine ⟨_, rfl, ?_⟩
    rw [(begin_eq (s0.setConnect p2) uuid2 true p2 rfl rfl).2.2.1]
    simp [Session.setConnect, willOfConnect, hw]
  obtain ⟨s, hs, hsw⟩ := hheap
  have hc1 : before.conns.get c1 = some ⟨r, p1.payload.clientId⟩ := by
    rw [hcon, Map.get_insert, if_neg (Ne.symm hc)]; exact hconn1
  have hat : before.at c1 = some s := at_eq_some.mpr ⟨_, hc1, hs⟩
  refine ⟨⟨_, hc1⟩, ?_, ?_⟩
  · obtain ⟨k, _, _, e⟩ := onConn_at hat (fun r s => (before.finish c1 r s, {}))
    have e' : before.step cfg (.close c1) = (before.finish c1 k.session s, {}) := e
    rw [e']; exact not_open_finish _ _ _ _
  · rw [step_log, willPublications_append]
    have : eventCalls cfg before (.close c1) = [] := by simp [eventCalls, hat, willCalls, hsw]
    rw [this]
    simp only [willPublications, List.filter_nil, List.append_nil]
    have hl2 := log_start srv1 c2 p2 uuid2 true
    rw [hfind] at hl2
    rw [hb, hl2]
    simpa [willPublications] using hlog1

/-- C42 is false for a client whose session is resumed from storage (after a restart, with a storage
back end that survives it): a will stored earlier is taken over even if the new CONNECT has none. -/
theorem C42_stored_will_false (cfg : AuthConfig) (srv : Server) (c : Nat) (p : ConnectPacket)
    (uuid : Str) (ha : Admitted cfg srv c p) (hcl : p.flags.cleanStart = false)
    (hid : srv.sessions.get p.payload.clientId = none) (st : SessionState)
    (hst : srv.store.loadSession p.payload.clientId = some st) (w : StoredWill)
    (hw : srv.store.getWill p.payload.clientId = some w) :
    willPublications c (srv.run cfg [.first c (.connect p) uuid true, .close c]).world.log =
      willPublications c srv.world.log ++
        [.publish (.will c) w.topic ⟨none, w.topic, false, w.qos, w.retain, some w.payload⟩] := by
  have hb : (srv.step cfg (.first c (.connect p) uuid true)).1 = (srv.start c p uuid true).1 := by
    rw [step_first ha]
  have hfind : srv.find p.payload.clientId p.flags.cleanStart =
      ⟨true, st.subscriptions, some w, srv.store.getAllInflight p.payload.clientId⟩ := by
    simp [Server.find, hcl, hid, hst, hw]
  have hat : ∃ s, (srv.start c p uuid true).1.at c = some s ∧ s.will = some w := by
    refine ⟨_, at_eq_some.mpr ⟨_, (Map.get_insert _ _ _ _).trans (if_pos rfl),
      (Map.get_insert _ _ _ _).trans (if_pos rfl)⟩, ?_⟩
    rw [hfind]; rfl
  obtain ⟨s, hs, hsw⟩ := hat
  show willPublications c ((srv.step cfg _).1.step cfg (.close c)).1.world.log = _
  rw [hb, step_log, willPublications_append]
  have h1 : eventCalls cfg (srv.start c p uuid true).1 (.close c) = willCalls c s := by
    simp [eventCalls, hs]
  rw [h1, willPublications_own, log_start, willPublications_append]
  simp [willPublications_subscribes, willCalls, hsw]

example : let srv := (exServer.run exCfg [.restart])
    srv.sessions.get (str "x") = none ∧ srv.store.loadSession (str "x") = some ⟨str "x", [str "a/+"], false⟩ ∧
    srv.store.getWill (str "x") = some ⟨str "gone", str "bye", .atLeastOnce, false⟩ := by
  decide +kernel

/-- C42 is false when the task of the connection panics: the connection ends, and the will is not
published. -/
theorem C42_panic_false (cfg : AuthConfig) (srv : Server) (c : Nat) :
    ¬ (srv.step cfg (.abort c)).1.isOpen c ∧
    (srv.step cfg (.abort c)).1.world.log = srv.world.log := by
  refine ⟨?_, rfl⟩
  rintro ⟨k, hk⟩
  simp [Server.step, Map.get_erase] at hk

/-- DISCONNECT with any reason removes the will, also with the MQTT 5 reason "disconnect with will
message" (0x04), which asks for it to be published. -/
theorem C42_disconnect_with_will_false (cfg : AuthConfig) (srv : Server) (c : Nat) (s : Session)
    (h : srv.at c = some s) (d : DisconnectPacket) (hd : d.reason = .disconnectWithWillMessage) :
    (srv.step cfg (.recv c (.disconnect d))).1.world.log = srv.world.log ∧
    ¬ (srv.step cfg (.recv c (.disconnect d))).1.isOpen c := by
  clear hd
  constructor
  · rw [step_log]
    simp [eventCalls, h, packetCalls]
  · obtain ⟨k, hk, hs, e⟩ := step_disconnect (cfg := cfg) (d := d) h
    rw [e]; exact not_open_finish _ _ _ _

example : ∃ s, exServer.at 0 = some s ∧ s.will = some ⟨str "gone", str "bye", .atLeastOnce, false⟩ := by
  have h : (exServer.at 0).map (·.will) = some (some ⟨str "gone", str "bye", .atLeastOnce, false⟩) := by
    decide +kernel
  exact Option.map_eq_some_iff.mp h

end Mercurio
