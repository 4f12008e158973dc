import Verif.Lemmas.Storage

/-!
# C32, C33: storage back ends
-/

namespace Mercurio

open Spec

/-! ## C32: stored data is a per-client map -/

/-- C32 (sessions): after any operations, loading a session gives the one last saved for that
client and not deleted since. -/
theorem C32_session (ops : List StorageOp) (c : Str) :
    ((MemoryStore.new.run ops).step (.loadSession c)).2 = .session (sessionOf c ops) := by
  simp only [MemoryStore.step, MemoryStore.loadSession, mem_session]

/-- C32 (wills). -/
theorem C32_will (ops : List StorageOp) (c : Str) :
    ((MemoryStore.new.run ops).step (.getWill c)).2 = .will (willOf c ops) := by
  simp only [MemoryStore.step, MemoryStore.getWill, mem_will]

/-- C32 (in-flight messages by packet id). -/
theorem C32_inflight (ops : List StorageOp) (c : Str) (id : UInt16) :
    ((MemoryStore.new.run ops).step (.getInflight c id)).2 = .inflight (inflightOf c id ops) := by
  simp only [MemoryStore.step, mem_inflight]

/-- C32 (all in-flight messages of a client): exactly the stored ones, one per packet id. -/
theorem C32_all_inflight (ops : List StorageOp) (c : Str) :
    ∃ ids : List UInt16, ids.Nodup ∧ (∀ id, id ∈ ids ↔ (inflightOf c id ops).isSome) ∧
      ((MemoryStore.new.run ops).step (.getAllInflight c)).2 =
        .inflights (ids.filterMap fun id => inflightOf c id ops) := by
  have hok := MemoryStore.run_ok ops
  have hget := mem_inflight ops c
  generalize MemoryStore.new.run ops = s at *
  simp only [MemoryStore.step, MemoryStore.getAllInflight]
  unfold MemoryStore.getInflight at hget
  cases hm : s.inflight.get c with
  | none =>
    simp only [hm] at hget
    exact ⟨[], by simp, fun id => by simp [← hget id], by simp⟩
  | some msgs =>
    simp only [hm] at hget
    have hnd := hok.inflight c msgs hm
    refine ⟨Map.keys msgs, hnd, fun id => ?_, ?_⟩
    · rw [← hget id, Map.get_isSome]
    · have : ∀ l : Map UInt16 Inflight, (∀ e ∈ l, e ∈ msgs) →
          l.map Prod.snd = (l.map Prod.fst).filterMap fun id => inflightOf c id ops := by
        intro l
        induction l with
        | nil => intro _; rfl
        | cons e l ih =>
          intro hl
          have he : inflightOf c e.1 ops = some e.2 := by
            rw [← hget]; exact (Map.mem_iff_get msgs hnd e.1 e.2).mp (hl e (by simp))
          simp only [List.map_cons, List.filterMap_cons, he]
          rw [ih (fun x hx => hl x (by simp [hx]))]
      simp only [StorageOut.inflights.injEq]
      exact this msgs (fun e he => he)

/-- C32 (listing sessions): every client with a stored session, once. -/
theorem C32_list_sessions (ops : List StorageOp) :
    ∃ names : List Str, names.Nodup ∧ (∀ c, c ∈ names ↔ (sessionOf c ops).isSome) ∧
      ((MemoryStore.new.run ops).step .listSessions).2 = .names names := by
  refine ⟨(MemoryStore.new.run ops).sessions.keys, (MemoryStore.run_ok ops).sessions,
    fun c => ?_, rfl⟩
  rw [← mem_session, Map.get_isSome]

/-- C32 (retained messages): after any operations, a lookup gives one message for each topic that
has a stored message and that the filter matches: the stored one, marked as retained. -/
theorem C32_retained (ops : List StorageOp) (f : Str) (hf : ValidFilter f) :
    ∃ topics : List Str, topics.Nodup ∧
      (∀ t, t ∈ topics ↔ Matches f t ∧ (storedRetained t ops).isSome) ∧
      ((MemoryStore.new.run ops).step (.getRetained f)).2 =
        .messages (topics.filterMap fun t =>
          (storedRetained t ops).map fun m => { m with retain := true }) := by
  have hnd := (MemoryStore.run_ok ops).retained
  have hget := mem_retained ops
  generalize MemoryStore.new.run ops = s at *
  have hmatch : ∀ t, topicMatchesFilter t (splitLevels f) = true ↔ Matches f t := by
    intro t
    rw [matches_iff]
    exact matchLoop_iff _ _ (fun i hi he =>
      ((hf.hash _ (isLevels_split f) i hi (by rw [he]; simp [hashLevel]))).2)
  refine ⟨(s.retained.filter fun e => topicMatchesFilter e.1 (splitLevels f)).map Prod.fst,
    ?_, fun t => ?_, ?_⟩
  · have : ((s.retained.filter fun e => topicMatchesFilter e.1 (splitLevels f)).map Prod.fst) =
        s.retained.keys.filter (fun t => topicMatchesFilter t (splitLevels f)) := by
      rw [Map.keys, List.filter_map]; rfl
    rw [this]; exact hnd.filter _
  · rw [List.mem_map]
    constructor
    · rintro ⟨⟨t', m⟩, he, rfl⟩
      rw [List.mem_filter] at he
      exact ⟨(hmatch _).mp he.2, by rw [← hget, (Map.mem_iff_get _ hnd _ _).mp he.1]; rfl⟩
    · rintro ⟨hm, hs⟩
      rw [← hget] at hs
      obtain ⟨m, hm'⟩ := Option.isSome_iff_exists.mp hs
      exact ⟨(t, m), List.mem_filter.mpr ⟨(Map.mem_iff_get _ hnd _ _).mpr hm', (hmatch t).mpr hm⟩,
        rfl⟩
  · simp only [MemoryStore.step, MemoryStore.getRetained, StorageOut.messages.injEq]
    have : ∀ l : Map Str Message, (∀ e ∈ l, e ∈ s.retained) →
        l.map (fun e => { e.2 with retain := true }) = (l.map Prod.fst).filterMap fun t =>
          (storedRetained t ops).map fun m => { m with retain := true } := by
      intro l
      induction l with
      | nil => intro _; rfl
      | cons e l ih =>
        intro hl
        have he : storedRetained e.1 ops = some e.2 := by
          rw [← hget]; exact (Map.mem_iff_get _ hnd e.1 e.2).mp (hl e (by simp))
        simp only [List.map_cons, List.filterMap_cons, he, Option.map_some]
        rw [ih (fun x hx => hl x (by simp [hx]))]
    exact this _ (fun e he => (List.mem_filter.mp he).1)

example : sessionOf (str "c") [.saveSession (str "c") ⟨str "c", [str "a"], false⟩,
    .saveSession (str "d") ⟨str "d", [], true⟩, .deleteSession (str "d")] =
      some ⟨str "c", [str "a"], false⟩ := by decide +kernel
example : inflightOf (str "c") 7 [.storeInflight (str "c") 7 ⟨7, str "t", none, .atLeastOnce, false⟩,
    .removeInflight (str "c") 8, .removeInflight (str "d") 7] =
      some ⟨7, str "t", none, .atLeastOnce, false⟩ := by decide +kernel

/-! ## C33: SQLite behaves as the in-memory store -/

theorem intToQos_toInt (q : QoS) : intToQos (qosToInt q) = q := by cases q <;> rfl

theorem splitSubs_join (l : List Str) (h : ∀ f ∈ l, (0x2c : UInt8) ∉ f) (h1 : l ≠ [[]]) :
    SqliteStore.splitSubs (SqliteStore.joinSubs l) = l := by
  unfold SqliteStore.splitSubs SqliteStore.joinSubs
  by_cases h0 : l = []
  · subst h0; rfl
  · have hne : ([0x2c] : Str).intercalate l ≠ [] := by
      intro he
      have := splitOn_join 0x2c l h0 h
      rw [he] at this
      exact h1 this.symm
    rw [if_neg (by simpa using hne)]
    exact splitOn_join 0x2c l h0 h

/-- The two stores hold the same data. -/
structure SameData (m : MemoryStore) (q : SqliteStore) : Prop where
  ok : m.Ok
  sessionKeys : q.sessions.keys.Nodup
  retainedKeys : q.retained.keys.Nodup
  inflightKeys : q.inflight.keys.Nodup
  sessions : ∀ c, q.sessions.get c = (m.sessions.get c).map fun s =>
    (SqliteStore.joinSubs s.subscriptions, s.cleanStart)
  sessionsReg : ∀ c s, m.sessions.get c = some s → Regular (.saveSession c s)
  retained : ∀ t, q.retained.get t = (m.retained.get t).map fun s =>
    ⟨s.payload, qosToInt s.qos, s.dup⟩
  retainedReg : ∀ t s, m.retained.get t = some s → s.topic = t
  wills : ∀ c, q.wills.get c = (m.wills.get c).map fun w =>
    ⟨w.topic, w.payload, qosToInt w.qos, w.retain⟩
  inflight : ∀ c id, q.inflight.get (c, id) = (m.getInflight c id).map fun s =>
    ⟨s.topic, s.payload, qosToInt s.qos, s.dup⟩
  inflightReg : ∀ c id s, m.getInflight c id = some s → s.packetId = id

theorem getInflight_store (s : MemoryStore) (c' c : Str) (id' id : UInt16) (m : Inflight) :
    (s.storeInflight c' id' m).getInflight c id =
      if c' = c ∧ id' = id then some m else s.getInflight c id := by
  simp only [MemoryStore.storeInflight, MemoryStore.getInflight, Map.get_insert]
  by_cases hc : c' = c
  · subst hc
    simp only [if_true, Map.get_insert, true_and]
    by_cases hi : id' = id
    · simp [hi]
    · simp only [hi, if_false]
      cases s.inflight.get c' <;> simp [Map.get]
  · simp [hc]

theorem getInflight_remove (s : MemoryStore) (c' c : Str) (id' id : UInt16) :
    (s.removeInflight c' id').getInflight c id =
      if c' = c ∧ id' = id then none else s.getInflight c id := by
  simp only [MemoryStore.removeInflight]
  by_cases hc : c' = c
  · subst hc
    cases hg : s.inflight.get c' with
    | none => simp [MemoryStore.getInflight, hg]
    | some msgs =>
      simp only [MemoryStore.getInflight, Map.get_insert, if_true, Map.get_erase, true_and, hg]
  · cases hg : s.inflight.get c' with
    | none => simp [hc]
    | some msgs => simp [MemoryStore.getInflight, Map.get_insert, hc]

theorem SameData.step {m : MemoryStore} {q : SqliteStore} (h : SameData m q) (op : StorageOp)
    (hr : Regular op) : SameData (m.step op).1 (q.step op).1 := by
  have hok := h.ok.step op
  obtain ⟨h0, h1, h2, h3, h4, h5, h6, h7, h8, h9, h10⟩ := h
  cases op with
  | saveSession c v =>
    refine ⟨hok, Map.nodup_insert _ _ _ h1, h2, h3, fun c' => ?_, fun c' s hs => ?_,
      h6, h7, h8, h9, h10⟩
    · simp only [SqliteStore.step, SqliteStore.saveSession, MemoryStore.step,
        MemoryStore.saveSession, Map.get_insert, h4]
      by_cases hc : c = c' <;> simp [hc]
    · simp only [MemoryStore.step, MemoryStore.saveSession, Map.get_insert] at hs
      by_cases hc : c = c'
      · simp only [hc, if_true, Option.some.injEq] at hs
        rw [← hs, ← hc]; exact hr
      · rw [if_neg hc] at hs; exact h5 c' s hs
  | deleteSession c =>
    refine ⟨hok, Map.nodup_erase _ _ h1, h2, h3, fun c' => ?_, fun c' s hs => ?_,
      h6, h7, h8, h9, h10⟩
    · simp only [SqliteStore.step, SqliteStore.deleteSession, MemoryStore.step,
        MemoryStore.deleteSession, Map.get_erase, h4]
      by_cases hc : c = c' <;> simp [hc]
    · simp only [MemoryStore.step, MemoryStore.deleteSession, Map.get_erase] at hs
      by_cases hc : c = c'
      · simp [hc] at hs
      · rw [if_neg hc] at hs; exact h5 c' s hs
  | storeRetained t v =>
    cases v with
    | none =>
      refine ⟨hok, h1, Map.nodup_erase _ _ h2, h3, h4, h5, fun t' => ?_, fun t' s hs => ?_,
        h8, h9, h10⟩
      · simp only [SqliteStore.step, SqliteStore.storeRetained, MemoryStore.step,
          MemoryStore.storeRetained, Map.get_erase, h6]
        by_cases hc : t = t' <;> simp [hc]
      · simp only [MemoryStore.step, MemoryStore.storeRetained, Map.get_erase] at hs
        by_cases hc : t = t'
        · simp [hc] at hs
        · rw [if_neg hc] at hs; exact h7 t' s hs
    | some v =>
      refine ⟨hok, h1, Map.nodup_insert _ _ _ h2, h3, h4, h5, fun t' => ?_, fun t' s hs => ?_,
        h8, h9, h10⟩
      · simp only [SqliteStore.step, SqliteStore.storeRetained, MemoryStore.step,
          MemoryStore.storeRetained, Map.get_insert, h6]
        by_cases hc : t = t' <;> simp [hc]
      · simp only [MemoryStore.step, MemoryStore.storeRetained, Map.get_insert] at hs
        by_cases hc : t = t'
        · simp only [hc, if_true, Option.some.injEq] at hs
          rw [← hs, ← hc]; exact hr
        · rw [if_neg hc] at hs; exact h7 t' s hs
  | clearAllRetained =>
    refine ⟨hok, h1, ?_, h3, h4, h5, fun t' => ?_, fun t' s hs => ?_, h8, h9, h10⟩
    · simp [SqliteStore.step, SqliteStore.clearAllRetained, Map.keys]
    · simp [SqliteStore.step, SqliteStore.clearAllRetained, MemoryStore.step,
        MemoryStore.clearAllRetained, Map.get]
    · simp [MemoryStore.step, MemoryStore.clearAllRetained, Map.get] at hs
  | storeWill c w =>
    refine ⟨hok, h1, h2, h3, h4, h5, h6, h7, fun c' => ?_, h9, h10⟩
    simp only [SqliteStore.step, SqliteStore.storeWill, MemoryStore.step, MemoryStore.storeWill,
      Map.get_insert, h8]
    by_cases hc : c = c' <;> simp [hc]
  | deleteWill c =>
    refine ⟨hok, h1, h2, h3, h4, h5, h6, h7, fun c' => ?_, h9, h10⟩
    simp only [SqliteStore.step, SqliteStore.deleteWill, MemoryStore.step, MemoryStore.deleteWill,
      Map.get_erase, h8]
    by_cases hc : c = c' <;> simp [hc]
  | storeInflight c id v =>
    refine ⟨hok, h1, h2, Map.nodup_insert _ _ _ h3, h4, h5, h6, h7, h8, fun c' id' => ?_,
      fun c' id' s hs => ?_⟩
    · simp only [MemoryStore.step]
      rw [getInflight_store]
      simp only [SqliteStore.step, SqliteStore.storeInflight, Map.get_insert, h9, Prod.mk.injEq]
      by_cases hc : c = c' ∧ id = id' <;> simp [hc]
    · simp only [MemoryStore.step] at hs
      rw [getInflight_store] at hs
      by_cases hc : c = c' ∧ id = id'
      · simp only [hc, and_self, if_true, Option.some.injEq] at hs
        rw [← hs, ← hc.2]; exact hr
      · rw [if_neg hc] at hs; exact h10 c' id' s hs
  | removeInflight c id =>
    have e : (m.step (.removeInflight c id)).1 = m.removeInflight c id := rfl
    have e1 : (m.removeInflight c id).sessions = m.sessions ∧
        (m.removeInflight c id).retained = m.retained ∧
        (m.removeInflight c id).wills = m.wills := by
      unfold MemoryStore.removeInflight; split <;> simp
    refine ⟨hok, h1, h2, Map.nodup_erase _ _ h3, ?_, ?_, ?_, ?_, ?_, fun c' id' => ?_,
      fun c' id' s hs => ?_⟩
    · rw [e, e1.1]; exact h4
    · rw [e, e1.1]; exact h5
    · rw [e, e1.2.1]; exact h6
    · rw [e, e1.2.1]; exact h7
    · rw [e, e1.2.2]; exact h8
    · rw [e, getInflight_remove]
      simp only [SqliteStore.step, SqliteStore.removeInflight, Map.get_erase, h9, Prod.mk.injEq]
      by_cases hc : c = c' ∧ id = id' <;> simp [hc]
    · rw [e, getInflight_remove] at hs
      by_cases hc : c = c' ∧ id = id'
      · simp [hc] at hs
      · rw [if_neg hc] at hs; exact h10 c' id' s hs
  | loadSession c => exact ⟨h0, h1, h2, h3, h4, h5, h6, h7, h8, h9, h10⟩
  | listSessions => exact ⟨h0, h1, h2, h3, h4, h5, h6, h7, h8, h9, h10⟩
  | getRetained f => exact ⟨h0, h1, h2, h3, h4, h5, h6, h7, h8, h9, h10⟩
  | getWill c => exact ⟨h0, h1, h2, h3, h4, h5, h6, h7, h8, h9, h10⟩
  | getInflight c id => exact ⟨h0, h1, h2, h3, h4, h5, h6, h7, h8, h9, h10⟩
  | getAllInflight c => exact ⟨h0, h1, h2, h3, h4, h5, h6, h7, h8, h9, h10⟩

theorem Map.get_mapVal {K V W : Type} [DecidableEq K] (m : Map K V) (g : V → W) (k : K) :
    Map.get (m.map fun e => (e.1, g e.2)) k = (m.get k).map g := by
  induction m with
  | nil => rfl
  | cons e m ih =>
    obtain ⟨a, v⟩ := e
    by_cases h : a = k
    · simp [Map.get, h]
    · simp [Map.get, h, ih]

theorem SameData.answers {m : MemoryStore} {q : SqliteStore} (h : SameData m q) (op : StorageOp) :
    SameAnswer (m.step op).2 (q.step op).2 := by
  obtain ⟨h0, h1, h2, h3, h4, h5, h6, h7, h8, h9, h10⟩ := h
  cases op with
  | loadSession c =>
    simp only [MemoryStore.step, SqliteStore.step, SameAnswer, StorageOut.session.injEq,
      MemoryStore.loadSession, SqliteStore.loadSession, h4]
    cases hg : m.sessions.get c with
    | none => rfl
    | some s =>
      obtain ⟨a, b, d⟩ := h5 c s hg
      simp [splitSubs_join _ b d, ← a]
  | listSessions =>
    simp only [MemoryStore.step, SqliteStore.step, SameAnswer, MemoryStore.listSessions,
      SqliteStore.listSessions]
    rw [List.perm_ext_iff_of_nodup h0.sessions h1]
    intro c
    rw [← Map.get_isSome, ← Map.get_isSome, h4]
    simp
  | getRetained f =>
    simp only [MemoryStore.step, SqliteStore.step, SameAnswer, MemoryStore.getRetained,
      SqliteStore.getRetained]
    let row : Message → RetainedRow := fun s => ⟨s.payload, qosToInt s.qos, s.dup⟩
    let A : Map Str RetainedRow := m.retained.map fun e => (e.1, row e.2)
    have hA : List.Perm A q.retained := by
      apply Map.perm_of_get
      · have : A.keys = m.retained.keys := by simp [A, Map.keys]
        rw [this]; exact h0.retained
      · exact h2
      · intro t; rw [h6, Map.get_mapVal]
    have hp := ((hA.filter fun e => topicMatchesFilter e.1 (splitLevels f)).map
      fun e => (⟨none, e.1, e.2.dup, intToQos e.2.qos, true, e.2.payload⟩ : Message))
    have hp2 := hp.map (fun m : Message => { m with packetId := none })
    refine List.Perm.trans ?_ hp2
    apply List.Perm.of_eq
    simp only [A, List.filter_map, List.map_map]
    apply List.map_congr_left
    intro e he
    have he' : e ∈ m.retained := (List.mem_filter.mp he).1
    have ht := h7 e.1 e.2 ((Map.mem_iff_get _ h0.retained _ _).mp he')
    simp [Function.comp, row, intToQos_toInt, ← ht]
  | getWill c =>
    simp only [MemoryStore.step, SqliteStore.step, SameAnswer, StorageOut.will.injEq,
      MemoryStore.getWill, SqliteStore.getWill, h8]
    cases hg : m.wills.get c <;> simp [intToQos_toInt]
  | getInflight c id =>
    simp only [MemoryStore.step, SqliteStore.step, SameAnswer, StorageOut.inflight.injEq,
      SqliteStore.getInflight, h9]
    cases hg : m.getInflight c id with
    | none => rfl
    | some s => simp [intToQos_toInt, SqliteStore.inflightOfRow, ← h10 c id s hg]
  | getAllInflight c =>
    simp only [MemoryStore.step, SqliteStore.step, SameAnswer, SqliteStore.getAllInflight]
    -- the entries of the client in both stores, by packet id
    let msgs : Map UInt16 Inflight := (m.inflight.get c).getD []
    have hmsgs : m.getAllInflight c = msgs.map Prod.snd := by
      simp only [MemoryStore.getAllInflight, msgs]
      cases m.inflight.get c <;> rfl
    have hnd : msgs.keys.Nodup := by
      simp only [msgs]
      cases hg : m.inflight.get c with
      | none => simp [Map.keys]
      | some x => exact h0.inflight c x hg
    have hgm : ∀ id, msgs.get id = m.getInflight c id := by
      intro id
      simp only [msgs, MemoryStore.getInflight]
      cases m.inflight.get c <;> rfl
    let Q : Map UInt16 Inflight := (q.inflight.filter fun e => e.1.1 = c).map
      fun e => (e.1.2, SqliteStore.inflightOfRow e.1.2 e.2)
    have hQ : ((q.inflight.filter fun e => e.1.1 = c).map
        fun e => SqliteStore.inflightOfRow e.1.2 e.2) = Q.map Prod.snd := by
      simp [Q]
    have hQnd : Q.keys.Nodup := by
      simp only [Q, Map.keys, List.map_map]
      have hpw : List.Pairwise (fun a b : (Str × UInt16) × InflightRow => a.1 ≠ b.1) q.inflight :=
        List.pairwise_map.mp h3
      rw [List.Nodup, List.pairwise_map]
      refine (hpw.filter _).imp_of_mem ?_
      intro a b ha hb hab he
      have ha' := (List.mem_filter.mp ha).2
      have hb' := (List.mem_filter.mp hb).2
      simp only [decide_eq_true_eq] at ha' hb'
      exact hab (Prod.ext (ha'.trans hb'.symm) he)
    rw [hmsgs, hQ]
    apply List.Perm.map
    have nd : ∀ m : Map UInt16 Inflight, m.keys.Nodup → List.Nodup m := by
      intro m hm
      exact (List.pairwise_map.mp hm).imp (fun h e => h (by rw [e]))
    rw [List.perm_ext_iff_of_nodup (nd _ hnd) (nd _ hQnd)]
    rintro ⟨id, x⟩
    rw [Map.mem_iff_get _ hnd, hgm]
    simp only [Q, List.mem_map, List.mem_filter, decide_eq_true_eq, Prod.mk.injEq]
    constructor
    · intro hx
      have := h9 c id
      rw [hx] at this
      refine ⟨((c, id), _), ⟨(Map.mem_iff_get _ h3 _ _).mpr this, rfl⟩, rfl, ?_⟩
      simp [SqliteStore.inflightOfRow, intToQos_toInt, ← h10 c id x hx]
    · rintro ⟨⟨⟨c', id'⟩, r⟩, ⟨hm, rfl⟩, rfl, rfl⟩
      have := (Map.mem_iff_get _ h3 _ _).mp hm
      rw [h9] at this
      cases hg : m.getInflight c' id' with
      | none => simp [hg] at this
      | some s =>
        simp only [hg, Option.map_some, Option.some.injEq] at this
        rw [← this]
        simp [SqliteStore.inflightOfRow, intToQos_toInt, ← h10 c' id' s hg]
  | storeRetained t v => cases v <;> rfl
  | saveSession c v => rfl
  | deleteSession c => rfl
  | clearAllRetained => rfl
  | storeWill c w => rfl
  | deleteWill c => rfl
  | storeInflight c id v => rfl
  | removeInflight c id => rfl

/-- C33, with the stated provisos (`Regular`: no comma in stored filters, list not the single
empty string, records carry their key): after any regular history, every operation gets the same
answer from both back ends, up to the order of lists and the packet ids of retained messages. -/
theorem C33_same_answers_partial (ops : List StorageOp) (h : ∀ op ∈ ops, Regular op)
    (op : StorageOp) :
    SameAnswer ((MemoryStore.new.run ops).step op).2 ((SqliteStore.new.run ops).step op).2 := by
  have hs : SameData (MemoryStore.new.run ops) (SqliteStore.new.run ops) := by
    induction ops using snoc_induction with
    | h0 =>
      refine ⟨MemoryStore.new_ok, ?_, ?_, ?_, ?_, ?_, ?_, ?_, ?_, ?_, ?_⟩ <;>
        simp [SqliteStore.run, MemoryStore.run, SqliteStore.new, MemoryStore.new, Map.keys,
          Map.get, MemoryStore.getInflight]
    | hs l a ih =>
      rw [memRun_snoc, sqlRun_snoc]
      exact (ih (fun op ho => h op (by simp [ho]))).step a (h a (by simp))
  exact hs.answers op

/-- C33 fails for a filter with a comma, a legal filter: the SQLite store loads it as two. -/
theorem C33_comma_false :
    ValidFilter (str "a,b") ∧
    ∃ s : SessionState, s.subscriptions = [str "a,b"] ∧
      ((MemoryStore.new.saveSession (str "c") s).loadSession (str "c")).map (·.subscriptions) =
        some [str "a,b"] ∧
      ((SqliteStore.new.saveSession (str "c") s).loadSession (str "c")).map (·.subscriptions) =
        some [str "a", str "b"] := by
  refine ⟨?_, ⟨str "c", [str "a,b"], false⟩, rfl, by decide +kernel, by decide +kernel⟩
  refine ⟨by decide, by decide +kernel, by decide +kernel, ?_, ?_⟩
  · intro ls hls l hl hp
    rw [isLevels_iff] at hls
    have : splitLevels (str "a,b") = [str "a,b"] := by decide +kernel
    rw [this] at hls; subst hls
    simp only [List.mem_singleton] at hl; subst hl
    exact absurd hp (by decide +kernel)
  · intro ls hls i hi hp
    rw [isLevels_iff] at hls
    have h2 : (0x23 : UInt8) ∉ str "a,b" := by decide +kernel
    have : splitLevels (str "a,b") = [str "a,b"] := by decide +kernel
    rw [this] at hls; subst hls
    have : i = 0 := by simp at hi; exact hi
    subst this
    exact absurd hp h2

/-- In general the SQLite store gives back the filters cut at every comma, so any client whose
filters contain one loses its subscriptions on restart. -/
theorem C33_comma_general_false (s : SessionState) (c f : Str) (hf : f ∈ s.subscriptions)
    (hc : (0x2c : UInt8) ∈ f) :
    ∀ s', (SqliteStore.new.saveSession c s).loadSession c = some s' → f ∉ s'.subscriptions := by
  intro s' h hm
  simp only [SqliteStore.saveSession, SqliteStore.loadSession, Map.get_insert, if_true,
    Option.map_some, Option.some.injEq] at h
  rw [← h] at hm
  simp only [SqliteStore.splitSubs] at hm
  split at hm
  · simp at hm
  · exact splitOn_not_mem _ _ f hm hc

/-- C33 fails for the packet id of a retained message: only the in-memory store keeps it. -/
theorem C33_packet_id_false (s : MemoryStore) (q : SqliteStore) (t : Str) (m : Message)
    (ht : ValidTopic t) (id : UInt16) (hid : m.packetId = some id) :
    (∃ x ∈ (s.storeRetained t (some m)).getRetained t, x.packetId = some id) ∧
    ∀ x ∈ (q.storeRetained t (some m)).getRetained t, x.packetId = none := by
  constructor
  · refine ⟨{ m with retain := true }, ?_, hid⟩
    simp only [MemoryStore.storeRetained, MemoryStore.getRetained, Map.insert, List.mem_map,
      List.mem_filter]
    refine ⟨(t, m), ⟨by simp, ?_⟩, rfl⟩
    unfold topicMatchesFilter
    rw [matchLoop_iff]
    · have : ∀ l : List Str, MatchesLevels l l := by
        intro l; induction l with
        | nil => exact .nil
        | cons a l ih => exact .same a ih
      exact this _
    · intro i hi he
      exact absurd he (levels_of_valid ht _ (List.getElem_mem hi)).2
  · intro x hx
    simp only [SqliteStore.getRetained, List.mem_map] at hx
    obtain ⟨e, _, rfl⟩ := hx
    rfl

example : Regular (.saveSession (str "c") ⟨str "c", [str "a/+", str "b/#"], false⟩) := by
  refine ⟨rfl, ?_, by decide +kernel⟩
  intro f hf; simp at hf; rcases hf with rfl | rfl <;> decide +kernel

end Mercurio
