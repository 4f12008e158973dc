import Verif.Model.Crash
import Verif.Props.Persist
import Verif.Props.Inflight
import Verif.Props.Mailbox

/-! # C132: crashes in the middle of an event -/

namespace Mercurio

open Spec Server

/-! ## Effects and steps -/

theorem storeAfter_nil (s : MemoryStore) : storeAfter s [] = s := rfl

theorem storeAfter_append (s : MemoryStore) (a b : List Effect) :
    storeAfter s (a ++ b) = storeAfter (storeAfter s a) b := by
  unfold storeAfter; rw [List.foldl_append]

theorem storeAfter_writes {α : Type} (s : MemoryStore) (l : List α) (f : α → Packet) :
    storeAfter s (l.map fun i => .write (f i)) = s := by
  induction l with
  | nil => rfl
  | cons a l ih => exact ih

theorem writtenIn_append (a b : List Effect) : writtenIn (a ++ b) = writtenIn a ++ writtenIn b := by
  unfold writtenIn; rw [List.filterMap_append]

theorem writtenIn_writes {α : Type} (l : List α) (f : α → Packet) :
    writtenIn (l.map fun i => .write (f i)) = l.map f := by
  induction l with
  | nil => rfl
  | cons a l ih => show f a :: writtenIn _ = _; rw [ih]; rfl

theorem storeAfter_publish (s : MemoryStore) (t : Str) (m : Message) :
    storeAfter s (publishEffects t m) = Broker.publishStore s t m := by
  unfold publishEffects Broker.publishStore
  split
  · split <;> rename_i h <;> simp [storeAfter, MemoryStore.step, h]
  · rfl

theorem writtenIn_publish (t : Str) (m : Message) : writtenIn (publishEffects t m) = [] := by
  unfold publishEffects; split <;> rfl

theorem storeAfter_finish (srv : Server) (c r : Nat) (s : Session) :
    (srv.finish c r s).store = storeAfter srv.store (finishEffects s) := by
  unfold Server.finish finishEffects
  cases hw : s.will with
  | none => rfl
  | some w =>
    show MemoryStore.deleteWill _ s.clientId = storeAfter _ (publishEffects w.topic (willMessage w) ++ _)
    rw [storeAfter_append, storeAfter_publish]; rfl

theorem writtenIn_finish (s : Session) : writtenIn (finishEffects s) = [] := by
  unfold finishEffects
  split
  · rfl
  · rw [writtenIn_append, writtenIn_publish]; rfl

theorem subscribeLoop_store (fs : List Str) : ∀ (s : Session) (w : World),
    (s.subscribeLoop w fs).2.1.broker.store = w.broker.store := by
  induction fs with
  | nil => intro s w; rfl
  | cons f fs ih =>
    intro s w
    unfold Session.subscribeLoop
    split
    · exact ih s w
    · exact (ih _ _).trans rfl

theorem storeAfter_handle (s : Session) (w : World) (m : Option AuthManager) (c : Nat) (p : Packet) :
    (s.processIncoming w m c p).world.broker.store = storeAfter w.broker.store (handleEffects p) := by
  cases p with
  | publish p =>
    simp only [Session.processIncoming, Session.handlePublish, handleEffects]
    cases hv : validatePublishTopic p.topicName with
    | error _ => rfl
    | ok u => simp only [hv]; rw [storeAfter_publish]; rfl
  | subscribe p => exact subscribeLoop_store _ s w
  | auth p =>
    simp only [Session.processIncoming, Session.handleAuth]
    split <;> rfl
  | _ => rfl

theorem writtenIn_handle (p : Packet) : writtenIn (handleEffects p) = [] := by
  cases p with
  | publish p =>
    simp only [handleEffects]
    split
    · rfl
    · exact writtenIn_publish _ _
  | _ => rfl

theorem storeAfter_save (s : Session) (p : Packet) (st : MemoryStore) :
    saveAfter s p st = storeAfter st (saveEffects s p) := by
  cases p <;> rfl

theorem writtenIn_save (s : Session) (p : Packet) : writtenIn (saveEffects s p) = [] := by
  cases p <;> rfl

theorem storeAfter_outgoing (s : Session) (p : PublishPacket) (st : MemoryStore) :
    saveOutgoing s p st = storeAfter st (outgoingEffects s p) := by
  unfold saveOutgoing outgoingEffects
  cases hp : p.packetId with
  | none => rfl
  | some id => cases hq : p.qos <;> rfl

theorem writtenIn_outgoing (s : Session) (p : PublishPacket) : writtenIn (outgoingEffects s p) = [] := by
  unfold outgoingEffects
  split
  · rfl
  · split <;> rfl

/-- What a packet does to the storage comes first, then it is answered. -/
theorem recv_split (cfg : AuthConfig) (srv : Server) (c r : Nat) (s : Session) (p : Packet) :
    ∃ a, srv.recvEffects cfg c s p = a ++ (srv.recv cfg c r s p).2.sent.map .write ∧ writtenIn a = [] ∧
      (srv.recv cfg c r s p).1.store = storeAfter srv.store a := by
  by_cases hd : ∃ d, p = .disconnect d
  · obtain ⟨d, rfl⟩ := hd
    refine ⟨srv.recvEffects cfg c s (.disconnect d), ?_, rfl, rfl⟩
    rw [show (srv.recv cfg c r s (.disconnect d)).2.sent = [] from rfl]
    simp
  · have h1 : srv.recvEffects cfg c s p = (match (s.processIncoming srv.world cfg.manager c p).result with
        | .error _ => handleEffects p ++ finishEffects (s.processIncoming srv.world cfg.manager c p).session
        | .ok res => handleEffects p ++ saveEffects (s.processIncoming srv.world cfg.manager c p).session p ++
            res.toList.map .write) := by
      cases p with
      | disconnect d => exact absurd ⟨d, rfl⟩ hd
      | _ => rfl
    have h2 : srv.recv cfg c r s p = (match (s.processIncoming srv.world cfg.manager c p).result with
        | .error _ => ({ srv with world := (s.processIncoming srv.world cfg.manager c p).world }.finish c r
            (s.processIncoming srv.world cfg.manager c p).session, {})
        | .ok res => (({ srv with world := (s.processIncoming srv.world cfg.manager c p).world }.mapStore
            (saveAfter (s.processIncoming srv.world cfg.manager c p).session p)).put r
            (s.processIncoming srv.world cfg.manager c p).session, { sent := res.toList })) := by
      cases p with
      | disconnect d => exact absurd ⟨d, rfl⟩ hd
      | _ => rfl
    have h3 := storeAfter_handle s srv.world cfg.manager c p
    rw [h1, h2]
    cases hr : (s.processIncoming srv.world cfg.manager c p).result with
    | error e =>
      refine ⟨handleEffects p ++ finishEffects (s.processIncoming srv.world cfg.manager c p).session, by simp, ?_, ?_⟩
      · rw [writtenIn_append, writtenIn_handle, writtenIn_finish]; rfl
      · rw [storeAfter_append]
        show Server.store (Server.finish _ c r _) = _
        rw [storeAfter_finish]
        show storeAfter (s.processIncoming srv.world cfg.manager c p).world.broker.store _ = _
        rw [h3]; rfl
    | ok res =>
      refine ⟨handleEffects p ++ saveEffects (s.processIncoming srv.world cfg.manager c p).session p, rfl, ?_, ?_⟩
      · rw [writtenIn_append, writtenIn_handle, writtenIn_save]; rfl
      · rw [storeAfter_append, ← storeAfter_save]
        show saveAfter _ p (s.processIncoming srv.world cfg.manager c p).world.broker.store = _
        rw [h3]; rfl

theorem deliver_split (srv : Server) (c r : Nat) (s : Session) (f : Str) :
    ∃ a, srv.deliverEffects s f = a ++ (srv.deliver c r s f).2.sent.map .write ∧ writtenIn a = [] ∧
      (srv.deliver c r s f).1.store = storeAfter srv.store a := by
  unfold Server.deliverEffects Server.deliver
  cases h : s.processOutgoing srv.world.broker.tree f with
  | idle => exact ⟨[], rfl, rfl, rfl⟩
  | panicked s' => exact ⟨[], rfl, rfl, rfl⟩
  | packet s' p => exact ⟨outgoingEffects s' p, rfl, writtenIn_outgoing _ _, storeAfter_outgoing _ _ _⟩

/-- An event other than a connection attempt first changes the storage, then sends. -/
theorem effects_split (cfg : AuthConfig) (srv : Server) (e : Event) (he : ∀ c p u w, e ≠ .first c p u w) :
    ∃ a, srv.effects cfg e = a ++ (srv.step cfg e).2.sent.map .write ∧ writtenIn a = [] ∧
      (srv.step cfg e).1.store = storeAfter srv.store a := by
  have on : ∀ c (f : Session → List Effect) (g : Nat → Session → Server × Out),
      (∀ r s, ∃ a, f s = a ++ (g r s).2.sent.map .write ∧ writtenIn a = [] ∧ (g r s).1.store = storeAfter srv.store a) →
      ∃ a, srv.onConnEffects c f = a ++ (srv.onConn c g).2.sent.map .write ∧ writtenIn a = [] ∧
        (srv.onConn c g).1.store = storeAfter srv.store a := by
    intro c f g h
    unfold Server.onConnEffects Server.onConn
    cases hc : srv.conns.get c with
    | none => exact ⟨[], rfl, rfl, rfl⟩
    | some k =>
      cases hs : srv.heap.get k.session with
      | none => simp only [hs]; exact ⟨[], rfl, rfl, rfl⟩
      | some s => simp only [hs]; exact h _ _
  cases e with
  | first c p u w => exact absurd rfl (he c p u w)
  | recv c p => exact on c _ _ fun r s => recv_split cfg srv c r s p
  | deliver c f => exact on c _ _ fun r s => deliver_split srv c r s f
  | close c =>
    exact on c _ (fun r s => (srv.finish c r s, {})) fun r s =>
      ⟨finishEffects s, by simp, writtenIn_finish s, storeAfter_finish srv c r s⟩
  | abort c => exact ⟨[], rfl, rfl, rfl⟩
  | restart => exact ⟨[], rfl, rfl, rfl⟩

theorem restoreSubscriptions_store (fs : List Str) : ∀ (s : Session) (w : World),
    (s.restoreSubscriptions w fs).2.broker.store = w.broker.store := by
  induction fs with
  | nil => intro s w; rfl
  | cons f fs ih => intro s w; exact (ih _ _).trans rfl

theorem start_effects (srv : Server) (c : Nat) (p : ConnectPacket) (uuid : Str) (w : Bool) :
    (srv.start c p uuid w).1.store = storeAfter srv.store (srv.startEffects p uuid w) ∧
    (srv.start c p uuid w).2.sent = writtenIn (srv.startEffects p uuid w) := by
  have h1 : (srv.discard p.payload.clientId p.flags.cleanStart).store = storeAfter srv.store
      (if p.flags.cleanStart then [.store (.deleteSession p.payload.clientId), .store (.deleteWill p.payload.clientId)] else []) := by
    unfold Server.discard
    split <;> rfl
  have h2 : ((srv.discard p.payload.clientId p.flags.cleanStart).enter p).1.store =
      (srv.discard p.payload.clientId p.flags.cleanStart).store := by
    unfold Server.enter; split
    · rfl
    · split <;> rfl
  have h3 : writtenIn (if p.flags.cleanStart then
      [.store (.deleteSession p.payload.clientId), .store (.deleteWill p.payload.clientId)] else []) = [] := by
    split <;> rfl
  unfold Server.startEffects
  rw [storeAfter_append, writtenIn_append, ← h1, h3, List.nil_append]
  cases w with
  | false => exact ⟨h2, rfl⟩
  | true =>
    simp only [if_true]
    constructor
    · show Server.store (Server.put _ _ _) = _
      show ((Session.restoreSubscriptions _ _ _).2).broker.store = _
      rw [restoreSubscriptions_store]
      show saveStart _ _ ((srv.discard p.payload.clientId p.flags.cleanStart).enter p).1.store = _
      rw [h2]
      unfold saveStart
      rw [storeAfter_append, storeAfter_writes]
      cases hw : ((((srv.discard p.payload.clientId p.flags.cleanStart).enter p).2.2.begin uuid
          (srv.find p.payload.clientId p.flags.cleanStart).resume).1).will <;> rfl
    · rw [writtenIn_append, writtenIn_writes]
      cases hw : ((((srv.discard p.payload.clientId p.flags.cleanStart).enter p).2.2.begin uuid
          (srv.find p.payload.clientId p.flags.cleanStart).resume).1).will <;> rfl

theorem whole_effects (cfg : AuthConfig) (srv : Server) (e : Event) :
    (srv.step cfg e).1.store = storeAfter srv.store (srv.effects cfg e) ∧
    (srv.step cfg e).2.sent = writtenIn (srv.effects cfg e) := by
  by_cases he : ∃ c p u w, e = .first c p u w
  · obtain ⟨c, p, u, w, rfl⟩ := he
    simp only [Server.step, Server.effects]
    split
    · exact ⟨rfl, rfl⟩
    · cases p with
      | connect p =>
        simp only [Server.connect]
        by_cases ha : (cfg.requireAuth && !authenticated cfg p) = true
        · rw [if_pos ha, if_pos ha]; exact ⟨rfl, rfl⟩
        · rw [if_neg ha, if_neg ha]; exact start_effects srv c p u w
      | _ => exact ⟨rfl, rfl⟩
  · obtain ⟨a, h1, h2, h3⟩ := effects_split cfg srv e (fun c p u w h => he ⟨c, p, u, w, h⟩)
    rw [h1, storeAfter_append, writtenIn_append, h2]
    refine ⟨?_, ?_⟩
    · rw [h3]; exact (storeAfter_writes _ _ id).symm
    · exact ((List.nil_append _).trans ((writtenIn_writes _ id).trans (List.map_id _))).symm

theorem crash_of_store {cfg : AuthConfig} {srv : Server} {e : Event} {k : Nat}
    (h : storeAfter srv.store ((srv.effects cfg e).take k) = (srv.step cfg e).1.store) :
    (srv.crash cfg e k).1 = ((srv.step cfg e).1.step cfg .restart).1 := by
  unfold Server.crash
  simp only [h]
  rfl

theorem crash_store (cfg : AuthConfig) (srv : Server) (e : Event) (k : Nat) :
    (srv.crash cfg e k).1.store = storeAfter srv.store ((srv.effects cfg e).take k) := rfl

/-- After a crash nobody is connected, so whoever has the credentials is admitted. -/
theorem crash_admits {cfg : AuthConfig} (srv : Server) (e : Event) (k c : Nat) (q : ConnectPacket)
    (h : cfg.requireAuth = true → ∃ u pw v, q.payload.userName = some u ∧ q.payload.password = some pw ∧
      cfg.validator = some v ∧ v u pw = true) : Admitted cfg (srv.crash cfg e k).1 c q :=
  ⟨fun ⟨_, hk⟩ => by simp [Server.crash, Server.step, Map.get] at hk, h⟩

/-- C132, the two ends: a crash before the first effect is a restart with the storage as it was, and nothing was
written; a crash after the last effect is the event followed by a restart. -/
theorem C132_ends (cfg : AuthConfig) (srv : Server) (e : Event) :
    ((srv.crash cfg e 0).1.store = srv.store ∧ (srv.crash cfg e 0).2 = []) ∧
    ∀ k, (srv.effects cfg e).length ≤ k →
      srv.crash cfg e k = (((srv.step cfg e).1.step cfg .restart).1, (srv.step cfg e).2.sent) := by
  refine ⟨⟨rfl, rfl⟩, fun k hk => ?_⟩
  have ht : (srv.effects cfg e).take k = srv.effects cfg e := List.take_of_length_le hk
  obtain ⟨h1, h2⟩ := whole_effects cfg srv e
  refine Prod.ext (crash_of_store (by rw [ht, h1])) ?_
  show writtenIn _ = _
  rw [ht, h2]

/-- A SUBSCRIBE has two effects. -/
example : (exServer.effects exCfg (.recv 0 (.subscribe ⟨2, none, [⟨str "b", {}⟩]⟩))).length ≤ 2 := by decide +kernel

theorem writtenIn_take (l : List Effect) (k : Nat) : writtenIn (l.take k) <+: writtenIn l := by
  refine ⟨writtenIn (l.drop k), ?_⟩
  rw [← writtenIn_append, List.take_append_drop]

/-- C132: whenever the process dies, the client has been written a beginning of what it would have been written. -/
theorem C132_prefix (cfg : AuthConfig) (srv : Server) (e : Event) (k : Nat) :
    (srv.crash cfg e k).2 <+: (srv.step cfg e).2.sent := by
  rw [(whole_effects cfg srv e).2]
  exact writtenIn_take _ _

/-- Of the effects of a resumption, the first is the CONNACK. -/
example : ((exServer.step exCfg .restart).1.crash exCfg (.first 1 (.connect (exConnect (str "x") false)) (str "u") true) 1).2 =
    [.connAck (connAckOf (exConnect (str "x") false) (str "u") true)] := by decide +kernel

/-- C132: what has been answered is stored.  Whenever the process dies during an event that is not a connection attempt, if
anything had been written to the client then the new server is the one after the whole event and an orderly
restart. -/
theorem C132_answered_is_stored (cfg : AuthConfig) (srv : Server) (e : Event) (he : ∀ c p u w, e ≠ .first c p u w) (k : Nat)
    (hw : (srv.crash cfg e k).2 ≠ []) : (srv.crash cfg e k).1 = ((srv.step cfg e).1.step cfg .restart).1 := by
  obtain ⟨a, h1, h2, h3⟩ := effects_split cfg srv e he
  apply crash_of_store
  rw [h3, h1, List.take_append]
  by_cases hk : a.length ≤ k
  · rw [List.take_of_length_le hk, storeAfter_append, ← List.map_take]
    exact storeAfter_writes _ _ id
  · exfalso
    apply hw
    show writtenIn ((srv.effects cfg e).take k) = []
    have h0 : k - a.length = 0 := by omega
    rw [h1, List.take_append, h0, List.take_zero, List.append_nil]
    have := writtenIn_take a k
    rw [h2] at this
    exact List.prefix_nil.mp this

/-- The process dies after the SUBACK, or before it. -/
example : (exServer.crash exCfg (.recv 0 (.subscribe ⟨2, none, [⟨str "b", {}⟩]⟩)) 2).2 ≠ [] ∧
    (exServer.crash exCfg (.recv 0 (.subscribe ⟨2, none, [⟨str "b", {}⟩]⟩)) 1).2 = [] := by decide +kernel

/-! ## Tables -/

/-- The table a storage call writes. -/
inductive StoreTable where
  | sessions
  | retained
  | wills
  | inflight
  deriving DecidableEq

/-- The call writes this table. -/
def Effect.touches (t : StoreTable) : Effect → Bool
  | .store (.saveSession ..) | .store (.deleteSession ..) => t = .sessions
  | .store (.storeRetained ..) | .store .clearAllRetained => t = .retained
  | .store (.storeWill ..) | .store (.deleteWill ..) => t = .wills
  | .store (.storeInflight ..) | .store (.removeInflight ..) => t = .inflight
  | _ => false

theorem untouched {α : Type} {π : MemoryStore → α} {t : StoreTable}
    (hp : ∀ s e, Effect.touches t e = false → π (storeAfter s [e]) = π s) :
    ∀ (l : List Effect) (s : MemoryStore), l.filter (Effect.touches t) = [] → π (storeAfter s l) = π s
  | [], _, _ => rfl
  | e :: l, s, h => by
    have he : Effect.touches t e = false := by
      cases hb : Effect.touches t e with
      | false => rfl
      | true => rw [List.filter_cons, hb] at h; simp at h
    rw [List.filter_cons, he] at h
    show π (storeAfter (storeAfter s [e]) l) = _
    rw [untouched hp l _ (by simpa using h), hp s e he]

theorem filter_take_nil {α : Type} {f : α → Bool} {l : List α} (h : l.filter f = []) (k : Nat) : (l.take k).filter f = [] := by
  rw [List.filter_eq_nil_iff] at h ⊢
  exact fun x hx => h x (List.mem_of_mem_take hx)

theorem touched_once {α : Type} {π : MemoryStore → α} {t : StoreTable}
    (hp : ∀ s e, Effect.touches t e = false → π (storeAfter s [e]) = π s) :
    ∀ (l : List Effect) (s : MemoryStore) (k : Nat), (l.filter (Effect.touches t)).length ≤ 1 →
      π (storeAfter s (l.take k)) = π s ∨ π (storeAfter s (l.take k)) = π (storeAfter s l)
  | [], _, k, _ => by rw [List.take_nil]; exact .inl rfl
  | e :: l, s, 0, _ => .inl rfl
  | e :: l, s, k + 1, h => by
    rw [List.take_succ_cons]
    show π (storeAfter (storeAfter s [e]) (l.take k)) = _ ∨ _ = π (storeAfter (storeAfter s [e]) l)
    cases he : Effect.touches t e with
    | false =>
      rw [List.filter_cons, he] at h
      rcases touched_once hp l (storeAfter s [e]) k (by simpa using h) with h1 | h1
      · exact .inl (h1.trans (hp s e he))
      · exact .inr h1
    | true =>
      rw [List.filter_cons, he] at h
      have h0 : l.filter (Effect.touches t) = [] := by simpa using h
      right
      exact (untouched hp _ (storeAfter s [e]) (filter_take_nil h0 k)).trans (untouched hp _ (storeAfter s [e]) h0).symm

theorem keeps_sessions (s : MemoryStore) (e : Effect) (h : Effect.touches .sessions e = false) :
    (storeAfter s [e]).sessions = s.sessions := by
  rcases e with op | p
  · cases op with
    | storeRetained t m => cases m <;> rfl
    | removeInflight c id => simp only [storeAfter, List.foldl, MemoryStore.step, MemoryStore.removeInflight]; split <;> rfl
    | saveSession c v => simp [Effect.touches] at h
    | deleteSession c => simp [Effect.touches] at h
    | _ => rfl
  · rfl

theorem keeps_retained (s : MemoryStore) (e : Effect) (h : Effect.touches .retained e = false) :
    (storeAfter s [e]).retained = s.retained := by
  rcases e with op | p
  · cases op with
    | removeInflight c id => simp only [storeAfter, List.foldl, MemoryStore.step, MemoryStore.removeInflight]; split <;> rfl
    | storeRetained t m => simp [Effect.touches] at h
    | clearAllRetained => simp [Effect.touches] at h
    | _ => rfl
  · rfl

theorem keeps_wills (s : MemoryStore) (e : Effect) (h : Effect.touches .wills e = false) :
    (storeAfter s [e]).wills = s.wills := by
  rcases e with op | p
  · cases op with
    | storeRetained t m => cases m <;> rfl
    | removeInflight c id => simp only [storeAfter, List.foldl, MemoryStore.step, MemoryStore.removeInflight]; split <;> rfl
    | storeWill c v => simp [Effect.touches] at h
    | deleteWill c => simp [Effect.touches] at h
    | _ => rfl
  · rfl

theorem keeps_inflight (s : MemoryStore) (e : Effect) (h : Effect.touches .inflight e = false) :
    (storeAfter s [e]).inflight = s.inflight := by
  rcases e with op | p
  · cases op with
    | storeRetained t m => cases m <;> rfl
    | storeInflight c id m => simp [Effect.touches] at h
    | removeInflight c id => simp [Effect.touches] at h
    | _ => rfl
  · rfl

theorem touched_writes (t : StoreTable) (l : List Packet) : (l.map Effect.write).filter (Effect.touches t) = [] := by
  rw [List.filter_eq_nil_iff]
  intro x hx
  obtain ⟨p, _, rfl⟩ := List.mem_map.mp hx
  simp [Effect.touches]

theorem touched_publish (t : StoreTable) (topic : Str) (m : Message) :
    ((publishEffects topic m).filter (Effect.touches t)).length ≤ (if t = .retained then 1 else 0) := by
  unfold publishEffects
  split
  · cases t <;> simp [Effect.touches]
  · simp

theorem touched_finish (t : StoreTable) (s : Session) : ((finishEffects s).filter (Effect.touches t)).length ≤ 1 := by
  unfold finishEffects
  cases s.will with
  | none => simp
  | some w =>
    simp only [List.filter_append, List.length_append]
    have h1 := touched_publish t w.topic (willMessage w)
    have h2 : ([Effect.store (.deleteWill s.clientId)].filter (Effect.touches t)).length = if t = .wills then 1 else 0 := by
      cases t <;> rfl
    rw [h2]
    cases t <;> simp only [reduceCtorEq, if_false, if_true] at h1 ⊢ <;> omega

theorem touched_handle (t : StoreTable) (p : Packet) : ((handleEffects p).filter (Effect.touches t)).length ≤
    (if t = .retained then 1 else 0) := by
  cases p with
  | publish p =>
    simp only [handleEffects]
    split
    · simp
    · exact touched_publish t _ _
  | _ => simp [handleEffects]

theorem recvEffects_eq (cfg : AuthConfig) (srv : Server) (c : Nat) (s : Session) (p : Packet) (hd : ∀ d, p ≠ .disconnect d) :
    srv.recvEffects cfg c s p = (match (s.processIncoming srv.world cfg.manager c p).result with
        | .error _ => handleEffects p ++ finishEffects (s.processIncoming srv.world cfg.manager c p).session
        | .ok res => handleEffects p ++ saveEffects (s.processIncoming srv.world cfg.manager c p).session p ++
            res.toList.map .write) := by
  cases p with
  | disconnect d => exact absurd rfl (hd d)
  | _ => rfl

theorem touched_recv (cfg : AuthConfig) (srv : Server) (c : Nat) (s : Session) (p : Packet)
    (hp : ∀ x, p = .publish x → x.qos ≠ .invalid ∧ (x.qos = .atMostOnce ∨ x.packetId.isSome)) (t : StoreTable) :
    ((srv.recvEffects cfg c s p).filter (Effect.touches t)).length ≤ 1 := by
  by_cases hd : ∃ d, p = .disconnect d
  · obtain ⟨d, rfl⟩ := hd
    cases t <;> simp [Server.recvEffects, finishEffects, Effect.touches]
  · rw [recvEffects_eq cfg srv c s p (fun d h => hd ⟨d, h⟩)]
    cases hr : (s.processIncoming srv.world cfg.manager c p).result with
    | error e =>
      have h0 : handleEffects p = [] := by
        cases p with
        | publish x =>
          obtain ⟨h1, h2⟩ := hp x rfl
          simp only [Session.processIncoming, Session.handlePublish] at hr
          simp only [handleEffects]
          cases hv : validatePublishTopic x.topicName with
          | error e => rfl
          | ok u =>
            exfalso
            rw [hv] at hr
            simp only [Session.publishResponse] at hr
            rcases h2 with h2 | h2
            · simp [h2] at hr
            · obtain ⟨id, hid⟩ := Option.isSome_iff_exists.mp h2
              cases hq : x.qos <;> simp [hq, hid] at hr h1
        | _ => rfl
      simp only [h0, List.nil_append]
      exact touched_finish t _
    | ok res =>
      simp only [List.filter_append, touched_writes, List.append_nil, List.length_append]
      have h1 := touched_handle t p
      cases p with
      | publish x =>
        simp only [saveEffects, List.filter_nil, List.length_nil, Nat.add_zero]
        cases t <;> simp only [reduceCtorEq, if_false, if_true] at h1 <;> omega
      | _ => cases t <;> simp [handleEffects, saveEffects, Effect.touches]

theorem touched_effects (cfg : AuthConfig) (srv : Server) (e : Event) (he : ∀ c p u w, e ≠ .first c p u w)
    (hp : ∀ c x, e = .recv c (.publish x) → x.qos ≠ .invalid ∧ (x.qos = .atMostOnce ∨ x.packetId.isSome)) (t : StoreTable) :
    ((srv.effects cfg e).filter (Effect.touches t)).length ≤ 1 := by
  have on : ∀ c (f : Session → List Effect), (∀ s, ((f s).filter (Effect.touches t)).length ≤ 1) →
      ((srv.onConnEffects c f).filter (Effect.touches t)).length ≤ 1 := by
    intro c f h
    unfold Server.onConnEffects
    split
    · simp
    · split
      · simp
      · exact h _
  cases e with
  | first c p u w => exact absurd rfl (he c p u w)
  | recv c p => exact on c _ fun s => touched_recv cfg srv c s p (fun x hx => hp c x (by rw [hx])) t
  | deliver c f =>
    refine on c _ fun s => ?_
    unfold Server.deliverEffects
    split
    · unfold outgoingEffects
      split
      · simp [Effect.touches]
      · split <;> cases t <;> simp [Effect.touches]
    · simp
  | close c => exact on c _ (touched_finish t)
  | abort c => simp [Server.effects]
  | restart => simp [Server.effects]

/-- C132: nothing is stored by halves.  Whenever the process dies during an event that is not a connection attempt (and not
a PUBLISH that no client can send: QoS 3, or QoS 1 or 2 without packet identifier), each of the four tables of the
storage is as it was before the event or as it is after it. -/
theorem C132_all_or_nothing (cfg : AuthConfig) (srv : Server) (e : Event) (he : ∀ c p u w, e ≠ .first c p u w)
    (hp : ∀ c x, e = .recv c (.publish x) → x.qos ≠ .invalid ∧ (x.qos = .atMostOnce ∨ x.packetId.isSome)) (k : Nat) :
    let old := srv.store
    let new := (srv.step cfg e).1.store
    let found := (srv.crash cfg e k).1.store
    (found.sessions = old.sessions ∨ found.sessions = new.sessions) ∧
    (found.retained = old.retained ∨ found.retained = new.retained) ∧
    (found.wills = old.wills ∨ found.wills = new.wills) ∧
    (found.inflight = old.inflight ∨ found.inflight = new.inflight) := by
  intro old new found
  have hn : new = storeAfter srv.store (srv.effects cfg e) := (whole_effects cfg srv e).1
  have ht := touched_effects cfg srv e he hp
  rw [hn]
  exact ⟨touched_once keeps_sessions _ _ k (ht _), touched_once keeps_retained _ _ k (ht _),
    touched_once keeps_wills _ _ k (ht _), touched_once keeps_inflight _ _ k (ht _)⟩

/-- The last effect may change the wills, the others do not. -/
def WillLast (l : List Effect) : Prop := ∃ a b, l = a ++ b ∧ a.filter (Effect.touches .wills) = [] ∧ b.length ≤ 1

theorem willLast_quiet {l : List Effect} (h : l.filter (Effect.touches .wills) = []) : WillLast l := ⟨l, [], by simp, h, by simp⟩

theorem publish_quiet (t : Str) (m : Message) : (publishEffects t m).filter (Effect.touches .wills) = [] := by
  unfold publishEffects
  split <;> rfl

theorem handle_quiet (p : Packet) : (handleEffects p).filter (Effect.touches .wills) = [] := by
  have := touched_handle .wills p
  simpa using this

theorem finish_willLast {a : List Effect} (ha : a.filter (Effect.touches .wills) = []) (s : Session) :
    WillLast (a ++ finishEffects s) := by
  unfold finishEffects
  split
  · rw [List.append_nil]; exact willLast_quiet ha
  · exact ⟨a ++ publishEffects _ _, _, (List.append_assoc _ _ _).symm, by rw [List.filter_append, ha, publish_quiet]; rfl, by simp⟩

theorem effects_willLast (cfg : AuthConfig) (srv : Server) (e : Event) (he : ∀ c p u w, e ≠ .first c p u w) :
    WillLast (srv.effects cfg e) := by
  have on : ∀ c (f : Session → List Effect), (∀ s, WillLast (f s)) → WillLast (srv.onConnEffects c f) := by
    intro c f h
    unfold Server.onConnEffects
    split
    · exact willLast_quiet rfl
    · split
      · exact willLast_quiet rfl
      · exact h _
  cases e with
  | first c p u w => exact absurd rfl (he c p u w)
  | recv c p =>
    refine on c _ fun s => ?_
    by_cases hd : ∃ d, p = .disconnect d
    · obtain ⟨d, rfl⟩ := hd
      exact ⟨[], [.store (.deleteWill s.clientId)], rfl, rfl, by simp⟩
    · rw [recvEffects_eq cfg srv c s p (fun d h => hd ⟨d, h⟩)]
      split
      · exact finish_willLast (handle_quiet p) _
      · refine willLast_quiet ?_
        rw [List.filter_append, List.filter_append, handle_quiet, touched_writes]
        cases p <;> rfl
  | deliver c f =>
    refine on c _ fun s => willLast_quiet ?_
    unfold Server.deliverEffects
    split
    · unfold outgoingEffects
      split
      · simp [Effect.touches]
      · split <;> simp [Effect.touches]
    · simp
  | close c => exact on c _ fun s => finish_willLast (a := []) rfl s
  | abort c => exact willLast_quiet rfl
  | restart => exact willLast_quiet rfl

/-- C132: no will is lost.  Whenever the process dies during an event that is not a connection attempt, the wills stored are
those from before the event (so the will of a client that is being published is still there), or everything the event does to
the storage has been done (so a will that asks to be retained is). -/
theorem C132_wills (cfg : AuthConfig) (srv : Server) (e : Event) (he : ∀ c p u w, e ≠ .first c p u w) (k : Nat) :
    let found := (srv.crash cfg e k).1.store
    found.wills = srv.store.wills ∨ found = (srv.step cfg e).1.store := by
  intro found
  obtain ⟨a, b, h1, h2, h3⟩ := effects_willLast cfg srv e he
  have hf : found = storeAfter srv.store ((srv.effects cfg e).take k) := crash_store cfg srv e k
  rw [hf, (whole_effects cfg srv e).1, h1]
  by_cases hk : a.length < k
  · right
    rw [List.take_of_length_le (by rw [List.length_append]; omega)]
  · left
    rw [List.take_append_of_le_length (by omega)]
    exact untouched keeps_wills _ _ (filter_take_nil h2 k)

/-- A connection with a retained will is lost, and the process dies between the publication and the removal of the will. -/
def exRetainedWill : Server :=
  Server.init.run exCfg [.first 0 (.connect { exConnect (str "x") true with
    flags := { (exConnect (str "x") true).flags with willRetain := true } }) (str "uuid") true]

example : let found := (exRetainedWill.crash exCfg (.close 0) 1).1.store
    found.retained = (exRetainedWill.step exCfg (.close 0)).1.store.retained ∧
    found.retained ≠ exRetainedWill.store.retained ∧ found.wills = exRetainedWill.store.wills ∧
    found.wills ≠ (exRetainedWill.step exCfg (.close 0)).1.store.wills := by decide +kernel

example : (∀ c p u w, Event.close 0 ≠ .first c p u w) ∧ exRetainedWill.store.wills.length = 1 ∧
    ((exRetainedWill.crash exCfg (.close 0) 1).1.store.wills = exRetainedWill.store.wills) ∧
    ((exRetainedWill.crash exCfg (.close 0) 2).1.store = (exRetainedWill.step exCfg (.close 0)).1.store) := by
  refine ⟨fun _ _ _ _ => by simp, ?_⟩
  decide +kernel

example : ∀ c x, Event.recv 0 (.publish exPublish) = .recv c (.publish x) →
    x.qos ≠ .invalid ∧ (x.qos = .atMostOnce ∨ x.packetId.isSome) := by
  rintro c x ⟨⟩; decide

/-! ## Connection attempts -/

theorem prefix_keeps {P : MemoryStore → Prop} :
    ∀ (l : List Effect) (s : MemoryStore) (k : Nat), (∀ e ∈ l, ∀ s, P s → P (storeAfter s [e])) → P s →
      P (storeAfter s (l.take k))
  | [], _, _, _, h => by rw [List.take_nil]; exact h
  | _ :: _, _, 0, _, h => h
  | e :: l, s, k + 1, hl, h => by
    rw [List.take_succ_cons]
    exact prefix_keeps l (storeAfter s [e]) k (fun x hx => hl x (List.mem_cons_of_mem _ hx)) (hl e List.mem_cons_self s h)

theorem begin_clientId (s : Session) (uuid : Str) (b : Bool) :
    (s.begin uuid b).1.clientId = s.clientId ∨ (s.begin uuid b).1.clientId = uuid := by
  unfold Session.begin; split
  · exact .inr rfl
  · exact .inl rfl

/-- The effects of a connection attempt. -/
theorem mem_startEffects {srv : Server} {p : ConnectPacket} {uuid : Str} {w : Bool} {e : Effect}
    (h : e ∈ srv.startEffects p uuid w) : ∃ cid, (cid = p.payload.clientId ∨ cid = uuid) ∧
      ((p.flags.cleanStart = true ∧ (e = .store (.deleteSession cid) ∨ e = .store (.deleteWill cid))) ∨
        (∃ x, e = .write x) ∨
        e = .store (.saveSession cid (stateOf cid (srv.find p.payload.clientId p.flags.cleanStart).subscriptions)) ∨
        ∃ x, e = .store (.storeWill cid x)) := by
  unfold Server.startEffects at h
  simp only [List.mem_append] at h
  have hid : ∀ b, (((srv.discard p.payload.clientId p.flags.cleanStart).enter p).2.2.begin uuid b).1.clientId =
      p.payload.clientId ∨ (((srv.discard p.payload.clientId p.flags.cleanStart).enter p).2.2.begin uuid b).1.clientId = uuid := by
    intro b
    rcases begin_clientId ((srv.discard p.payload.clientId p.flags.cleanStart).enter p).2.2 uuid b with h | h
    · exact .inl (h.trans (enter_session _ p).2.1)
    · exact .inr h
  rcases h with h | h
  · split at h
    · rename_i hc
      simp only [List.mem_cons, List.not_mem_nil, or_false] at h
      exact ⟨_, .inl rfl, .inl ⟨hc, h⟩⟩
    · simp at h
  · split at h
    · rcases List.mem_append.mp h with h | h
      · rcases List.mem_cons.mp h with h | h
        · exact ⟨_, .inl rfl, .inr (.inl ⟨_, h⟩)⟩
        · rcases List.mem_cons.mp h with h | h
          · exact ⟨_, hid _, .inr (.inr (.inl h))⟩
          · split at h
            · rw [List.mem_singleton] at h
              exact ⟨_, hid _, .inr (.inr (.inr ⟨_, h⟩))⟩
            · simp at h
      · obtain ⟨i, _, rfl⟩ := List.mem_map.mp h
        exact ⟨_, .inl rfl, .inr (.inl ⟨_, rfl⟩)⟩
    · simp at h

theorem crash_first {cfg : AuthConfig} {srv : Server} {c : Nat} {q : ConnectPacket} {uuid : Str} {w : Bool} {k : Nat}
    {P : MemoryStore → Prop} (hl : ∀ e ∈ srv.startEffects q uuid w, ∀ s, P s → P (storeAfter s [e])) (h : P srv.store) :
    P (srv.crash cfg (.first c (.connect q) uuid w) k).1.store := by
  rw [crash_store]
  apply prefix_keeps _ _ _ _ h
  intro e he s hs
  simp only [Server.effects] at he
  split at he
  · simp at he
  · split at he
    · rw [List.mem_singleton] at he; subst he; exact hs
    · exact hl e he s hs

/-- C132: whenever the process dies during a connection attempt, the retained messages, the unacknowledged messages of all
clients, and the stored sessions and wills of all other clients are as they were. -/
theorem C132_connect_others (cfg : AuthConfig) (srv : Server) (c : Nat) (q : ConnectPacket) (uuid : Str) (w : Bool) (k : Nat) :
    let found := (srv.crash cfg (.first c (.connect q) uuid w) k).1.store
    found.retained = srv.store.retained ∧ found.inflight = srv.store.inflight ∧
    ∀ cid, cid ≠ q.payload.clientId → cid ≠ uuid →
      found.loadSession cid = srv.store.loadSession cid ∧ found.getWill cid = srv.store.getWill cid := by
  intro found
  refine crash_first (P := fun x => x.retained = srv.store.retained ∧ x.inflight = srv.store.inflight ∧
    ∀ cid, cid ≠ q.payload.clientId → cid ≠ uuid →
      x.loadSession cid = srv.store.loadSession cid ∧ x.getWill cid = srv.store.getWill cid) ?_
    ⟨rfl, rfl, fun _ _ _ => ⟨rfl, rfl⟩⟩
  intro e he s ⟨h1, h2, h3⟩
  obtain ⟨i, hi, h⟩ := mem_startEffects he
  have hne : ∀ {cid : Str}, cid ≠ q.payload.clientId → cid ≠ uuid → i ≠ cid := by
    intro cid a b hc
    rcases hi with hi | hi
    · exact a (hc ▸ hi)
    · exact b (hc ▸ hi)
  rcases h with ⟨_, rfl | rfl⟩ | ⟨x, rfl⟩ | rfl | ⟨x, rfl⟩
  · refine ⟨h1, h2, fun cid a b => ⟨?_, (h3 cid a b).2⟩⟩
    rw [← (h3 cid a b).1]
    exact (Map.get_erase _ _ _).trans (if_neg (hne a b))
  · refine ⟨h1, h2, fun cid a b => ⟨(h3 cid a b).1, ?_⟩⟩
    rw [← (h3 cid a b).2]
    exact (Map.get_erase _ _ _).trans (if_neg (hne a b))
  · exact ⟨h1, h2, h3⟩
  · refine ⟨h1, h2, fun cid a b => ⟨?_, (h3 cid a b).2⟩⟩
    rw [← (h3 cid a b).1]
    exact (Map.get_insert _ _ _ _).trans (if_neg (hne a b))
  · refine ⟨h1, h2, fun cid a b => ⟨(h3 cid a b).1, ?_⟩⟩
    rw [← (h3 cid a b).2]
    exact (Map.get_insert _ _ _ _).trans (if_neg (hne a b))

/-- A clean start of another client. -/
example : str "x" ≠ (exConnect (str "y") true).payload.clientId ∧ str "x" ≠ str "u" ∧
    ((exServer.crash exCfg (.first 1 (.connect (exConnect (str "y") true)) (str "u") true) 4).1.store.loadSession
      (str "x")).isSome := by decide +kernel

/-- A client that resumes its session from storage. -/
theorem resumed_from_storage {cfg : AuthConfig} {srv : Server} {c : Nat} {q : ConnectPacket} {uuid : Str} {st : SessionState}
    (ha : Admitted cfg srv c q) (hclean : q.flags.cleanStart = false) (hmem : srv.sessions.get q.payload.clientId = none)
    (hst : srv.store.loadSession q.payload.clientId = some st) :
    let r := srv.step cfg (.first c (.connect q) uuid true)
    r.2.sent = .connAck (connAckOf q uuid true) :: (srv.store.getAllInflight q.payload.clientId).map resent ∧
    ∃ s, r.1.at c = some s ∧ (∀ f, f ∈ s.filters ↔ f ∈ st.subscriptions) := by
  intro r
  have hfind : srv.find q.payload.clientId q.flags.cleanStart = ⟨true, st.subscriptions,
      srv.store.getWill q.payload.clientId, srv.store.getAllInflight q.payload.clientId⟩ := by
    unfold Server.find
    simp [hclean, hmem, hst]
  have hd : srv.discard q.payload.clientId q.flags.cleanStart = srv := by
    unfold Server.discard; rw [hclean]; rfl
  have he : (srv.enter q).2.2 = Session.new q := by
    unfold Server.enter; rw [hmem]
  have e3 : r = srv.start c q uuid true := step_first ha
  obtain ⟨i1, i2, _⟩ := enter_session srv q
  constructor
  · rw [e3]
    simp only [Server.start, if_true, hfind, hd]
    rw [(begin_eq _ uuid _ q i1 i2).1]; rfl
  · refine ⟨restoreWill ((((srv.enter q).2.2.begin uuid true).1).restoreSubscriptions
        ((srv.enter q).1.mapStore (saveStart ((srv.enter q).2.2.begin uuid true).1 st.subscriptions)).world st.subscriptions).1
          (srv.store.getWill q.payload.clientId), ?_, ?_⟩
    · rw [e3]
      simp only [Server.start, if_true, hfind, hd]
      exact at_eq_some.mpr ⟨_, (Map.get_insert _ _ _ _).trans (if_pos rfl), (Map.get_insert _ _ _ _).trans (if_pos rfl)⟩
    · intro f
      rw [restoreWill_filters, restoreSubscriptions_filters]
      have : (((srv.enter q).2.2.begin uuid true).1).filters = [] := by
        rw [he]
        unfold Session.filters
        rw [begin_subscriptions]; rfl
      rw [this]; simp

/-- C132: a crash in the middle of a resumption costs nothing.  A client resumes its session from storage, the process dies at
any point of it, and the client tries again: it is told that its session is present, is sent all its unacknowledged
messages again, and has the subscriptions that were stored. -/
theorem C132_resumption (cfg : AuthConfig) (srv : Server) (c : Nat) (q : ConnectPacket) (uuid : Str) (w : Bool) (k : Nat)
    (hclean : q.flags.cleanStart = false) (hmem : srv.sessions.get q.payload.clientId = none) (st : SessionState)
    (hst : srv.store.loadSession q.payload.clientId = some st) (c' : Nat) (q' : ConnectPacket) (uuid' : Str)
    (hq : q'.payload.clientId = q.payload.clientId) (hclean' : q'.flags.cleanStart = false) :
    let after := (srv.crash cfg (.first c (.connect q) uuid w) k).1
    Admitted cfg after c' q' →
    let r := after.step cfg (.first c' (.connect q') uuid' true)
    r.2.sent = .connAck (connAckOf q' uuid' true) :: (srv.store.getAllInflight q.payload.clientId).map resent ∧
    ∃ s, r.1.at c' = some s ∧ (∀ f, f ∈ s.filters ↔ f ∈ st.subscriptions) := by
  intro after ha r
  have hfind : (srv.find q.payload.clientId q.flags.cleanStart).subscriptions = st.subscriptions := by
    unfold Server.find
    simp [hclean, hmem, hst]
  have hs : ∃ st', after.store.loadSession q.payload.clientId = some st' ∧ st'.subscriptions = st.subscriptions := by
    refine crash_first (P := fun x => ∃ st', x.loadSession q.payload.clientId = some st' ∧
      st'.subscriptions = st.subscriptions) ?_ ⟨st, hst, rfl⟩
    intro e he s hP
    obtain ⟨i, hi, h⟩ := mem_startEffects he
    rcases h with ⟨hc, _⟩ | ⟨x, rfl⟩ | rfl | ⟨x, rfl⟩
    · rw [hclean] at hc; simp at hc
    · exact hP
    · by_cases hii : i = q.payload.clientId
      · exact ⟨_, (Map.get_insert _ _ _ _).trans (if_pos hii), hfind⟩
      · obtain ⟨st', h1, h2⟩ := hP
        exact ⟨st', ((Map.get_insert _ _ _ _).trans (if_neg hii)).trans h1, h2⟩
    · exact hP
  obtain ⟨st', h1, h2⟩ := hs
  have hI : after.store.inflight = srv.store.inflight := (C132_connect_others cfg srv c q uuid w k).2.1
  obtain ⟨a, b⟩ := resumed_from_storage (uuid := uuid') ha hclean' rfl (hq ▸ h1)
  rw [hq] at a
  have hall : after.store.getAllInflight q.payload.clientId = srv.store.getAllInflight q.payload.clientId := by
    unfold MemoryStore.getAllInflight; rw [hI]
  rw [hall] at a
  rw [h2] at b
  exact ⟨a, b⟩

/-- The server of the examples after a restart: the session of `x` is stored; a second attempt is admitted. -/
example : (exServer.step exCfg .restart).1.sessions.get (exConnect (str "x") false).payload.clientId = none ∧
    (exServer.step exCfg .restart).1.store.loadSession (exConnect (str "x") false).payload.clientId =
      some ⟨str "x", [str "a/+"], false⟩ := by decide +kernel
example : Admitted exCfg ((exServer.step exCfg .restart).1.crash exCfg
    (.first 1 (.connect (exConnect (str "x") false)) (str "u") true) 1).1 2 (exConnect (str "x") false) :=
  crash_admits _ _ _ _ _ (exServer_admits false).2

/-! ## What clients see -/

/-- C132: a SUBSCRIBE or UNSUBSCRIBE that was answered survives a crash right after the answer: when the client comes back it
has exactly the filters it had after the packet, and is told so. -/
theorem C132_subscriptions (cfg : AuthConfig) (srv : Server) (c : Nat) (s : Session) (h : srv.at c = some s) (p : Packet)
    (hp : (∃ x, p = .subscribe x) ∨ (∃ x, p = .unsubscribe x)) (k : Nat)
    (hw : (srv.crash cfg (.recv c p) k).2 ≠ []) (c' : Nat) (q : ConnectPacket) (uuid : Str)
    (hq : q.payload.clientId = s.clientId) (hclean : q.flags.cleanStart = false) :
    let after := (srv.crash cfg (.recv c p) k).1
    Admitted cfg after c' q →
    let r := after.step cfg (.first c' (.connect q) uuid true)
    ∃ s1 s2, (srv.step cfg (.recv c p)).1.at c = some s1 ∧ r.1.at c' = some s2 ∧ (∀ f, f ∈ s2.filters ↔ f ∈ s1.filters) ∧
      r.2.sent.head? = some (.connAck (connAckOf q uuid true)) := by
  intro after ha r
  obtain ⟨s1, h1, hid, hload⟩ := C39_saved cfg srv c s h p hp
  have he : after = ((srv.step cfg (.recv c p)).1.step cfg .restart).1 :=
    C132_answered_is_stored cfg srv (.recv c p) (fun _ _ _ _ => by simp) k hw
  have hl : after.store.loadSession q.payload.clientId = some ⟨s1.clientId, s1.filters, false⟩ := by
    rw [he, hq, ← hid]; exact hload
  obtain ⟨a, s2, b1, b2⟩ := resumed_from_storage (uuid := uuid) ha hclean (by rw [he]; rfl) hl
  exact ⟨s1, s2, h1, b1, b2, by rw [a]; rfl⟩

example : (∃ s, exServer.at 0 = some s) ∧
    (exServer.crash exCfg (.recv 0 (.subscribe ⟨2, none, [⟨str "b", {}⟩]⟩)) 2).2 ≠ [] ∧
    Admitted exCfg (exServer.crash exCfg (.recv 0 (.subscribe ⟨2, none, [⟨str "b", {}⟩]⟩)) 2).1 1
      (exConnect (str "x") false) :=
  ⟨exServer_at, by decide +kernel, crash_admits _ _ _ _ _ (exServer_admits false).2⟩

/-- C132: a message of QoS 1 or 2 that was written to a client is not lost by a crash right after: after every history, if the
client comes back to its stored session it is sent the message again, under the same packet identifier and marked
as duplicate. -/
theorem C132_messages (cfg : AuthConfig) (es : List Event) (c : Nat) (f : Str) (k : Nat) (p : PublishPacket) (id : UInt16)
    (hid : p.packetId = some id) (hqos : p.qos = .atLeastOnce ∨ p.qos = .exactlyOnce) (s : Session)
    (hs : (Server.init.run cfg es).at c = some s) (hst : ((Server.init.run cfg es).store.loadSession s.clientId).isSome)
    (hw : ((Server.init.run cfg es).crash cfg (.deliver c f) k).2 = [.publish p]) (c' : Nat) (q : ConnectPacket) (uuid : Str)
    (hq : q.payload.clientId = s.clientId) (hclean : q.flags.cleanStart = false) :
    let after := ((Server.init.run cfg es).crash cfg (.deliver c f) k).1
    Admitted cfg after c' q →
    .publish ⟨true, p.qos, false, p.topicName, some id, none, p.payload⟩ ∈
      (after.step cfg (.first c' (.connect q) uuid true)).2.sent := by
  intro after ha
  have he : after = Server.init.run cfg (es ++ [.deliver c f, .restart]) := by
    rw [run_append]
    exact C132_answered_is_stored cfg _ (.deliver c f) (fun _ _ _ _ => by simp) k (by rw [hw]; simp)
  have hsent : ((Server.init.run cfg es).step cfg (.deliver c f)).2.sent = [.publish p] := by
    obtain ⟨t, ht⟩ := C132_prefix cfg (Server.init.run cfg es) (.deliver c f) k
    rw [hw] at ht
    have hlen : ((Server.init.run cfg es).step cfg (.deliver c f)).2.sent.length ≤ 1 := by
      simp only [Server.step, Server.onConn]
      split
      · simp
      · split
        · simp
        · unfold Server.deliver; split <;> simp
    rw [← ht] at hlen ⊢
    have : t = [] := by simpa using hlen
    rw [this, List.append_nil]
  have hload : (after.store.loadSession q.payload.clientId).isSome := by
    rw [he, run_append, hq]
    show (((Server.init.run cfg es).step cfg (.deliver c f)).1.store.loadSession s.clientId).isSome
    rw [(leaves_step cfg (cid := s.clientId) (srv := Server.init.run cfg es) (e := .deliver c f) (fun h => h)).1]
    exact hst
  rw [he] at ha hload ⊢
  obtain ⟨ack, again, h1, _, h3⟩ := C41_resent cfg (es ++ [.deliver c f, .restart]) c' q uuid ha hclean
    (by rw [run_append]; rfl) hload
  rw [h1]
  apply List.mem_cons_of_mem
  refine List.mem_map.mpr ⟨⟨id, p.topicName, p.payload, p.qos, p.dup⟩, ?_, rfl⟩
  rw [h3]
  rw [show es ++ [Event.deliver c f, .restart] = (es ++ [.deliver c f]) ++ [.restart] by simp, unacknowledged_snoc,
    unacknowledged_snoc]
  have hn : (Server.init.run cfg es).nameOf c = some q.payload.clientId := by
    unfold Server.nameOf; rw [hs, hq]; rfl
  simp only [inflightAfter, hsent, hn, recordOf, hid, hqos, and_self, if_true, Option.isSome_some, true_and]

/-- The client of the examples publishes to itself with QoS 1. -/
def exToItself : List Event :=
  [.first 0 (.connect (exConnect (str "x") true)) (str "uuid") true,
    .recv 0 (.subscribe ⟨1, none, [⟨str "a/+", {}⟩]⟩),
    .recv 0 (.publish { qos := .atLeastOnce, topicName := str "a/b", packetId := some 7, payload := some (str "m") })]

/-- The message is written, and the process dies before anything else is done. -/
example : ((Server.init.run exCfg exToItself).crash exCfg (.deliver 0 (str "a/+")) 2).2 =
      [.publish { qos := .atLeastOnce, topicName := str "a/+", packetId := some 7, payload := some (str "m") }] ∧
    (((Server.init.run exCfg exToItself).at 0).map (·.clientId)) = some (str "x") ∧
    ((Server.init.run exCfg exToItself).store.loadSession (str "x")).isSome := by decide +kernel

/-! ## Where it does not hold -/

theorem effects_first {cfg : AuthConfig} {srv : Server} {c : Nat} {p : ConnectPacket} {uuid : Str}
    {written : Bool} (h : Admitted cfg srv c p) :
    srv.effects cfg (.first c (.connect p) uuid written) = srv.startEffects p uuid written := by
  obtain ⟨ho, ha⟩ := h
  have hc : srv.conns.get c = none := by
    cases hc : srv.conns.get c with
    | none => rfl
    | some k => exact absurd ⟨k, hc⟩ ho
  simp only [Server.effects, hc, Option.isSome_none, Bool.false_eq_true, if_false]
  rw [if_neg]
  intro hb
  simp only [Bool.and_eq_true, Bool.not_eq_true'] at hb
  have := (authenticated_iff cfg p).mpr (ha hb.1)
  rw [this] at hb
  simp at hb

/-- C132 is false for connection attempts: the CONNACK is written before the session is stored.  For every server and every
admitted client with a clean start, if the process dies right after the CONNACK then nothing of the session is stored: when
the client comes back it is told that it has none. -/
theorem C132_connack_false (cfg : AuthConfig) (srv : Server) (c : Nat) (q : ConnectPacket) (uuid : Str)
    (h : Admitted cfg srv c q) (hclean : q.flags.cleanStart = true) :
    ∃ k, (srv.crash cfg (.first c (.connect q) uuid true) k).2 = [.connAck (connAckOf q uuid false)] ∧
      let after := (srv.crash cfg (.first c (.connect q) uuid true) k).1
      after.store.loadSession q.payload.clientId = none ∧ after.store.getWill q.payload.clientId = none ∧
      ∀ c' q' uuid', q'.payload.clientId = q.payload.clientId → Admitted cfg after c' q' →
        (after.step cfg (.first c' (.connect q') uuid' true)).2.sent = [.connAck (connAckOf q' uuid' false)] := by
  have hf : srv.find q.payload.clientId true = Found.none := rfl
  obtain ⟨e1, e2, _⟩ := enter_session (srv.discard q.payload.clientId true) q
  have heff : (srv.effects cfg (.first c (.connect q) uuid true)).take 3 =
      [.store (.deleteSession q.payload.clientId), .store (.deleteWill q.payload.clientId),
        .write (.connAck (connAckOf q uuid false))] := by
    rw [effects_first h]
    simp only [Server.startEffects, hclean, if_true, hf]
    rw [← (begin_eq _ uuid false q e1 e2).1]
    rfl
  have hload : (srv.crash cfg (.first c (.connect q) uuid true) 3).1.store.loadSession q.payload.clientId = none := by
    rw [crash_store, heff]
    exact (Map.get_erase _ _ _).trans (if_pos rfl)
  refine ⟨3, ?_, hload, ?_, ?_⟩
  · show writtenIn _ = _
    rw [heff]; rfl
  · rw [crash_store, heff]
    exact (Map.get_erase _ _ _).trans (if_pos rfl)
  · intro c' q' uuid' hq ha
    have hfind : ((srv.crash cfg (.first c (.connect q) uuid true) 3).1).find q'.payload.clientId q'.flags.cleanStart =
        Found.none := by
      unfold Server.find
      split
      · rfl
      · rw [hq, hload]; rfl
    rw [step_first ha]
    simp only [Server.start, if_true, hfind]
    obtain ⟨e1, e2, _⟩ := enter_session (((srv.crash cfg (.first c (.connect q) uuid true) 3).1).discard q'.payload.clientId
      q'.flags.cleanStart) q'
    rw [(begin_eq _ uuid' _ q' e1 e2).1]
    rfl

example : Admitted exCfg exServer 1 (exConnect (str "x") true) := exServer_admits true

/-- C132 is false for the removals of a clean start: the stored session is deleted first, the stored will after it.  For every
server with a stored will of a client, if the process dies between the two, the will outlives the clean start: the client
comes back with a CONNECT without will, the server is restarted once more, the client comes back again and loses its
connection; now the old will is published. -/
theorem C132_old_will_false (cfg : AuthConfig) (srv : Server) (c : Nat) (q : ConnectPacket) (uuid : Str)
    (h : Admitted cfg srv c q) (hclean : q.flags.cleanStart = true) (hne : q.payload.clientId ≠ []) (will : StoredWill)
    (hwill : srv.store.getWill q.payload.clientId = some will) (c' : Nat) (q' : ConnectPacket)
    (hq : q'.payload.clientId = q.payload.clientId) (hclean' : q'.flags.cleanStart = false) (hnone : willIn q' = none) :
    ∃ k, let after := (srv.crash cfg (.first c (.connect q) uuid true) k).1
      Admitted cfg after c' q' →
      published cfg after [.first c' (.connect q') uuid true, .restart, .first c' (.connect q') uuid true, .close c'] =
        [(will.topic, willMessage will)] := by
  refine ⟨1, ?_⟩
  intro after ha
  have heff : (srv.effects cfg (.first c (.connect q) uuid true)).take 1 = [.store (.deleteSession q.payload.clientId)] := by
    rw [effects_first h]
    simp only [Server.startEffects, hclean, if_true]
    rfl
  have h1 : after.store.loadSession q'.payload.clientId = none := by
    show (srv.crash cfg (.first c (.connect q) uuid true) 1).1.store.loadSession _ = _
    rw [crash_store, heff, hq]
    exact (Map.get_erase _ _ _).trans (if_pos rfl)
  have h2 : after.store.getWill q'.payload.clientId = some will := by
    show (srv.crash cfg (.first c (.connect q) uuid true) 1).1.store.getWill _ = _
    rw [crash_store, heff, hq]
    exact hwill
  have h3 : after.sessions.get q'.payload.clientId = none := rfl
  have hne' : q'.payload.clientId ≠ [] := by rw [hq]; exact hne
  clear_value after
  have hfind : after.find q'.payload.clientId q'.flags.cleanStart = Found.none := by
    unfold Server.find; simp [hclean', h3, h1]
  -- the session without will
  have hs1 := step_first (uuid := uuid) (written := true) ha
  have hload : (after.start c' q' uuid true).1.store.loadSession q'.payload.clientId =
      some ⟨q'.payload.clientId, [], false⟩ := by
    rw [(began after c' q' uuid).stored, hfind]
    have hi : identity q' uuid = q'.payload.clientId := by unfold identity; rw [if_neg hne']
    rw [if_pos hi]; rfl
  have hwill2 : (after.start c' q' uuid true).1.store.getWill q'.payload.clientId = some will := by
    rw [(start_effects after c' q' uuid true).1]
    unfold Server.startEffects
    obtain ⟨e1, e2, e3⟩ := enter_session (after.discard q'.payload.clientId q'.flags.cleanStart) q'
    have hb := (begin_eq _ uuid (after.find q'.payload.clientId q'.flags.cleanStart).resume q' e1 e2).2.2.1
    have hw0 : ((after.discard q'.payload.clientId q'.flags.cleanStart).enter q').2.2.will = none := by
      rw [e3, ← willIn_eq]; exact hnone
    have hf := hfind
    rw [hclean'] at hb hw0 hf
    rw [hf, hw0] at hb
    simp only [hclean', hf, hb]
    exact h2
  -- the restart
  have ha2 : Admitted cfg (((after.start c' q' uuid true).1.step cfg .restart).1) c' q' :=
    ⟨fun ⟨k, hk⟩ => by simp [Server.step, Map.get] at hk, ha.2⟩
  generalize hv : ((after.start c' q' uuid true).1.step cfg .restart).1 = v at ha2
  have v1 : v.store.loadSession q'.payload.clientId = some ⟨q'.payload.clientId, [], false⟩ := by rw [← hv]; exact hload
  have v2 : v.store.getWill q'.payload.clientId = some will := by rw [← hv]; exact hwill2
  have v3 : v.sessions.get q'.payload.clientId = none := by rw [← hv]; rfl
  have vfind : v.find q'.payload.clientId q'.flags.cleanStart =
      ⟨true, [], some will, v.store.getAllInflight q'.payload.clientId⟩ := by
    unfold Server.find; simp [hclean', v3, v1, v2]
  have hat : ∃ s, (v.start c' q' uuid true).1.at c' = some s ∧ s.will = some will := by
    simp only [Server.start, if_true, vfind]
    exact ⟨_, at_eq_some.mpr ⟨_, (Map.get_insert _ _ _ _).trans (if_pos rfl), (Map.get_insert _ _ _ _).trans (if_pos rfl)⟩,
      rfl⟩
  obtain ⟨s, hs, hsw⟩ := hat
  have hs2 := step_first (uuid := uuid) (written := true) ha2
  rw [show [Event.first c' (.connect q') uuid true, .restart, .first c' (.connect q') uuid true, .close c'] =
    [.first c' (.connect q') uuid true, .restart, .first c' (.connect q') uuid true] ++ [.close c'] from rfl, published_snoc,
    show [Event.first c' (.connect q') uuid true, .restart, .first c' (.connect q') uuid true] =
    [.first c' (.connect q') uuid true, .restart] ++ [.first c' (.connect q') uuid true] from rfl, published_snoc,
    show [Event.first c' (.connect q') uuid true, .restart] =
    [.first c' (.connect q') uuid true] ++ [.restart] from rfl, published_snoc, published_one]
  have r1 : after.run cfg [.first c' (.connect q') uuid true] = (after.start c' q' uuid true).1 := by
    show (after.step cfg _).1 = _
    rw [hs1]
  have r2 : after.run cfg ([.first c' (.connect q') uuid true] ++ [.restart]) = v := by
    rw [run_snoc, r1, hv]
  have r3 : after.run cfg ([.first c' (.connect q') uuid true] ++ [.restart] ++ [.first c' (.connect q') uuid true]) =
      (v.start c' q' uuid true).1 := by
    rw [run_snoc, r2, hs2]
  rw [r3, r2, r1]
  simp only [eventCalls, hfind, vfind, hs, willCalls, hsw, Found.none, List.map_nil, ite_self]
  rfl

/-- The will of `x` is stored, and `x` connects with a clean start; then it comes back without will. -/
example : Admitted exCfg exServer 1 (exConnect (str "x") true) ∧ (exServer.store.getWill (str "x")).isSome ∧
    (let q : ConnectPacket := { exConnect (str "x") false with flags := { userName := true, password := true } }
     willIn q = none ∧ q.flags.cleanStart = false ∧
     Admitted exCfg (exServer.crash exCfg (.first 1 (.connect (exConnect (str "x") true)) (str "u") true) 1).1 2 q) :=
  ⟨exServer_admits true, by decide +kernel, rfl, rfl, crash_admits _ _ _ _ _ (exServer_admits false).2⟩

end Mercurio
