import Verif.Lemmas.Delivery
import Verif.Lemmas.Net
import Verif.Spec.Client

/-!
# Servers whose clients send ordinary packets

If the packets a server receives are ordinary (no invalid QoS, no AUTH, sizes within limits, wills with
QoS 0 and a valid topic), everything it stores and sends is ordinary, too.
-/

namespace Mercurio

open Spec Server

/-- A message that can be sent on under any filter. -/
structure GoodMsg (m : Message) : Prop where
  qos : m.qos ≠ .invalid
  id : m.packetId.isSome ↔ m.qos ≠ .atMostOnce
  size : (m.payload.getD []).length + 65545 ≤ 2 ^ 28

/-- A will that can be published. -/
structure GoodWill (w : StoredWill) : Prop where
  topic : ValidTopic w.topic
  qos : w.qos = .atMostOnce
  size : w.payload.length ≤ 65535

/-- A record of a message in flight that can be sent again. -/
structure GoodInflight (i : Inflight) : Prop where
  topic : TextField i.topic
  qos : i.qos = .atLeastOnce ∨ i.qos = .exactlyOnce
  size : (i.payload.getD []).length + 65545 ≤ 2 ^ 28

/-- An ordinary packet from a client; `W` tells which wills there are. -/
def GoodPacket (W : StoredWill → Prop) : Packet → Prop
  | .publish p => GoodMsg (Session.messageOf p)
  | .subscribe p => p.payload ≠ [] ∧ (∀ e ∈ p.payload, TextField e.topicFilter) ∧
      p.payload.length + 4 < 2 ^ 28
  | .unsubscribe p => p.payload ≠ [] ∧ p.payload.length + 4 < 2 ^ 28
  | .connect p => ∀ w, willOfConnect p = some w → W w
  | .auth _ => False
  | _ => True

/-- An ordinary event. -/
def GoodEvent (W : StoredWill → Prop) : Event → Prop
  | .first _ p uuid _ => GoodPacket W p ∧ TextField uuid
  | .recv _ p => GoodPacket W p
  | .restart => False
  | _ => True

/-- A session of an ordinary client. -/
structure SessTame (W : StoredWill → Prop) (s : Session) : Prop where
  will : ∀ w, s.will = some w → W w
  filters : ∀ f, (s.subscriptions.get f).isSome → TextField f

/-- The storage of a server with ordinary clients. -/
structure StoreTame (W : StoredWill → Prop) (st : MemoryStore) : Prop where
  wills : ∀ cid w, st.wills.get cid = some w → W w
  filters : ∀ cid x, st.sessions.get cid = some x → ∀ f ∈ x.subscriptions, TextField f
  inflight : ∀ cid, ∀ i ∈ st.getAllInflight cid, GoodInflight i

/-- A server with ordinary clients. -/
structure Tame (W : StoredWill → Prop) (srv : Server) : Prop where
  log : ∀ q ∈ Call.publications srv.world.log, GoodMsg q.2 ∧ ValidTopic q.1
  sessions : ∀ r s, srv.heap.get r = some s → SessTame W s
  store : StoreTame W srv.store
  wills : ∀ c t m, Call.publish (.will c) t m ∈ srv.world.log → ∃ w, W w ∧ t = w.topic ∧
    m = willMessage w

variable {W : StoredWill → Prop}

theorem tame_init : Tame W Server.init := by
  refine ⟨by simp [Server.init, Call.publications], by simp [Server.init, Map.get], ?_, by simp [Server.init]⟩
  refine ⟨by simp [Server.init, Server.store, MemoryStore.new, Map.get],
    by simp [Server.init, Server.store, MemoryStore.new, Map.get],
    by simp [Server.init, Server.store, MemoryStore.new, MemoryStore.getAllInflight, Map.get]⟩

/-! ## Storage -/

theorem StoreTame.congr {a b : MemoryStore} (h : StoreTame W a) (h1 : b.wills = a.wills)
    (h2 : b.sessions = a.sessions) (h3 : b.inflight = a.inflight) : StoreTame W b := by
  refine ⟨by rw [h1]; exact h.wills, by rw [h2]; exact h.filters, fun cid i hi => ?_⟩
  refine h.inflight cid i ?_
  unfold MemoryStore.getAllInflight at hi ⊢
  rw [h3] at hi; exact hi

theorem StoreTame.publish {st : MemoryStore} (h : StoreTame W st) (t : Str) (m : Message) :
    StoreTame W (Broker.publishStore st t m) := by
  unfold Broker.publishStore
  split
  · split <;> exact h.congr rfl rfl rfl
  · exact h

theorem StoreTame.deleteWill {st : MemoryStore} (h : StoreTame W st) (c : Str) :
    StoreTame W (st.deleteWill c) := by
  refine ⟨fun cid w hw => ?_, h.filters, h.inflight⟩
  have hw' : (st.wills.erase c).get cid = some w := hw
  rw [Map.get_erase] at hw'
  split at hw'
  · simp at hw'
  · exact h.wills cid w hw'

theorem StoreTame.storeWill {st : MemoryStore} (h : StoreTame W st) (c : Str) {w : StoredWill}
    (hw : W w) : StoreTame W (st.storeWill c w) := by
  refine ⟨fun cid w' hw' => ?_, h.filters, h.inflight⟩
  have hw' : (st.wills.insert c w).get cid = some w' := hw'
  rw [Map.get_insert] at hw'
  split at hw'
  · cases hw'; exact hw
  · exact h.wills cid w' hw'

theorem StoreTame.saveSession {st : MemoryStore} (h : StoreTame W st) (c c' : Str) {l : List Str}
    (hl : ∀ f ∈ l, TextField f) : StoreTame W (st.saveSession c (stateOf c' l)) := by
  refine ⟨h.wills, fun cid x hx => ?_, h.inflight⟩
  have hx' : (st.sessions.insert c (stateOf c' l)).get cid = some x := hx
  rw [Map.get_insert] at hx'
  split at hx'
  · cases hx'; exact hl
  · exact h.filters cid x hx'

theorem StoreTame.deleteSession {st : MemoryStore} (h : StoreTame W st) (c : Str) :
    StoreTame W (st.deleteSession c) := by
  refine ⟨h.wills, fun cid x hx => ?_, h.inflight⟩
  have hx' : (st.sessions.erase c).get cid = some x := hx
  rw [Map.get_erase] at hx'
  split at hx'
  · simp at hx'
  · exact h.filters cid x hx'

theorem mem_map_erase {K V : Type} [DecidableEq K] (m : Map K V) (k : K) (v : V)
    (h : v ∈ (m.erase k).map Prod.snd) : v ∈ m.map Prod.snd := by
  obtain ⟨e, he, rfl⟩ := List.mem_map.mp h
  exact List.mem_map.mpr ⟨e, (List.mem_filter.mp he).1, rfl⟩

theorem StoreTame.removeInflight {st : MemoryStore} (h : StoreTame W st) (c : Str) (id : UInt16) :
    StoreTame W (st.removeInflight c id) := by
  unfold MemoryStore.removeInflight
  cases hc : st.inflight.get c with
  | none => exact h
  | some msgs =>
    refine ⟨h.wills, h.filters, fun cid i hi => ?_⟩
    unfold MemoryStore.getAllInflight at hi
    simp only [Map.get_insert] at hi
    by_cases hcc : c = cid
    · subst hcc
      rw [if_pos rfl] at hi
      refine h.inflight c i ?_
      unfold MemoryStore.getAllInflight
      rw [hc]
      exact mem_map_erase _ _ _ hi
    · rw [if_neg hcc] at hi
      exact h.inflight cid i hi

theorem StoreTame.storeInflight {st : MemoryStore} (h : StoreTame W st) (c : Str) (id : UInt16)
    {x : Inflight} (hx : GoodInflight x) : StoreTame W (st.storeInflight c id x) := by
  refine ⟨h.wills, h.filters, fun cid i hi => ?_⟩
  unfold MemoryStore.getAllInflight MemoryStore.storeInflight at hi
  simp only [Map.get_insert] at hi
  by_cases hcc : c = cid
  · subst hcc
    rw [if_pos rfl] at hi
    simp only [Map.insert, List.map_cons, List.mem_cons] at hi
    rcases hi with rfl | hi
    · exact hx
    · refine h.inflight c i ?_
      have := mem_map_erase _ _ _ hi
      unfold MemoryStore.getAllInflight
      cases hc : st.inflight.get c with
      | none => rw [hc] at this; simp at this
      | some msgs => rw [hc] at this; exact this
  · rw [if_neg hcc] at hi
    exact h.inflight cid i hi

/-! ## Sessions -/

theorem SessTame.congr {s s' : Session} (h : SessTame W s) (h1 : s'.will = s.will)
    (h2 : s'.subscriptions = s.subscriptions) : SessTame W s' :=
  ⟨by rw [h1]; exact h.will, by rw [h2]; exact h.filters⟩

theorem SessTame.list {s : Session} (h : SessTame W s) : ∀ f ∈ s.filters, TextField f :=
  fun f hf => h.filters f ((Map.get_isSome _ _).mpr hf)

theorem SessTame.add {s : Session} (h : SessTame W s) (w : World) {f : Str} (hf : TextField f) :
    SessTame W (s.addSubscription w f).1 := by
  refine ⟨h.will, fun g hg => ?_⟩
  rw [addSubscription_get] at hg
  split at hg
  · rename_i e; subst e; exact hf
  · exact h.filters g hg

theorem SessTame.subscribeLoop (fs : List Str) : ∀ {s : Session} (w : World), SessTame W s →
    (∀ f ∈ fs, TextField f) → SessTame W (s.subscribeLoop w fs).1 := by
  induction fs with
  | nil => intro s w h _; exact h
  | cons f fs ih =>
    intro s w h hf
    by_cases hv : ValidFilter f
    · rw [subscribeLoop_cons_valid _ _ _ hv]
      exact ih _ (h.add w (hf f (by simp))) (fun g hg => hf g (by simp [hg]))
    · rw [subscribeLoop_cons_invalid _ _ _ hv]
      exact ih _ h (fun g hg => hf g (by simp [hg]))

theorem SessTame.restore (fs : List Str) : ∀ {s : Session} (w : World), SessTame W s →
    (∀ f ∈ fs, TextField f) → SessTame W (s.restoreSubscriptions w fs).1 := by
  induction fs with
  | nil => intro s w h _; exact h
  | cons f fs ih =>
    intro s w h hf
    exact ih _ (h.add w (hf f (by simp))) (fun g hg => hf g (by simp [hg]))

theorem SessTame.processIncoming {s : Session} (h : SessTame W s) (w : World) (m : Option AuthManager)
    (c : Nat) {p : Packet} (hp : GoodPacket W p) : SessTame W (s.processIncoming w m c p).session := by
  by_cases h1 : ∃ q, p = .subscribe q
  · obtain ⟨q, rfl⟩ := h1
    refine h.subscribeLoop _ w ?_
    intro f hf
    obtain ⟨e, he, rfl⟩ := List.mem_map.mp hf
    exact hp.2.1 e he
  by_cases h2 : ∃ q, p = .unsubscribe q
  · obtain ⟨q, rfl⟩ := h2
    refine ⟨h.will, fun f hf => h.filters f ?_⟩
    have e := (unsubscribeLoop_eq q.payload s.subscriptions).2 f
    have hf' : ((Session.unsubscribeLoop s.subscriptions q.payload).1.get f).isSome := hf
    rw [e] at hf'
    split at hf'
    · simp at hf'
    · exact hf'
  · exact h.congr (processIncoming_keeps s w m c p).1
      (processIncoming_subscriptions s w m c p (fun q e => h1 ⟨q, e⟩) (fun q e => h2 ⟨q, e⟩))

theorem processIncoming_store (s : Session) (w : World) (m : Option AuthManager) (c : Nat) (p : Packet)
    (h : StoreTame W w.broker.store) : StoreTame W (s.processIncoming w m c p).world.broker.store := by
  cases p with
  | publish p =>
    simp only [Session.processIncoming, Session.handlePublish]
    cases validatePublishTopic p.topicName with
    | error e => exact h
    | ok u => exact h.publish _ _
  | subscribe p =>
    simp only [Session.processIncoming, Session.handleSubscribe]
    rw [(subscribeLoop_world _ s w).1]; exact h
  | auth p =>
    simp only [Session.processIncoming, Session.handleAuth]
    cases m <;> exact h
  | _ => exact h

/-! ## The server -/

theorem goodMsg_will {w : StoredWill} (h : GoodWill w) :
    GoodMsg ⟨none, w.topic, false, w.qos, w.retain, some w.payload⟩ := by
  refine ⟨by show w.qos ≠ _; rw [h.qos]; simp, by show _ ↔ w.qos ≠ _; simp [h.qos], ?_⟩
  have := h.size
  show w.payload.length + 65545 ≤ _
  omega

theorem publications_will (hW : ∀ w, W w → GoodWill w) {c : Nat} {s : Session} (h : SessTame W s) :
    ∀ q ∈ Call.publications (willCalls c s), GoodMsg q.2 ∧ ValidTopic q.1 := by
  unfold willCalls
  cases hw : s.will with
  | none => simp [Call.publications]
  | some w =>
    intro q hq
    simp only [Call.publications, List.mem_singleton] at hq
    subst hq
    exact ⟨goodMsg_will (hW w (h.will w hw)), (hW w (h.will w hw)).topic⟩

theorem publications_packet {c : Nat} {p : Packet} (h : GoodPacket W p) :
    ∀ q ∈ Call.publications (packetCalls c p), GoodMsg q.2 ∧ ValidTopic q.1 := by
  have sub : ∀ l : List Str, Call.publications (l.map Call.subscribe) = [] := by
    intro l; induction l with
    | nil => rfl
    | cons a l ih => simpa [Call.publications] using ih
  cases p with
  | publish p =>
    simp only [packetCalls]
    split
    · rename_i hv
      intro q hq
      simp only [Call.publications, List.mem_singleton] at hq
      subst hq
      exact ⟨h, hv⟩
    · simp [Call.publications]
  | subscribe p => simp only [packetCalls, sub]; simp
  | _ => simp [packetCalls, Call.publications]

theorem publications_subscribe (l : List Str) : Call.publications (l.map Call.subscribe) = [] := by
  induction l with
  | nil => rfl
  | cons a l ih => simpa [Call.publications] using ih

/-- Calls on the broker stay ordinary. -/
theorem tame_log (hW : ∀ w, W w → GoodWill w) (cfg : AuthConfig) {srv : Server} (h : Tame W srv) {e : Event} (he : GoodEvent W e) :
    ∀ q ∈ Call.publications (srv.step cfg e).1.world.log, GoodMsg q.2 ∧ ValidTopic q.1 := by
  rw [step_log, Call.publications_append]
  intro q hq
  rcases List.mem_append.mp hq with hq | hq
  · exact h.log q hq
  have sess : ∀ {c s}, srv.at c = some s → SessTame W s := by
    intro c s hs
    obtain ⟨k, _, hh⟩ := at_eq_some.mp hs
    exact h.sessions _ _ hh
  cases e with
  | first c p uuid w =>
    cases p with
    | connect p =>
      simp only [eventCalls] at hq
      split at hq
      · rw [publications_subscribe] at hq; simp at hq
      · simp [Call.publications] at hq
    | _ => simp [eventCalls, Call.publications] at hq
  | recv c p =>
    simp only [eventCalls] at hq
    cases hs : srv.at c with
    | none => simp [hs, Call.publications] at hq
    | some s =>
      simp only [hs, Call.publications_append] at hq
      rcases List.mem_append.mp hq with hq | hq
      · exact publications_packet he q hq
      · split at hq
        · simp [Call.publications] at hq
        · exact publications_will hW (sess hs) q hq
  | deliver c f => simp [eventCalls, Call.publications] at hq
  | close c =>
    simp only [eventCalls] at hq
    cases hs : srv.at c with
    | none => simp [hs, Call.publications] at hq
    | some s =>
      simp only [hs] at hq
      exact publications_will hW (sess hs) q hq
  | abort c => simp [eventCalls, Call.publications] at hq
  | restart => exact he.elim

/-- Wills stay ordinary. -/
theorem tame_wills (cfg : AuthConfig) {srv : Server} (h : Tame W srv) {e : Event} (he : GoodEvent W e) :
    ∀ c t m, Call.publish (.will c) t m ∈ (srv.step cfg e).1.world.log → ∃ w, W w ∧ t = w.topic ∧
      m = willMessage w := by
  rw [step_log]
  intro c t m hq
  rcases List.mem_append.mp hq with hq | hq
  · exact h.wills c t m hq
  have sess : ∀ {c s}, srv.at c = some s → SessTame W s := by
    intro c s hs
    obtain ⟨k, _, hh⟩ := at_eq_some.mp hs
    exact h.sessions _ _ hh
  have will : ∀ {c' s}, srv.at c' = some s → Call.publish (.will c) t m ∈ willCalls c' s →
      ∃ w, W w ∧ t = w.topic ∧ m = willMessage w := by
    intro c' s hs hm
    unfold willCalls at hm
    cases hw : s.will with
    | none => rw [hw] at hm; simp at hm
    | some w =>
      rw [hw] at hm
      simp only [List.mem_singleton, Call.publish.injEq] at hm
      exact ⟨w, (sess hs).will w hw, hm.2.1, hm.2.2⟩
  cases e with
  | first c' p uuid w =>
    cases p with
    | connect p =>
      simp only [eventCalls] at hq
      split at hq <;> simp at hq
    | _ => simp [eventCalls] at hq
  | recv c' p =>
    simp only [eventCalls] at hq
    cases hs : srv.at c' with
    | none => simp [hs] at hq
    | some s =>
      simp only [hs] at hq
      rcases List.mem_append.mp hq with hq | hq
      · cases p with
        | publish p => simp only [packetCalls] at hq; split at hq <;> simp at hq
        | subscribe p => simp [packetCalls] at hq
        | _ => simp [packetCalls] at hq
      · split at hq
        · simp at hq
        · exact will hs hq
  | deliver c' f => simp [eventCalls] at hq
  | close c' =>
    simp only [eventCalls] at hq
    cases hs : srv.at c' with
    | none => simp [hs] at hq
    | some s => simp only [hs] at hq; exact will hs hq
  | abort c' => simp [eventCalls] at hq
  | restart => exact he.elim

theorem sessions_put {srv srv' : Server} (h : Tame W srv) {r : Nat} {s : Session} (hs : SessTame W s)
    (hh : srv'.heap = srv.heap.insert r s) : ∀ r' s', srv'.heap.get r' = some s' → SessTame W s' := by
  intro r' s' hr
  rw [hh, Map.get_insert] at hr
  split at hr
  · cases hr; exact hs
  · exact h.sessions _ _ hr

theorem store_finish {srv : Server} (h : StoreTame W srv.store) (c r : Nat) (s : Session) :
    StoreTame W (srv.finish c r s).store := by
  unfold finish
  cases s.will with
  | none => exact h
  | some w => exact (h.publish w.topic (willMessage w)).deleteWill s.clientId

theorem find_tame {srv : Server} (h : Tame W srv) (cid : Str) (clean : Bool) :
    (∀ f ∈ (srv.find cid clean).subscriptions, TextField f) ∧
    (∀ w, (srv.find cid clean).will = some w → W w) ∧
    ∀ i ∈ (srv.find cid clean).inflight, GoodInflight i := by
  unfold Server.find
  split
  · simp [Found.none]
  · split
    · simp
    · split
      · rename_i st hst
        exact ⟨h.store.filters cid st hst, fun w hw => h.store.wills cid w hw, h.store.inflight cid⟩
      · simp [Found.none]

theorem discard_enter_tame {srv : Server} (h : Tame W srv) (p : ConnectPacket) :
    StoreTame W ((srv.discard p.payload.clientId p.flags.cleanStart).enter p).1.store := by
  have h1 : StoreTame W (srv.discard p.payload.clientId p.flags.cleanStart).store := by
    unfold Server.discard
    split
    · exact (h.store.deleteSession _).deleteWill _
    · exact h.store
  generalize srv.discard p.payload.clientId p.flags.cleanStart = q at h1
  unfold enter
  cases q.sessions.get p.payload.clientId with
  | none => exact h1
  | some r =>
    cases hr : q.heap.get r with
    | none => simp only [hr]; exact h1
    | some s => simp only [hr]; exact h1

theorem enter_sess {srv : Server} (h : Tame W srv) {p : ConnectPacket} (hp : GoodPacket W (.connect p)) :
    SessTame W ((srv.discard p.payload.clientId p.flags.cleanStart).enter p).2.2 := by
  obtain ⟨_, _, _, _, h5⟩ := enter_discard srv p
  rcases h5 with ⟨_, _, ⟨s, hs, e⟩, _, _⟩ | ⟨_, _, e, _⟩
  · rw [e]; exact ⟨hp, (h.sessions _ _ hs).filters⟩
  · rw [e]; exact ⟨hp, by simp [Session.new, Map.get]⟩

theorem begin_will (s : Session) (uuid : Str) (resume : Bool) :
    (s.begin uuid resume).1.will = s.will := by
  unfold Session.begin; split <;> rfl

theorem begin_sess {s : Session} (h : SessTame W s) (uuid : Str) (resume : Bool) :
    SessTame W (s.begin uuid resume).1 :=
  h.congr (begin_will _ _ _) (begin_subscriptions _ _ _)

/-- Ordinary events keep a server ordinary. -/
theorem tame_step (hW : ∀ w, W w → GoodWill w) (cfg : AuthConfig) {srv : Server} (hsnd : Sound srv) (h : Tame W srv) {e : Event}
    (he : GoodEvent W e) : Tame W (srv.step cfg e).1 := by
  have hlog := tame_log hW cfg h he
  refine ⟨hlog, ?_, ?_, tame_wills cfg h he⟩
  all_goals clear hlog
  all_goals cases e with
  | abort c => first | exact h.sessions | exact h.store
  | restart => exact he.elim
  | close c =>
    cases ha : srv.at c with
    | none =>
      rw [show srv.step cfg (.close c) = (srv, {}) by simp only [Server.step]; exact onConn_none ha _]
      first | exact h.sessions | exact h.store
    | some s =>
      obtain ⟨k, hk, hs, e⟩ := onConn_at ha (fun r s => (srv.finish c r s, {}))
      have e' : srv.step cfg (.close c) = (srv.finish c k.session s, {}) := e
      rw [e']
      first
        | exact sessions_put (s := { s with will := none }) h ⟨by simp, (h.sessions _ _ hs).filters⟩
            (heap_finish _ _ _ _)
        | exact store_finish h.store _ _ _
  | recv c p =>
    cases ha : srv.at c with
    | none =>
      rw [show srv.step cfg (.recv c p) = (srv, {}) by simp only [Server.step]; exact onConn_none ha _]
      first | exact h.sessions | exact h.store
    | some s =>
      by_cases hd : ∃ d, p = .disconnect d
      · obtain ⟨d, rfl⟩ := hd
        obtain ⟨k, hk, hs, e⟩ := step_disconnect (cfg := cfg) (d := d) ha
        rw [e]
        first
          | exact sessions_put (s := { s with will := none }) h ⟨by simp, (h.sessions _ _ hs).filters⟩
              (heap_finish _ _ _ _)
          | exact store_finish (srv := srv.mapStore fun st => st.deleteWill s.clientId) (h.store.deleteWill s.clientId) _ _ _
      · obtain ⟨k, hk, hs, e⟩ := step_recv (cfg := cfg) (p := p) ha (fun d he => hd ⟨d, he⟩)
        rw [e]
        have hs' := (h.sessions _ _ hs).processIncoming srv.world cfg.manager c (p := p) he
        have hst := processIncoming_store s srv.world cfg.manager c p h.store
        cases hr : (s.processIncoming srv.world cfg.manager c p).result with
        | error err =>
          first
            | exact sessions_put (s := { (s.processIncoming srv.world cfg.manager c p).session with
                will := none }) h ⟨by simp, hs'.filters⟩ (heap_finish _ _ _ _)
            | exact store_finish (srv := { srv with world := _ }) hst _ _ _
        | ok res =>
          first
            | exact sessions_put h hs' rfl
            | show StoreTame W (saveAfter _ p _)
              cases p with
              | subscribe q => exact hst.saveSession _ _ hs'.list
              | unsubscribe q => exact hst.saveSession _ _ hs'.list
              | pubAck a => exact hst.removeInflight _ _
              | pubComp a => exact hst.removeInflight _ _
              | _ => exact hst
  | deliver c f =>
    cases ha : srv.at c with
    | none =>
      rw [show srv.step cfg (.deliver c f) = (srv, {}) by simp only [Server.step]; exact onConn_none ha _]
      first | exact h.sessions | exact h.store
    | some s =>
      obtain ⟨k, hk, hs, e⟩ := onConn_at ha (fun r s => srv.deliver c r s f)
      have e' : srv.step cfg (.deliver c f) = srv.deliver c k.session s f := e
      rw [e', Server.deliver]
      rcases processOutgoing_cases s srv.world.broker.tree f with
        ⟨h1, _⟩ | ⟨st, m, st', hst, hp, ⟨u, _, h1⟩ | ⟨_, h1⟩⟩
      · rw [h1]; first | exact h.sessions | exact h.store
      · rw [h1]
        have hf : TextField f := (h.sessions _ _ hs).filters f (by rw [hst]; rfl)
        have hsub : ∀ g, ((s.subscriptions.insert f st').get g).isSome → TextField g := by
          intro g hg
          rw [Map.get_insert] at hg
          split at hg
          · rename_i e; rw [← e]; exact hf
          · exact (h.sessions _ _ hs).filters g hg
        have hm : GoodMsg m := by
          have hg := hsnd.streams _ _ hs f st hst
          obtain ⟨sent, g1, g2⟩ := hg.channel
          obtain ⟨_, _, _, _, q5, _⟩ := poll_some (by rw [hg.path]; exact g1) g2 hp
          have hm : m ∈ st.ahead sent := q5.subset (by simp)
          have hfrom : From srv.world.log f m := by
            rcases List.mem_append.mp hm with hm | hm
            · exact hg.retained m hm
            · refine channel_from srv.world.log f sent ?_ m (List.mem_of_mem_drop hm)
              rw [← hsnd.faithful.tree]; exact g1
          obtain ⟨t, ht, _⟩ := hfrom
          exact (h.log _ ht).1
        first
          | exact sessions_put (s := { s with subscriptions := s.subscriptions.insert f st', unacked := u })
              h ⟨(h.sessions _ _ hs).will, hsub⟩ rfl
          | show StoreTame W (saveOutgoing _ (Session.outgoingPacket f m) srv.store)
            unfold saveOutgoing
            show StoreTame W (match m.packetId with | none => _ | some id => _)
            cases hid : m.packetId with
            | none => exact h.store
            | some id =>
              show StoreTame W (match m.qos with | .atLeastOnce | .exactlyOnce => _ | _ => _)
              cases hq : m.qos with
              | atMostOnce => exact h.store
              | invalid => exact h.store
              | atLeastOnce => exact h.store.storeInflight _ _ ⟨hf, Or.inl hq, hm.size⟩
              | exactlyOnce => exact h.store.storeInflight _ _ ⟨hf, Or.inr hq, hm.size⟩
      · rw [h1]
        have hf : TextField f := (h.sessions _ _ hs).filters f (by rw [hst]; rfl)
        have hsub : ∀ g, ((s.subscriptions.insert f st').get g).isSome → TextField g := by
          intro g hg
          rw [Map.get_insert] at hg
          split at hg
          · rename_i e; rw [← e]; exact hf
          · exact (h.sessions _ _ hs).filters g hg
        first
          | exact sessions_put (s := { s with subscriptions := s.subscriptions.insert f st' })
              h ⟨(h.sessions _ _ hs).will, hsub⟩ rfl
          | exact h.store
  | first c p uuid w =>
    rcases step_first_cases cfg srv c p uuid w with ⟨h', _⟩ | ⟨q, rfl, hq, h'⟩
    · rw [h']; first | exact h.sessions | exact h.store
    · rw [h']
      obtain ⟨h1, h2, h3, h4, h5⟩ := enter_discard srv q
      have hE := discard_enter_tame h q
      have hs := begin_sess (enter_sess h he.1) uuid (srv.find q.payload.clientId q.flags.cleanStart).resume
      obtain ⟨f1, f2, f3⟩ := find_tame h q.payload.clientId q.flags.cleanStart
      cases w with
      | false =>
        first
          | exact sessions_put h hs (by rw [← h1]; rfl)
          | exact hE
      | true =>
        first
          | refine sessions_put (s := restoreWill _ _) h ?_ (by rw [← h1]; rfl)
            have hr := hs.restore (srv.find q.payload.clientId q.flags.cleanStart).subscriptions
              (((srv.discard q.payload.clientId q.flags.cleanStart).enter q).1.mapStore
                (saveStart (((srv.discard q.payload.clientId q.flags.cleanStart).enter q).2.2.begin uuid
                  (srv.find q.payload.clientId q.flags.cleanStart).resume).1
                  (srv.find q.payload.clientId q.flags.cleanStart).subscriptions)).world f1
            unfold restoreWill
            cases hw : (srv.find q.payload.clientId q.flags.cleanStart).will with
            | none => exact hr
            | some x => exact ⟨fun y hy => (by cases hy; exact f2 x hw), hr.filters⟩
          | have e : (srv.start c q uuid true).1.world.broker.store = _ := restore_store _ _ _
            show StoreTame W (srv.start c q uuid true).1.world.broker.store
            rw [e]
            show StoreTame W (saveStart _ _ _)
            unfold saveStart
            split
            · rename_i x hx
              exact (hE.saveSession _ _ f1).storeWill _ (hs.will x hx)
            · exact hE.saveSession _ _ f1

/-- A history of ordinary events. -/
def GoodHist (W : StoredWill → Prop) (es : List Event) : Prop := ∀ e ∈ es, GoodEvent W e

theorem tame_run (hW : ∀ w, W w → GoodWill w) (cfg : AuthConfig) (es : List Event)
    (h : GoodHist W es) :
    Tame W (Server.init.run cfg es) := by
  induction es using snoc_induction with
  | h0 => exact tame_init
  | hs l e ih =>
    rw [run_snoc]
    refine tame_step hW cfg (show Server.Reachable cfg _ from ⟨l, rfl⟩).sound
      (ih fun x hx => h x (List.mem_append_left _ hx)) (h e (by simp))

end Mercurio
