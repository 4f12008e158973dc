import Verif.Props.Delivery

/-!
# C41: messages in flight
-/

namespace Mercurio

open Spec Server

/-! ## The in-flight records of the storage after an event -/

theorem inflight_publish (w : World) (src : Source) (t : Str) (m : Message) :
    (w.publish src t m).broker.store.inflight = w.broker.store.inflight := by
  show (Broker.publishStore w.broker.store t m).inflight = _
  unfold Broker.publishStore
  split
  · split <;> rfl
  · rfl

theorem processIncoming_inflight (s : Session) (w : World) (m : Option AuthManager) (c : Nat)
    (p : Packet) : (s.processIncoming w m c p).world.broker.store.inflight =
      w.broker.store.inflight := by
  cases p with
  | publish p =>
    simp only [Session.processIncoming, Session.handlePublish]
    cases validatePublishTopic p.topicName with
    | error e => rfl
    | ok u => exact inflight_publish _ _ _ _
  | subscribe p =>
    simp only [Session.processIncoming, Session.handleSubscribe]
    rw [(subscribeLoop_world _ s w).1]
  | auth p =>
    simp only [Session.processIncoming, Session.handleAuth]
    cases m <;> rfl
  | _ => rfl

theorem inflight_finish (srv : Server) (c r : Nat) (s : Session) :
    (srv.finish c r s).store.inflight = srv.store.inflight := by
  unfold finish
  cases s.will with
  | none => rfl
  | some w => exact inflight_publish _ _ _ _

theorem inflight_start (srv : Server) (c : Nat) (p : ConnectPacket) (uuid : Str) (w : Bool) :
    (srv.start c p uuid w).1.store.inflight = srv.store.inflight := by
  have h1 : ((srv.discard p.payload.clientId p.flags.cleanStart).enter p).1.store.inflight =
      srv.store.inflight := by
    have h2 : (srv.discard p.payload.clientId p.flags.cleanStart).store.inflight =
        srv.store.inflight := by unfold Server.discard; split <;> rfl
    rw [← h2]
    generalize srv.discard p.payload.clientId p.flags.cleanStart = q
    unfold enter
    cases q.sessions.get p.payload.clientId with
    | none => rfl
    | some r => cases hr : q.heap.get r <;> simp only [hr] <;> rfl
  cases w with
  | false => exact h1
  | true =>
    have e : (srv.start c p uuid true).1.store = _ := restore_store _ _ _
    rw [e, ← h1]
    show (saveStart _ _ _).inflight = _
    unfold saveStart
    cases Session.will _ <;> rfl

theorem getInflight_storeInflight (st : MemoryStore) (c c' : Str) (id id' : UInt16) (m : Inflight) :
    (st.storeInflight c id m).getInflight c' id' =
      if c = c' ∧ id = id' then some m else st.getInflight c' id' := by
  simp only [MemoryStore.storeInflight, MemoryStore.getInflight, Map.get_insert]
  by_cases h : c = c'
  · subst h
    simp only [if_true, Map.get_insert, true_and]
    by_cases h2 : id = id'
    · simp [h2]
    · simp only [if_neg h2]
      cases st.inflight.get c <;> rfl
  · simp [h]

theorem getInflight_removeInflight (st : MemoryStore) (c c' : Str) (id id' : UInt16) :
    (st.removeInflight c id).getInflight c' id' =
      if c = c' ∧ id = id' then none else st.getInflight c' id' := by
  simp only [MemoryStore.removeInflight, MemoryStore.getInflight]
  cases hc : st.inflight.get c with
  | none =>
    by_cases h : c = c'
    · subst h; simp [hc]
    · simp [h]
  | some msgs =>
    simp only [Map.get_insert]
    by_cases h : c = c'
    · subst h
      simp only [if_true, Map.get_erase, true_and, hc]
    · simp [h]

theorem getInflight_saveOutgoing (s : Session) (p : PublishPacket) (st : MemoryStore) (cid : Str)
    (id : UInt16) : (saveOutgoing s p st).getInflight cid id =
      if s.clientId = cid ∧ (recordOf id (.publish p)).isSome then recordOf id (.publish p)
      else st.getInflight cid id := by
  obtain ⟨dup, qos, ret, topic, pid, props, payload⟩ := p
  cases pid with
  | none => simp [saveOutgoing, recordOf]
  | some i =>
    by_cases hi : i = id
    · subst hi
      cases qos <;> simp [saveOutgoing, recordOf, getInflight_storeInflight]
    · cases qos <;> simp [saveOutgoing, recordOf, getInflight_storeInflight, hi]

theorem getInflight_congr {a b : MemoryStore} (h : a.inflight = b.inflight) (c : Str) (id : UInt16) :
    a.getInflight c id = b.getInflight c id := by simp [MemoryStore.getInflight, h]

/-- What an event does to the record of one message. -/
theorem step_inflight (cfg : AuthConfig) (srv : Server) (e : Event) (cid : Str) (id : UInt16) :
    (srv.step cfg e).1.store.getInflight cid id =
      inflightAfter cfg srv cid id (srv.store.getInflight cid id) e := by
  cases e with
  | first c p uuid w =>
    simp only [inflightAfter]
    rcases step_first_cases cfg srv c p uuid w with ⟨h', _⟩ | ⟨q, rfl, hq, h'⟩
    · rw [h']
    · rw [h']; exact getInflight_congr (inflight_start _ _ _ _ _) _ _
  | recv c p =>
    cases ha : srv.at c with
    | none =>
      rw [show srv.step cfg (.recv c p) = (srv, {}) by simp only [Server.step]; exact onConn_none ha _]
      cases p <;> simp [inflightAfter, nameOf, ha]
    | some s =>
      by_cases hd : ∃ d, p = .disconnect d
      · obtain ⟨d, rfl⟩ := hd
        obtain ⟨k, hk, hs, e⟩ := step_disconnect (cfg := cfg) (d := d) ha
        rw [e]
        exact getInflight_congr (inflight_finish _ _ _ _) _ _
      · obtain ⟨k, hk, hs, e⟩ := step_recv (cfg := cfg) (p := p) ha (fun d he => hd ⟨d, he⟩)
        rw [e]
        have hpi := processIncoming_inflight s srv.world cfg.manager c p
        have hname := (processIncoming_keeps s srv.world cfg.manager c p).2.1
        cases hr : (s.processIncoming srv.world cfg.manager c p).result with
        | error err =>
          have h1 : inflightAfter cfg srv cid id (srv.store.getInflight cid id) (.recv c p) =
              srv.store.getInflight cid id := by
            cases p <;> first | rfl | simp [Session.processIncoming, Session.handlePubAck,
              Session.handlePubComp] at hr
          rw [h1]
          exact getInflight_congr ((inflight_finish { srv with world := _ } _ _ _).trans hpi) _ _
        | ok res =>
          show (saveAfter (s.processIncoming srv.world cfg.manager c p).session p
            (s.processIncoming srv.world cfg.manager c p).world.broker.store).getInflight cid id = _
          cases p with
          | pubAck a =>
            simp only [saveAfter, inflightAfter, nameOf, ha, Option.map_some, Option.some.injEq]
            rw [getInflight_removeInflight, hname]
            split
            · rfl
            · exact getInflight_congr hpi _ _
          | pubComp a =>
            simp only [saveAfter, inflightAfter, nameOf, ha, Option.map_some, Option.some.injEq]
            rw [getInflight_removeInflight, hname]
            split
            · rfl
            · exact getInflight_congr hpi _ _
          | _ => exact getInflight_congr hpi _ _
  | deliver c f =>
    cases ha : srv.at c with
    | none =>
      simp only [inflightAfter]
      rw [show srv.step cfg (.deliver c f) = (srv, {}) by simp only [Server.step]; exact onConn_none ha _]
    | some s =>
      obtain ⟨k, hk, hs, e⟩ := onConn_at ha (fun r s => srv.deliver c r s f)
      have e' : srv.step cfg (.deliver c f) = srv.deliver c k.session s f := e
      simp only [inflightAfter, nameOf, ha, Option.map_some, Option.some.injEq]
      rw [e', Server.deliver]
      rcases processOutgoing_cases s srv.world.broker.tree f with
        ⟨h1, _⟩ | ⟨st, m, st', hst, hp, ⟨u, hn, h1⟩ | ⟨_, h1⟩⟩
      · rw [h1]
      · rw [h1]
        show (saveOutgoing _ (Session.outgoingPacket f m) srv.store).getInflight cid id = _
        exact getInflight_saveOutgoing _ _ _ _ _
      · rw [h1]; rfl
  | close c =>
    simp only [inflightAfter]
    cases ha : srv.at c with
    | none =>
      rw [show srv.step cfg (.close c) = (srv, {}) by simp only [Server.step]; exact onConn_none ha _]
    | some s =>
      obtain ⟨k, hk, hs, e⟩ := onConn_at ha (fun r s => (srv.finish c r s, {}))
      have e' : srv.step cfg (.close c) = (srv.finish c k.session s, {}) := e
      rw [e']
      exact getInflight_congr (inflight_finish _ _ _ _) _ _
  | abort c => rfl
  | restart => rfl

theorem unacknowledged_snoc (cfg : AuthConfig) (cid : Str) (id : UInt16) (es : List Event) (e : Event) :
    ∀ (srv : Server) (old : Option Inflight), unacknowledged cfg cid id srv old (es ++ [e]) =
      inflightAfter cfg (srv.run cfg es) cid id (unacknowledged cfg cid id srv old es) e := by
  induction es with
  | nil => intro srv old; rfl
  | cons a es ih => intro srv old; exact ih _ _

/-- C41: after every history (restarts included) the storage holds, for every client and packet
identifier, exactly the message last sent to the client under that identifier with QoS 1 or 2 if the
client has not acknowledged it by PUBACK or PUBCOMP since. -/
theorem C41_stored (cfg : AuthConfig) (es : List Event) (cid : Str) (id : UInt16) :
    (Server.init.run cfg es).store.getInflight cid id =
      unacknowledged cfg cid id Server.init none es := by
  induction es using snoc_induction with
  | h0 => rfl
  | hs l a ih => rw [run_snoc, step_inflight, unacknowledged_snoc, ih]

/-! ## All records of a client -/

/-- The table of a client has one entry per packet identifier. -/
def InflightOk (m : Map Str (Map UInt16 Inflight)) : Prop :=
  ∀ c msgs, m.get c = some msgs → (Map.keys msgs).Nodup

theorem InflightOk.store {st : MemoryStore} (h : InflightOk st.inflight) (c : Str) (id : UInt16)
    (m : Inflight) : InflightOk (st.storeInflight c id m).inflight := by
  intro c' msgs hm
  simp only [MemoryStore.storeInflight, Map.get_insert] at hm
  split at hm
  · simp only [Option.some.injEq] at hm
    rw [← hm]
    apply Map.nodup_insert
    cases hc : st.inflight.get c with
    | none => simp [Map.keys]
    | some x => exact h c x hc
  · exact h c' msgs hm

theorem InflightOk.remove {st : MemoryStore} (h : InflightOk st.inflight) (c : Str) (id : UInt16) :
    InflightOk (st.removeInflight c id).inflight := by
  unfold MemoryStore.removeInflight
  cases hc : st.inflight.get c with
  | none => exact h
  | some x =>
    intro c' msgs hm
    simp only [Map.get_insert] at hm
    split at hm
    · simp only [Option.some.injEq] at hm
      rw [← hm]
      exact Map.nodup_erase _ _ (h c x hc)
    · exact h c' msgs hm

theorem inflightOk_step (cfg : AuthConfig) {srv : Server} (h : InflightOk srv.store.inflight)
    (e : Event) : InflightOk (srv.step cfg e).1.store.inflight := by
  cases e with
  | first c p uuid w =>
    rcases step_first_cases cfg srv c p uuid w with ⟨h', _⟩ | ⟨q, rfl, hq, h'⟩
    · rw [h']; exact h
    · rw [h', inflight_start]; exact h
  | recv c p =>
    cases ha : srv.at c with
    | none =>
      rw [show srv.step cfg (.recv c p) = (srv, {}) by simp only [Server.step]; exact onConn_none ha _]
      exact h
    | some s =>
      by_cases hd : ∃ d, p = .disconnect d
      · obtain ⟨d, rfl⟩ := hd
        obtain ⟨k, hk, hs, e⟩ := step_disconnect (cfg := cfg) (d := d) ha
        rw [e, inflight_finish]
        exact h
      · obtain ⟨k, hk, hs, e⟩ := step_recv (cfg := cfg) (p := p) ha (fun d he => hd ⟨d, he⟩)
        rw [e]
        have hpi := processIncoming_inflight s srv.world cfg.manager c p
        cases hr : (s.processIncoming srv.world cfg.manager c p).result with
        | error err =>
          simp only [inflight_finish]
          show InflightOk (s.processIncoming srv.world cfg.manager c p).world.broker.store.inflight
          rw [hpi]; exact h
        | ok res =>
          show InflightOk (saveAfter (s.processIncoming srv.world cfg.manager c p).session p
            (s.processIncoming srv.world cfg.manager c p).world.broker.store).inflight
          have h' : InflightOk (s.processIncoming srv.world cfg.manager c p).world.broker.store.inflight := by
            rw [hpi]; exact h
          generalize (s.processIncoming srv.world cfg.manager c p).world.broker.store = st at h'
          cases p with
          | pubAck a => exact h'.remove _ _
          | pubComp a => exact h'.remove _ _
          | _ => exact h'
  | deliver c f =>
    cases ha : srv.at c with
    | none =>
      rw [show srv.step cfg (.deliver c f) = (srv, {}) by simp only [Server.step]; exact onConn_none ha _]
      exact h
    | some s =>
      obtain ⟨k, hk, hs, e⟩ := onConn_at ha (fun r s => srv.deliver c r s f)
      have e' : srv.step cfg (.deliver c f) = srv.deliver c k.session s f := e
      rw [e', Server.deliver]
      cases s.processOutgoing srv.world.broker.tree f with
      | idle => exact h
      | packet s' p =>
        show InflightOk (saveOutgoing s' p srv.store).inflight
        unfold saveOutgoing
        cases p.packetId with
        | none => exact h
        | some id => cases p.qos <;> first | exact h | exact h.store _ _ _
      | panicked s' => exact h
  | close c =>
    cases ha : srv.at c with
    | none =>
      rw [show srv.step cfg (.close c) = (srv, {}) by simp only [Server.step]; exact onConn_none ha _]
      exact h
    | some s =>
      obtain ⟨k, hk, hs, e⟩ := onConn_at ha (fun r s => (srv.finish c r s, {}))
      have e' : srv.step cfg (.close c) = (srv.finish c k.session s, {}) := e
      rw [e', inflight_finish]; exact h
  | abort c => exact h
  | restart => exact h

theorem Server.Reachable.inflightOk {cfg : AuthConfig} {srv : Server} (h : srv.Reachable cfg) :
    InflightOk srv.store.inflight :=
  h.induction (P := fun srv => InflightOk srv.store.inflight)
    (by intro c msgs hm; simp [Server.init, Server.store, MemoryStore.new, Map.get] at hm)
    fun _ e h => inflightOk_step cfg h e

/-- The record under an identifier is about that identifier. -/
theorem unacknowledged_id (cfg : AuthConfig) (cid : Str) (id : UInt16) (es : List Event) (i : Inflight)
    (h : unacknowledged cfg cid id Server.init none es = some i) : i.packetId = id := by
  induction es using snoc_induction generalizing i with
  | h0 => simp [unacknowledged] at h
  | hs l e ih =>
    rw [unacknowledged_snoc] at h
    generalize Server.init.run cfg l = srv at h
    cases e with
    | deliver c f =>
      simp only [inflightAfter] at h
      split at h
      · split at h
        · rename_i p _ _ _
          cases p with
          | publish q =>
            simp only [recordOf] at h
            split at h
            · simp only [Option.some.injEq] at h; rw [← h]
            · simp at h
          | _ => simp [recordOf] at h
        · exact ih i h
      · exact ih i h
    | recv c p =>
      cases p with
      | pubAck a => simp only [inflightAfter] at h; split at h <;> first | (simp at h; done) | exact ih i h
      | pubComp a => simp only [inflightAfter] at h; split at h <;> first | (simp at h; done) | exact ih i h
      | _ => exact ih i h
    | _ => exact ih i h

theorem getAllInflight_iff {st : MemoryStore} (h : InflightOk st.inflight) (cid : Str)
    (hid : ∀ id i, st.getInflight cid id = some i → i.packetId = id) :
    ((st.getAllInflight cid).map (·.packetId)).Nodup ∧
    ∀ i, i ∈ st.getAllInflight cid ↔ st.getInflight cid i.packetId = some i := by
  unfold MemoryStore.getAllInflight
  unfold MemoryStore.getInflight at hid ⊢
  cases hc : st.inflight.get cid with
  | none => simp
  | some msgs =>
    have hnd := h cid msgs hc
    simp only [hc] at hid
    have hk : ∀ e ∈ msgs, e.2.packetId = e.1 := fun e he =>
      hid e.1 e.2 ((Map.mem_iff_get msgs hnd e.1 e.2).mp he)
    refine ⟨?_, fun i => ?_⟩
    · have e : (msgs.map Prod.snd).map (·.packetId) = Map.keys msgs := by
        rw [List.map_map]
        exact List.map_congr_left fun e he => hk e he
      rw [e]; exact hnd
    · simp only [List.mem_map]
      constructor
      · rintro ⟨e, he, rfl⟩
        rw [hk e he]
        exact (Map.mem_iff_get msgs hnd e.1 e.2).mp he
      · intro hi
        exact ⟨(i.packetId, i), (Map.mem_iff_get msgs hnd _ _).mpr hi, rfl⟩

theorem start_sent (srv : Server) (c : Nat) (p : ConnectPacket) (uuid : Str) :
    ∃ ack, (srv.start c p uuid true).2.sent = .connAck ack ::
      (srv.find p.payload.clientId p.flags.cleanStart).inflight.map retryPacket := ⟨_, rfl⟩

/-- C41: after every history, a client that resumes its session from storage (no clean start, no
session in memory, a stored one) is sent, after the CONNACK, exactly its unacknowledged messages: each
once, with its QoS, topic, payload and packet identifier, marked as duplicate. -/
theorem C41_resent (cfg : AuthConfig) (es : List Event) (c : Nat) (p : ConnectPacket) (uuid : Str)
    (ha : Admitted cfg (Server.init.run cfg es) c p) (hclean : p.flags.cleanStart = false)
    (hmem : (Server.init.run cfg es).sessions.get p.payload.clientId = none)
    (hst : ((Server.init.run cfg es).store.loadSession p.payload.clientId).isSome) :
    ∃ (ack : ConnAckPacket) (again : List Inflight),
      ((Server.init.run cfg es).step cfg (.first c (.connect p) uuid true)).2.sent =
        .connAck ack :: again.map resent ∧
      (again.map (·.packetId)).Nodup ∧
      ∀ i, i ∈ again ↔
        unacknowledged cfg p.payload.clientId i.packetId Server.init none es = some i := by
  obtain ⟨st, hst⟩ := Option.isSome_iff_exists.mp hst
  have hok : InflightOk (Server.init.run cfg es).store.inflight :=
    Server.Reachable.inflightOk (cfg := cfg) ⟨es, rfl⟩
  have hS := C41_stored cfg es p.payload.clientId
  have hall := getAllInflight_iff hok p.payload.clientId (fun id i hi => by
    rw [hS] at hi; exact unacknowledged_id cfg _ _ _ _ hi)
  generalize hsrv : Server.init.run cfg es = srv at *
  have hfind : srv.find p.payload.clientId p.flags.cleanStart =
      ⟨true, st.subscriptions, srv.store.getWill p.payload.clientId,
        srv.store.getAllInflight p.payload.clientId⟩ := by
    unfold Server.find
    simp [hclean, hmem, hst]
  obtain ⟨ack, hack⟩ := start_sent srv c p uuid
  refine ⟨ack, srv.store.getAllInflight p.payload.clientId, ?_, hall.1, ?_⟩
  · rw [step_first ha, hack, hfind]; rfl
  · intro i; rw [hall.2, hS]

/-- In all other cases nothing is sent again: in particular not when the session is resumed from
memory. -/
theorem C41_only_from_storage (cfg : AuthConfig) (srv : Server) (c : Nat) (p : ConnectPacket)
    (uuid : Str) (ha : Admitted cfg srv c p)
    (h : p.flags.cleanStart = true ∨ (srv.sessions.get p.payload.clientId).isSome ∨
      srv.store.loadSession p.payload.clientId = none) :
    ∃ ack : ConnAckPacket,
      (srv.step cfg (.first c (.connect p) uuid true)).2.sent = [.connAck ack] := by
  have hfind : (srv.find p.payload.clientId p.flags.cleanStart).inflight = [] := by
    unfold Server.find
    split
    · rfl
    · split
      · rfl
      · rcases h with h | h | h
        · contradiction
        · contradiction
        · rw [h]; rfl
  obtain ⟨ack, hack⟩ := start_sent srv c p uuid
  exact ⟨ack, by rw [step_first ha, hack, hfind]; rfl⟩

/-- A history with one message delivered and not acknowledged, then a restart. -/
def exRestart : List Event :=
  [.first 0 (.connect (exConnect (str "x") true)) (str "uuid") true,
   .recv 0 (.subscribe ⟨1, none, [⟨str "a/+", {}⟩]⟩), .recv 0 (.publish exPublish),
   .deliver 0 (str "a/+"), .restart]

example : ((Server.init.run exCfg exRestart).sessions.get (str "x") = none ∧
    ((Server.init.run exCfg exRestart).store.loadSession (str "x")).isSome ∧
    unacknowledged exCfg (str "x") 7 Server.init none exRestart =
      some ⟨7, str "a/+", some (str "22"), .exactlyOnce, false⟩) ∧
    ((Server.init.run exCfg exRestart).step exCfg
      (.first 3 (.connect (exConnect (str "x") false)) (str "w") true)).2.sent.length = 2 := by
  decide +kernel

end Mercurio
