import Verif.Spec.V5
import Verif.Lemmas.Fits
import Verif.Lemmas.Solo
import Verif.Props.V3
import Verif.Props.Ids
import Verif.Props.Inflight

/-!
# C130: what the server sends to clients of MQTT 5
-/

namespace Mercurio

open Spec Server

/-! ## All sessions are of MQTT 5 -/

/-- All sessions in memory were last entered with a CONNECT of MQTT 5. -/
def AllV5 (srv : Server) : Prop := ∀ r s, srv.heap.get r = some s → s.connect.protocolVersion = .v5

theorem AllV5.put {srv srv' : Server} (h : AllV5 srv) {r : Nat} {s : Session} (hs : s.connect.protocolVersion = .v5)
    (hh : srv'.heap = srv.heap.insert r s) : AllV5 srv' := by
  intro r' s' hr
  rw [hh, Map.get_insert] at hr
  split at hr
  · cases hr; exact hs
  · exact h _ _ hr

theorem allV5_step (cfg : AuthConfig) {srv : Server} (h : AllV5 srv) {e : Event} (he : EventObeys5 e) :
    AllV5 (srv.step cfg e).1 := by
  cases e with
  | abort c => exact h
  | restart => intro r s hr; cases hr
  | close c =>
    cases ha : srv.at c with
    | none =>
      rw [show srv.step cfg (.close c) = (srv, {}) by simp only [Server.step]; exact onConn_none ha _]
      exact h
    | some s =>
      obtain ⟨k, hk, hs, e⟩ := onConn_at ha (fun r s => (srv.finish c r s, {}))
      have e' : srv.step cfg (.close c) = (srv.finish c k.session s, {}) := e
      rw [e']
      exact h.put (s := { s with will := none }) (h _ s hs) (heap_finish _ _ _ _)
  | recv c p =>
    cases ha : srv.at c with
    | none =>
      rw [show srv.step cfg (.recv c p) = (srv, {}) by simp only [Server.step]; exact onConn_none ha _]
      exact h
    | some s =>
      by_cases hd : ∃ d, p = .disconnect d
      · obtain ⟨d, rfl⟩ := hd
        obtain ⟨k, hk, hs, e⟩ := step_disconnect (cfg := cfg) (d := d) ha
        rw [e]
        exact h.put (s := { s with will := none }) (h _ s hs) (heap_finish _ _ _ _)
      · obtain ⟨k, hk, hs, e⟩ := step_recv (cfg := cfg) (p := p) ha (fun d he => hd ⟨d, he⟩)
        rw [e]
        have hc : (s.processIncoming srv.world cfg.manager c p).session.connect.protocolVersion = .v5 := by
          rw [(processIncoming_keeps s srv.world cfg.manager c p).2.2]; exact h _ _ hs
        cases hr : (s.processIncoming srv.world cfg.manager c p).result with
        | error err =>
          exact h.put (s := { (s.processIncoming srv.world cfg.manager c p).session with will := none }) hc (heap_finish _ _ _ _)
        | ok res => exact h.put hc rfl
  | deliver c f =>
    cases ha : srv.at c with
    | none =>
      rw [show srv.step cfg (.deliver c f) = (srv, {}) by simp only [Server.step]; exact onConn_none ha _]
      exact h
    | some s =>
      obtain ⟨k, hk, hs, e⟩ := onConn_at ha (fun r s => srv.deliver c r s f)
      have e' : srv.step cfg (.deliver c f) = srv.deliver c k.session s f := e
      rw [e', Server.deliver]
      rcases processOutgoing_cases s srv.world.broker.tree f with
        ⟨h1, _⟩ | ⟨st, m, st', hst, hp, ⟨u, _, h1⟩ | ⟨_, h1⟩⟩
      · rw [h1]; exact h
      · rw [h1]
        exact h.put (s := { s with subscriptions := s.subscriptions.insert f st', unacked := u }) (h _ s hs) rfl
      · rw [h1]
        exact h.put (s := { s with subscriptions := s.subscriptions.insert f st' }) (h _ s hs) rfl
  | first c p uuid w =>
    rcases step_first_cases cfg srv c p uuid w with ⟨h', _⟩ | ⟨q, rfl, hq, h'⟩
    · rw [h']; exact h
    · rw [h']
      obtain ⟨h1, _⟩ := enter_discard srv q
      have hs : ((((srv.discard q.payload.clientId q.flags.cleanStart).enter q).2.2.begin uuid
          (srv.find q.payload.clientId q.flags.cleanStart).resume).1).connect.protocolVersion = .v5 := by
        rw [begin_connect, enter_connect]; obtain ⟨⟨q', e, hq'⟩, _⟩ := he; cases e; exact hq'.1
      cases w with
      | false => exact h.put hs (by rw [← h1]; rfl)
      | true =>
        refine h.put (s := restoreWill _ _) ?_ (by rw [← h1]; rfl)
        rw [restoreWill_connect, restoreSubscriptions_connect]
        exact hs

theorem allV5_run (cfg : AuthConfig) (es : List Event) (h : ∀ e ∈ es, EventObeys5 e) : AllV5 (Server.init.run cfg es) := by
  induction es using snoc_induction with
  | h0 => intro r s hr; cases hr
  | hs l e ih =>
    rw [run_snoc]
    exact allV5_step cfg (ih fun x hx => h x (List.mem_append_left _ hx)) (h e (by simp))

/-! ## Ordinary servers, also after restarts -/

theorem tame_restart {W : StoredWill → Prop} (cfg : AuthConfig) {srv : Server} (h : Tame W srv) :
    Tame W (srv.step cfg .restart).1 := by
  have hl : (srv.step cfg .restart).1.world.log = srv.world.log ++ [.restart] := step_log cfg srv .restart
  refine ⟨?_, ?_, ?_, ?_⟩
  · rw [hl, Call.publications_append]
    intro q hq
    rcases List.mem_append.mp hq with hq | hq
    · exact h.log q hq
    · cases hq
  · intro r s hr; cases hr
  · exact h.store.congr rfl rfl rfl
  · intro c t m hm
    rw [hl] at hm
    rcases List.mem_append.mp hm with hm | hm
    · exact h.wills c t m hm
    · simp at hm

theorem obeys_good {e : Event} (h : EventObeys5 e) : GoodEvent GoodWill e ∨ e = .restart := by
  cases e with
  | restart => exact Or.inr rfl
  | first c p uuid w =>
    obtain ⟨⟨q, rfl, hq⟩, hu⟩ := h
    refine Or.inl ⟨?_, hu⟩
    intro x hx
    unfold willOfConnect at hx
    split at hx
    · rename_i hw
      split at hx
      · cases hx
      · rename_i t ht
        cases hx
        obtain ⟨a, b, c⟩ := hq.2 hw t ht
        exact ⟨a, b, c⟩
    · cases hx
  | recv c p =>
    refine Or.inl ?_
    cases p with
    | publish p => exact ⟨h.1, h.2.1, h.2.2.2.2⟩
    | subscribe p => exact ⟨h.2.1, h.2.2.1, h.2.2.2⟩
    | unsubscribe p => exact ⟨h.2.1, h.2.2⟩
    | auth p => exact h.elim
    | connect p => exact h.elim
    | _ => trivial
  | _ => exact Or.inl trivial

theorem obeys_tame (cfg : AuthConfig) (es : List Event) (h : ∀ e ∈ es, EventObeys5 e) :
    Tame GoodWill (Server.init.run cfg es) := by
  induction es using snoc_induction with
  | h0 => exact tame_init
  | hs l e ih =>
    rw [run_snoc]
    have ih' := ih fun x hx => h x (List.mem_append_left _ hx)
    rcases obeys_good (h e (by simp)) with he | rfl
    · exact tame_step (fun _ h => h) cfg (show Server.Reachable cfg _ from ⟨l, rfl⟩).sound ih' he
    · exact tame_restart cfg ih'

/-! ## Packet identifiers -/

/-- Messages have identifiers other than zero, and are duplicates only if they have one. -/
theorem obeys_numbered (cfg : AuthConfig) (es : List Event) (hes : ∀ e ∈ es, EventObeys5 e) :
    ∀ src t m, Call.publish src t m ∈ (Server.init.run cfg es).world.log →
      m.packetId ≠ some 0 ∧ (m.dup = true → m.qos ≠ .atMostOnce) := by
  induction es using snoc_induction with
  | h0 => intro src t m h; cases h
  | hs l a ih =>
    intro src t m h
    rw [run_snoc, step_log, List.mem_append] at h
    rcases h with h | h
    · exact ih (fun x hx => hes x (List.mem_append_left _ hx)) src t m h
    · have hwill : ∀ c s, Call.publish src t m ∈ willCalls c s →
          m.packetId ≠ some 0 ∧ (m.dup = true → m.qos ≠ .atMostOnce) := by
        intro c s hw
        unfold willCalls at hw
        cases hs : s.will with
        | none => rw [hs] at hw; cases hw
        | some w =>
          rw [hs] at hw
          simp only [List.mem_singleton, Call.publish.injEq] at hw
          obtain ⟨rfl, _, rfl⟩ := hw
          exact ⟨by simp, by simp⟩
      have ha := hes a (by simp)
      cases a with
      | first c p uuid w =>
        simp only [eventCalls] at h
        split at h
        · split at h
          · simp at h
          · cases h
        · cases h
      | recv c p =>
        simp only [eventCalls] at h
        split at h
        · cases h
        · rename_i s hs
          rw [List.mem_append] at h
          rcases h with h | h
          · cases p with
            | publish p =>
              simp only [packetCalls] at h
              split at h
              · simp only [List.mem_singleton, Call.publish.injEq] at h
                obtain ⟨rfl, _, rfl⟩ := h
                exact ⟨ha.2.2.1, ha.2.2.2.1⟩
              · cases h
            | subscribe p => simp [packetCalls] at h
            | _ => cases h
          · split at h
            · cases h
            · exact hwill _ _ h
      | deliver c f => cases h
      | close c =>
        simp only [eventCalls] at h
        split at h
        · cases h
        · exact hwill _ _ h
      | abort c => cases h
      | restart => simp [eventCalls] at h

/-- What is told about a message that is sent. -/
theorem obeys_deliver (cfg : AuthConfig) (es : List Event) (hes : ∀ e ∈ es, EventObeys5 e) (c : Nat) (f : Str) :
    ∀ p ∈ ((Server.init.run cfg es).step cfg (.deliver c f)).2.sent, ∃ q, p = .publish q ∧ q.topicName = f ∧
      ValidFilter f ∧ q.packetId ≠ some 0 ∧ (q.dup = true → q.qos ≠ .atMostOnce) ∧
      q.properties = none ∧ (q.payload.getD []).length + 65545 ≤ 2 ^ 28 := by
  intro p hp
  obtain ⟨t, m, h1, _, h3, rfl⟩ := deliver_sent ⟨es, rfl⟩ c f p hp
  obtain ⟨src, hs⟩ := publications_mem h1
  obtain ⟨a, b⟩ := obeys_numbered cfg es hes src t m hs
  exact ⟨_, rfl, rfl, h3, a, b, rfl, ((obeys_tame cfg es hes).log _ h1).1.size⟩

/-- What is told about a message that is kept for being sent again. -/
theorem obeys_kept (cfg : AuthConfig) (es : List Event) (hes : ∀ e ∈ es, EventObeys5 e) (cid : Str) (id : UInt16) :
    ∀ i, (Server.init.run cfg es).store.getInflight cid id = some i → id ≠ 0 ∧ ValidFilter i.topic := by
  induction es using snoc_induction with
  | h0 => intro i h; cases h
  | hs l a ih =>
    intro i h
    have ih' := ih (fun x hx => hes x (List.mem_append_left _ hx))
    have hd := obeys_deliver cfg l (fun x hx => hes x (List.mem_append_left _ hx))
    rw [run_snoc, step_inflight] at h
    cases a with
    | deliver c f =>
      simp only [inflightAfter] at h
      split at h
      · rename_i p ps hp
        split at h
        · obtain ⟨q, rfl, hq, hf, hid, _⟩ := hd c f p (by rw [hp]; simp)
          simp only [recordOf] at h
          split at h
          · rename_i hh
            cases h
            refine ⟨?_, by rw [← hq] at hf; exact hf⟩
            rintro rfl
            exact hid hh.1
          · cases h
        · exact ih' i h
      · exact ih' i h
    | recv c p =>
      cases p with
      | pubAck a => simp only [inflightAfter] at h; split at h; · cases h
                    · exact ih' i h
      | pubComp a => simp only [inflightAfter] at h; split at h; · cases h
                     · exact ih' i h
      | _ => exact ih' i h
    | _ => exact ih' i h

/-! ## Bytes -/

theorem propertyBlock_nil : Packet5.propertyBlock [] = [0] := by
  show vbi 0 ++ [] = [0]
  rw [short_vbi (by decide)]; rfl

theorem legal_nil (allowed many : List Nat) : Packet5.LegalBlock allowed many [] := ⟨by simp, by simp⟩

theorem bytes5_of {x : Packet5} {p : Packet} {b : Buf} {h : UInt8} {body : Buf} (he : p.encode = .ok b)
    (hf : b = frame h body.length body) (hh : h = UInt8.ofNat x.first) (hb : body = x.body) (hl : x.body.length < 2 ^ 28) :
    p.encode = .ok x.bytes := by
  rw [he, hf, hb, frame_eq rfl hl, hh]; rfl

/-- A PUBLISH without properties. -/
theorem publish5 (p : PublishPacket) (hp : p.properties = none) (ht : TextField p.topicName) (hq : p.qos ≠ .invalid)
    (hl : (p.payload.getD []).length + 65545 ≤ 2 ^ 28) :
    let x := Packet5.publish p.dup p.qos p.retain p.topicName p.packetId [] (p.payload.getD [])
    x.body.length < 2 ^ 28 ∧ x.Means (.publish p) ∧ (Packet.publish p).encode = .ok x.bytes := by
  intro x
  have hlt : x.body.length < 2 ^ 28 := by
    show (field p.topicName ++ _ ++ Packet5.propertyBlock [] ++ _).length < _
    rw [propertyBlock_nil]
    have := ht.2
    cases p.packetId <;> simp [field, be16] <;> omega
  refine ⟨hlt, ⟨rfl, rfl, rfl, rfl, rfl, hp, rfl, rfl⟩, ?_⟩
  obtain ⟨b, hb, _⟩ := fits_publish p hp (by have := ht.2; omega)
  refine bytes5_of hb (PublishPacket.encode_inv hb) ?_ ?_ hlt
  · show p.header = UInt8.ofNat (0x30 + (if p.dup then 8 else 0) + 2 * p.qos.level + (if p.retain then 1 else 0))
    unfold PublishPacket.header
    cases p.dup <;> cases p.retain <;> cases h : p.qos <;> first | rfl | exact absurd h hq
  · show _ = field p.topicName ++ _ ++ Packet5.propertyBlock [] ++ _
    rw [propertyBlock_nil, PublishPacket.body, encodeStr_field ht, hp]
    have h2 : (p.payload.getD [] : Buf) = encodeOpt (fun b => b) p.payload := by cases p.payload <;> rfl
    rw [← h2]
    cases p.packetId <;> rfl

/-- The packet is not a message for a topic with wildcards. -/
def NoWildcards (p : Packet) : Prop :=
  ∀ q, p = .publish q → (0x2b : UInt8) ∉ q.topicName ∧ (0x23 : UInt8) ∉ q.topicName

theorem legal_publish5 (p : PublishPacket) (hp : p.properties = none) (ht : TextField p.topicName) (hq : p.qos ≠ .invalid)
    (hl : (p.payload.getD []).length + 65545 ≤ 2 ^ 28) (hi : p.packetId.isSome ↔ p.qos ≠ .atMostOnce)
    (hf : ValidFilter p.topicName) (h0 : p.packetId ≠ some 0) (hd : p.dup = true → p.qos ≠ .atMostOnce) :
    ∃ x : Packet5, ((NoWildcards (.publish p) → x.Legal) ∧ ∃ t, (x.withTopic t).Legal) ∧ x.Means (.publish p) ∧
      (Packet.publish p).encode = .ok x.bytes := by
  obtain ⟨a, b, c⟩ := publish5 p hp ht hq hl
  refine ⟨_, ⟨fun hw => ⟨a, ht, hf.no_nul, (hw p rfl).1, (hw p rfl).2, fun h => absurd h hf.nonempty, hq, hi, h0, hd,
    legal_nil _ _⟩, str "t", ?_, by decide, by decide, by decide, by decide, fun h => absurd h (by decide), hq, hi, h0, hd,
    legal_nil _ _⟩, b, c⟩
  have hne := List.length_pos_iff.mpr hf.nonempty
  simp only [Packet5.withTopic, Packet5.body, List.length_append, field, be16, List.length_cons, List.length_nil] at a ⊢
  have : (str "t").length = 1 := by decide
  omega

theorem number_reason (r : ReasonCode) : r.code = UInt8.ofNat r.number ∧ r.number < 256 := by
  cases r <;> decide

theorem numbers_reason (l : List ReasonCode) :
    l.map ReasonCode.number = (l.flatMap encodeReason).map UInt8.toNat := by
  induction l with
  | nil => rfl
  | cons r l ih =>
    rw [List.map_cons, ih, List.flatMap_cons, List.map_append]
    obtain ⟨h1, h2⟩ := number_reason r
    simp [encodeReason, h1, Nat.mod_eq_of_lt h2]

/-- An acknowledgement with nothing but its identifier. -/
theorem ack5 (f : AckPacket → Packet) (h : UInt8) (hf : ∀ p, (f p).encode = p.encode h) (id : UInt16) (x : Packet5)
    (hx : x.body = be16 id.toNat) (hh : h = UInt8.ofNat x.first) :
    x.body.length < 2 ^ 28 ∧ (f { packetId := id }).encode = .ok x.bytes := by
  have hl : x.body.length < 2 ^ 28 := by rw [hx]; show 2 < 2 ^ 28; decide
  refine ⟨hl, bytes5_of (h := h) (body := encodeU16 id) (by rw [hf]; rfl) rfl hh (by rw [hx]; rfl) hl⟩

/-- The answer to a packet of a client that obeys the standard. -/
theorem answer5 {s : Session} (hv : s.connect.protocolVersion = .v5) (w : World) (m : Option AuthManager)
    (c : Nat) {p : Packet} (hp : Obeys5 p) (hd : ∀ d, p ≠ .disconnect d) {q : Packet}
    (h : (s.processIncoming w m c p).result = .ok (some q)) :
    ∃ x : Packet5, x.Legal ∧ x.Means q ∧ q.encode = .ok x.bytes := by
  cases p with
  | publish p =>
    simp only [Session.processIncoming, Session.handlePublish] at h
    cases hv : validatePublishTopic p.topicName with
    | error e => rw [hv] at h; cases h
    | ok u =>
      rw [hv] at h
      simp only [Session.publishResponse] at h
      split at h
      · cases h
      · rename_i id hq hid
        cases h
        obtain ⟨a, b⟩ := ack5 .pubAck 0x40 (fun _ => rfl) id (.pubAck id none) (List.append_nil _) rfl
        exact ⟨.pubAck id none, ⟨a, (by rintro rfl; exact hp.2.2.1 hid), trivial⟩, ⟨rfl, rfl⟩, b⟩
      · rename_i id hq hid
        cases h
        obtain ⟨a, b⟩ := ack5 .pubRec 0x50 (fun _ => rfl) id (.pubRec id none) (List.append_nil _) rfl
        exact ⟨.pubRec id none, ⟨a, (by rintro rfl; exact hp.2.2.1 hid), trivial⟩, ⟨rfl, rfl⟩, b⟩
      · cases h
  | pubAck p => cases h
  | pubRec p =>
    cases h
    obtain ⟨a, b⟩ := ack5 .pubRel 0x62 (fun _ => rfl) p.packetId (.pubRel _ none) (List.append_nil _) rfl
    exact ⟨_, ⟨a, hp, trivial⟩, ⟨rfl, rfl⟩, b⟩
  | pubRel p =>
    cases h
    obtain ⟨a, b⟩ := ack5 .pubComp 0x70 (fun _ => rfl) p.packetId (.pubComp _ none) (List.append_nil _) rfl
    exact ⟨_, ⟨a, hp, trivial⟩, ⟨rfl, rfl⟩, b⟩
  | pubComp p => cases h
  | subscribe p =>
    cases h
    have hcodes : ∀ (fs : List Str) (s : Session) (w : World), (s.subscribeLoop w fs).2.2.length = fs.length ∧
        ∀ r ∈ (s.subscribeLoop w fs).2.2, r = .grantedQoS0 ∨ r = .topicFilterInvalid := by
      intro fs
      induction fs with
      | nil => intro s w; exact ⟨rfl, by intro r hr; cases hr⟩
      | cons f fs ih =>
        intro s w
        unfold Session.subscribeLoop
        split
        · refine ⟨by simp [ih], fun r hr => ?_⟩
          rcases List.mem_cons.mp hr with rfl | hr
          · exact Or.inr rfl
          · exact (ih _ _).2 r hr
        · refine ⟨by simp [ih], fun r hr => ?_⟩
          rcases List.mem_cons.mp hr with rfl | hr
          · exact Or.inl rfl
          · exact (ih _ _).2 r hr
    obtain ⟨hl, hc⟩ := hcodes (p.payload.map (·.topicFilter)) s w
    rw [List.length_map] at hl
    generalize (s.subscribeLoop w (p.payload.map (·.topicFilter))).2.2 = codes at hl hc ⊢
    obtain ⟨h0, hne, _, hlen⟩ := hp
    rw [hv]
    refine ⟨.subAck p.packetId [] (codes.flatMap encodeReason), ?_⟩
    have hlt : (Packet5.subAck p.packetId [] (codes.flatMap encodeReason)).body.length < 2 ^ 28 := by
      simp only [Packet5.body, propertyBlock_nil, List.length_append, flatMap_reason_length, hl]
      show 2 + 1 + _ < _
      omega
    refine ⟨⟨hlt, h0, legal_nil _ _, ?_, ?_⟩, ⟨rfl, rfl, rfl, numbers_reason _⟩, ?_⟩
    · intro he
      have := congrArg List.length he
      rw [flatMap_reason_length, hl] at this
      exact hne (List.eq_nil_iff_length_eq_zero.mpr this)
    · intro x hx
      obtain ⟨r, hr, hx⟩ := List.mem_flatMap.mp hx
      rcases hc r hr with rfl | rfl
      · rw [List.mem_singleton.mp hx]; decide
      · rw [List.mem_singleton.mp hx]; decide
    · obtain ⟨b, hb, _⟩ := fits_subAck ⟨.v5, p.packetId, none, codes⟩ rfl (by show codes.length + 4 < _; omega)
      have hb' : SubAckPacket.encode ⟨.v5, p.packetId, none, codes⟩ = .ok b := hb
      exact bytes5_of hb (SubAckPacket.encode_inv hb') rfl
        (by
          simp only [Packet5.body, propertyBlock_nil, SubAckPacket.body, show ProtocolVersion.v5.supportsProperties = true from rfl, if_true]
          rw [show encodeBlock (optProps AckProperties.toProps none) = [0] from rfl, encodeU16_be]) hlt
  | unsubscribe p =>
    cases h
    have hcodes : ∀ (fs : List Str) (m : Map Str SubStream), (Session.unsubscribeLoop m fs).2.length = fs.length ∧
        ∀ r ∈ (Session.unsubscribeLoop m fs).2, r = .success ∨ r = .noSubscriptionExisted := by
      intro fs
      induction fs with
      | nil => intro m; exact ⟨rfl, by intro r hr; cases hr⟩
      | cons f fs ih =>
        intro m
        refine ⟨by simp [Session.unsubscribeLoop, ih], fun r hr => ?_⟩
        simp only [Session.unsubscribeLoop] at hr
        rcases List.mem_cons.mp hr with rfl | hr
        · split
          · exact Or.inl rfl
          · exact Or.inr rfl
        · exact (ih _).2 r hr
    obtain ⟨hl, hc⟩ := hcodes p.payload s.subscriptions
    generalize (Session.unsubscribeLoop s.subscriptions p.payload).2 = codes at hl hc ⊢
    obtain ⟨h0, hne, hlen⟩ := hp
    rw [hv]
    refine ⟨.unsubAck p.packetId [] (codes.flatMap encodeReason), ?_⟩
    have hlt : (Packet5.unsubAck p.packetId [] (codes.flatMap encodeReason)).body.length < 2 ^ 28 := by
      simp only [Packet5.body, propertyBlock_nil, List.length_append, flatMap_reason_length, hl]
      show 2 + 1 + _ < _
      omega
    refine ⟨⟨hlt, h0, legal_nil _ _, ?_, ?_⟩, ⟨rfl, rfl, rfl, numbers_reason _⟩, ?_⟩
    · intro he
      have := congrArg List.length he
      rw [flatMap_reason_length, hl] at this
      exact hne (List.eq_nil_iff_length_eq_zero.mpr this)
    · intro x hx
      obtain ⟨r, hr, hx⟩ := List.mem_flatMap.mp hx
      rcases hc r hr with rfl | rfl
      · rw [List.mem_singleton.mp hx]; decide
      · rw [List.mem_singleton.mp hx]; decide
    · obtain ⟨b, hb, _⟩ := fits_unsubAck ⟨.v5, p.packetId, none, codes⟩ rfl (by show codes.length + 4 < _; omega)
      have hb' : UnsubAckPacket.encode ⟨.v5, p.packetId, none, codes⟩ = .ok b := hb
      exact bytes5_of hb (UnsubAckPacket.encode_inv hb') rfl
        (by
          simp only [Packet5.body, propertyBlock_nil, UnsubAckPacket.body, show ProtocolVersion.v5.supportsProperties = true from rfl, if_true]
          rw [show encodeBlock (optProps AckProperties.toProps none) = [0] from rfl, encodeU16_be, List.append_assoc]) hlt
  | pingReq =>
    cases h
    refine ⟨.pingResp, ⟨by show 0 < 2 ^ 28; decide, trivial⟩, trivial, ?_⟩
    show Res.ok (0xd0 :: encodeVbi 0) = Res.ok (UInt8.ofNat 0xd0 :: (vbi 0 ++ []))
    rw [encodeVbi_eq_vbi (by decide), List.append_nil]; rfl
  | disconnect p => exact absurd rfl (hd p)
  | auth p => exact hp.elim
  | connect p => exact hp.elim
  | connAck p => cases h
  | subAck p => cases h
  | unsubAck p => cases h
  | pingResp => cases h

/-- A CONNACK. -/
theorem connAck5 (p : ConnAckPacket) (hv : p.protocolVersion = .v5)
    (hr : p.reasonCode = .success ∨ p.sessionPresent = false ∧ p.reasonCode = .badUserNameOrPassword)
    (hp : p.properties = none ∨ ∃ uuid, p.properties = some { assignedClientId := some uuid } ∧ TextField uuid) :
    ∃ x : Packet5, x.Legal ∧ x.Means (.connAck p) ∧ (Packet.connAck p).encode = .ok x.bytes := by
  obtain ⟨b, hb, _⟩ := fits_connAck p (by
    rcases hp with hp | ⟨u, hp, hu⟩
    · exact Or.inl hp
    · exact Or.inr ⟨u, hp, hu.2⟩)
  have hinv := ConnAckPacket.encode_inv hb
  obtain ⟨n1, n2⟩ := number_reason p.reasonCode
  have hcode : p.reasonCode.code ∈ [0, 0x86] ∧ (p.sessionPresent = true → p.reasonCode.code = 0) := by
    rcases hr with hr | ⟨h1, hr⟩
    · rw [hr]; exact ⟨by decide, fun _ => rfl⟩
    · rw [hr, h1]; exact ⟨by decide, by simp⟩
  have key : ∀ ps : List Property, encodeBlock (optProps ConnAckProperties.toProps p.properties) = Packet5.propertyBlock ps →
      (Packet5.propertyBlock ps).length < 2 ^ 20 →
      Packet5.LegalBlock [0x11, 0x21, 0x24, 0x25, 0x27, 0x12, 0x22, 0x1f, 0x26, 0x28, 0x29, 0x2a, 0x13, 0x1a, 0x1c, 0x15, 0x16] [] ps →
      (p.properties = none ∧ ps = [] ∨ ∃ id, p.properties = some { assignedClientId := some id } ∧ ps = [.assignedClientIdentifier id]) →
      ∃ x : Packet5, x.Legal ∧ x.Means (.connAck p) ∧ (Packet.connAck p).encode = .ok x.bytes := by
    intro ps h1 h2 h3 h4
    have hlt : (Packet5.connAck p.sessionPresent p.reasonCode.code ps).body.length < 2 ^ 28 := by
      simp only [Packet5.body, List.length_append, List.length_cons, List.length_nil]
      omega
    refine ⟨.connAck p.sessionPresent p.reasonCode.code ps, ⟨hlt, ?_, hcode.2, h3⟩, ⟨rfl, ?_, h4⟩, bytes5_of hb hinv rfl ?_ hlt⟩
    · rcases List.mem_cons.mp hcode.1 with h | h
      · rw [h]; decide
      · rw [List.mem_singleton.mp h]; decide
    · rw [n1]; simp [Nat.mod_eq_of_lt n2]
    · rw [ConnAckPacket.body, hv, h1]
      cases p.sessionPresent <;> rfl
  rcases hp with hp | ⟨u, hp, hu⟩
  · exact key [] (by rw [hp, propertyBlock_nil]; rfl) (by rw [propertyBlock_nil]; decide) (legal_nil _ _) (Or.inl ⟨hp, rfl⟩)
  · have hw : encodeProps [Property.assignedClientIdentifier u] = [Property.assignedClientIdentifier u].flatMap Property.wire := by
      show (Property.assignedClientIdentifier u).encode ++ [] = (Property.assignedClientIdentifier u).wire ++ []
      rw [Property.encode_wire (.assignedClientIdentifier u) hu]
    have hlen : ([Property.assignedClientIdentifier u].flatMap Property.wire).length = u.length + 3 := by
      simp [Property.wire, field]
    have h2 := hu.2
    have hvl := encodeVbi_length_le (n := u.length + 3) (by omega)
    have hn : (Property.assignedClientIdentifier u).number = 0x12 := rfl
    refine key [.assignedClientIdentifier u] ?_ ?_ ⟨?_, by simp [hn]⟩ (Or.inr ⟨u, hp, rfl⟩)
    · have ho : optProps ConnAckProperties.toProps p.properties = [.assignedClientIdentifier u] := by rw [hp]; rfl
      rw [ho]
      have hs : propsSize [Property.assignedClientIdentifier u] = u.length + 3 := by rw [propsSize_eq _ (by rfl), hw, hlen]
      rw [encodeBlock, hs, hw, Nat.mod_eq_of_lt (by omega), encodeVbi_eq_vbi (by omega), Packet5.propertyBlock, hlen]
    · rw [Packet5.propertyBlock, List.length_append, hlen, ← encodeVbi_eq_vbi (by omega)]
      omega
    · intro q hq
      rw [List.mem_singleton.mp hq]
      exact ⟨hu, (by rw [hn]; decide)⟩

/-! ## The theorems -/

theorem Spec.Packet5.Legal.renamed {x : Packet5} (h : x.Legal) : ∃ t, (x.withTopic t).Legal := by
  cases x with
  | publish dup qos retain topic id ps payload => exact ⟨topic, h⟩
  | _ => exact ⟨[], h⟩

/-- Every packet the server sends is an MQTT 5 packet that says what the server means, and a legal one unless it is
a message for a filter with wildcards, which is legal but for its topic. -/
theorem sent5 (cfg : AuthConfig) (es : List Event) (hes : ∀ e ∈ es, EventObeys5 e) (e : Event) (he : EventObeys5 e) :
    ∀ p ∈ ((Server.init.run cfg es).step cfg e).2.sent,
      ∃ x : Packet5, ((NoWildcards p → x.Legal) ∧ ∃ t, (x.withTopic t).Legal) ∧ x.Means p ∧ p.encode = .ok x.bytes := by
  have always : ∀ p : Packet, (∃ x : Packet5, x.Legal ∧ x.Means p ∧ p.encode = .ok x.bytes) →
      ∃ x : Packet5, ((NoWildcards p → x.Legal) ∧ ∃ t, (x.withTopic t).Legal) ∧ x.Means p ∧ p.encode = .ok x.bytes :=
    fun p ⟨x, h, h'⟩ => ⟨x, ⟨fun _ => h, h.renamed⟩, h'⟩
  have hT := obeys_tame cfg es hes
  have hV := allV5_run cfg es hes
  have hD := obeys_deliver cfg es hes
  have hK := obeys_kept cfg es hes
  have hR : Server.Reachable cfg (Server.init.run cfg es) := ⟨es, rfl⟩
  have hI := fun cid => getAllInflight_iff (Server.Reachable.inflightOk hR) cid (fun id i hi => by
    rw [C41_stored] at hi; exact unacknowledged_id cfg _ _ _ _ hi)
  generalize hsrv : Server.init.run cfg es = srv at *
  intro p hp
  cases e with
  | abort c => cases hp
  | restart => cases hp
  | close c =>
    cases ha : srv.at c with
    | none =>
      rw [show srv.step cfg (.close c) = (srv, {}) by simp only [Server.step]; exact onConn_none ha _] at hp
      cases hp
    | some s =>
      obtain ⟨k, hk, hs, e⟩ := onConn_at ha (fun r s => (srv.finish c r s, {}))
      have e' : srv.step cfg (.close c) = (srv.finish c k.session s, {}) := e
      rw [e'] at hp; cases hp
  | recv c p' =>
    cases ha : srv.at c with
    | none =>
      rw [show srv.step cfg (.recv c p') = (srv, {}) by simp only [Server.step]; exact onConn_none ha _] at hp
      cases hp
    | some s =>
      by_cases hd : ∃ d, p' = .disconnect d
      · obtain ⟨d, rfl⟩ := hd
        obtain ⟨k, hk, hs, e⟩ := step_disconnect (cfg := cfg) (d := d) ha
        rw [e] at hp; simp at hp
      · obtain ⟨k, hk, hs, e⟩ := step_recv (cfg := cfg) (p := p') ha (fun d he => hd ⟨d, he⟩)
        rw [e] at hp
        cases hr : (s.processIncoming srv.world cfg.manager c p').result with
        | error err => rw [hr] at hp; simp at hp
        | ok res =>
          rw [hr] at hp
          cases res with
          | none => simp at hp
          | some x =>
            simp only [Option.toList_some, List.mem_singleton] at hp
            subst hp
            exact always _ <| answer5 (hV _ _ hs) srv.world cfg.manager c he (fun d he => hd ⟨d, he⟩) hr
  | deliver c f =>
    obtain ⟨q, rfl, h1, h2, h3, h4, h5, h6⟩ := hD c f p hp
    obtain ⟨⟨g1, g2, g3, _⟩, _⟩ := deliver_out cfg hR hT c f .v5 _ hp
    exact legal_publish5 q h5 g1 g2 h6 g3 (by rw [h1]; exact h2) h3 h4
  | first c p' uuid w =>
    obtain ⟨⟨q, rfl, hq⟩, hu⟩ := he
    simp only [Server.step] at hp
    split at hp
    · simp at hp
    · unfold Server.connect at hp
      split at hp
      · simp only [List.mem_singleton] at hp
        subst hp
        exact always _ <| connAck5 _ hq.1 (Or.inr ⟨rfl, rfl⟩) (Or.inl rfl)
      · unfold Server.start at hp
        cases w with
        | false => simp at hp
        | true =>
          simp only [if_true, List.mem_cons, List.mem_map] at hp
          rcases hp with rfl | ⟨i, hi, rfl⟩
          · obtain ⟨b1, b2⟩ := begin_connAck
              ((srv.discard q.payload.clientId q.flags.cleanStart).enter q).2.2 uuid
              (srv.find q.payload.clientId q.flags.cleanStart).resume
            refine always _ <| connAck5 _ (by rw [b1, enter_connect]; exact hq.1) (Or.inl ?_) ?_
            · unfold Session.begin; split <;> rfl
            · rcases b2 with b2 | b2
              · exact Or.inl b2
              · exact Or.inr ⟨uuid, b2, hu⟩
          · have hg := (find_tame hT q.payload.clientId q.flags.cleanStart).2.2 i hi
            have hm : i ∈ srv.store.getAllInflight q.payload.clientId := by
              unfold Server.find at hi
              split at hi
              · cases hi
              · split at hi
                · cases hi
                · split at hi
                  · exact hi
                  · cases hi
            obtain ⟨k1, k2⟩ := hK _ _ i (((hI q.payload.clientId).2 i).mp hm)
            refine legal_publish5 _ rfl hg.topic ?_ hg.size ?_ k2 ?_ ?_
            · show i.qos ≠ _
              rcases hg.qos with h | h <;> simp [h]
            · show _ ↔ i.qos ≠ _
              rcases hg.qos with h | h <;> simp [h]
            · simpa using k1
            · intro _
              show i.qos ≠ _
              rcases hg.qos with h | h <;> simp [h]

/-- C130 (partial): if all clients speak MQTT 5 and obey the standard, then after every history (connections,
crashes and restarts included) and for every event, every packet the server sends is a legal MQTT 5 packet
that says what the server means, unless it is a message for a filter with wildcards.  Missing, because it is
false: messages for filters with wildcards, AUTH packets, and wills with QoS 1 or 2 (C87). -/
theorem C130_legal_partial (cfg : AuthConfig) (es : List Event) (hes : ∀ e ∈ es, EventObeys5 e) (e : Event)
    (he : EventObeys5 e) :
    ∀ p ∈ ((Server.init.run cfg es).step cfg e).2.sent,
      (∀ q, p = .publish q → (0x2b : UInt8) ∉ q.topicName ∧ (0x23 : UInt8) ∉ q.topicName) →
      ∃ x : Packet5, x.Legal ∧ x.Means p ∧ p.encode = .ok x.bytes := by
  intro p hp hw
  obtain ⟨x, h1, h2⟩ := sent5 cfg es hes e he p hp
  exact ⟨x, h1.1 hw, h2⟩

/-- A history with a client that has a will, one whose identifier the server makes up, requests, messages, a
restart and a resumed session. -/
def exFive : List Event :=
  let con (id : Str) : ConnectPacket :=
    { protocolVersion := .v5, flags := { willFlag := id ≠ [] }, keepalive := 60, properties := none,
      payload := { clientId := id, willTopic := some (str "gone"), willPayload := some (str "bye") } }
  [.first 0 (.connect (con (str "s"))) (str "x") true, .first 1 (.connect (con [])) (str "y") true,
   .recv 0 (.subscribe ⟨1, none, [⟨str "t", {}⟩, ⟨str "#", {}⟩, ⟨str "#a", {}⟩]⟩),
   .recv 1 (.publish { topicName := str "t", qos := .atLeastOnce, packetId := some 5, payload := some [1] }),
   .deliver 0 (str "t"), .restart]

/-- The client that comes back. -/
def exBack : ConnectPacket :=
  { protocolVersion := .v5, flags := {}, keepalive := 60, properties := none, payload := { clientId := str "s" } }

theorem exFive_obeys : ∀ e ∈ exFive, EventObeys5 e := by
  intro e he
  simp only [exFive, List.mem_cons, List.not_mem_nil, or_false] at he
  have vt : ValidTopic (str "gone") := ⟨by decide, by decide, by decide, by decide, by decide⟩
  rcases he with rfl | rfl | rfl | rfl | rfl | rfl
  · refine ⟨⟨_, rfl, rfl, fun _ t ht => ?_⟩, by decide⟩
    cases ht; exact ⟨vt, rfl, by decide⟩
  · refine ⟨⟨_, rfl, rfl, fun h => ?_⟩, by decide⟩
    cases h
  · exact ⟨by decide, by decide, by decide, by decide⟩
  · exact ⟨by decide, by decide, by decide, by decide, by decide⟩
  · trivial
  · trivial

example := C130_legal_partial {} exFive exFive_obeys (.first 0 (.connect exBack) (str "x") true)
  ⟨⟨_, rfl, rfl, fun h => by cases h⟩, by decide⟩

example : ((Server.init.run {} exFive).step {} (.first 0 (.connect exBack) (str "x") true)).2.sent =
  [.connAck { protocolVersion := .v5, sessionPresent := true },
   .publish { dup := true, qos := .atLeastOnce, topicName := str "t", packetId := some 5, payload := some [1] }] := by
  decide +kernel

/-! ## What is not legal -/

theorem vbi_append_inj {a b : Nat} {x y : Buf} (ha : a < 2 ^ 28) (hb : b < 2 ^ 28) (h : vbi a ++ x = vbi b ++ y) :
    a = b ∧ x = y := by
  have h1 := decodeVbi_encode .debug a ha x
  have h2 := decodeVbi_encode .debug b hb y
  rw [encodeVbi_eq_vbi (by omega)] at h1 h2
  rw [h, h2] at h1
  cases h1
  exact ⟨rfl, rfl⟩

theorem field_append_inj {a b x y : Buf} (ha : a.length ≤ 65535) (hb : b.length ≤ 65535)
    (h : field a ++ x = field b ++ y) : a = b := by
  simp only [field, List.cons_append, List.cons.injEq] at h
  obtain ⟨h1, h2, h3⟩ := h
  have g1 := congrArg UInt8.toNat h1
  have g2 := congrArg UInt8.toNat h2
  simp only [UInt8.toNat_ofNat'] at g1 g2
  exact (List.append_inj h3 (by omega)).1

theorem bytes5_inj {x : Packet5} {h : UInt8} {body : Buf} (hx : x.body.length < 2 ^ 28) (hb : body.length < 2 ^ 28)
    (e : x.bytes = h :: (vbi body.length ++ body)) : UInt8.ofNat x.first = h ∧ x.body = body := by
  unfold Packet5.bytes at e
  rw [List.cons.injEq] at e
  exact ⟨e.1, (vbi_append_inj hx hb e.2).2⟩

/-- C130 is false for messages for a filter with wildcards: whatever the message, the packet the server sends
is not a legal MQTT 5 packet, because its topic name contains the wildcards. -/
theorem C130_wildcard_false (cfg : AuthConfig) (es : List Event) (hes : ∀ e ∈ es, EventObeys5 e) (c : Nat) (f : Str)
    (hf : (0x2b : UInt8) ∈ f ∨ (0x23 : UInt8) ∈ f) :
    ∀ p ∈ ((Server.init.run cfg es).step cfg (.deliver c f)).2.sent,
      ∃ b, p.encode = .ok b ∧ ∀ x : Packet5, x.Legal → x.bytes ≠ b := by
  intro p hp
  obtain ⟨q, rfl, h1, h2, h3, h4, h5, h6⟩ := obeys_deliver cfg es hes c f p hp
  obtain ⟨⟨g1, g2, g3, _⟩, _⟩ := deliver_out cfg ⟨es, rfl⟩ (obeys_tame cfg es hes) c f .v5 _ hp
  obtain ⟨a, _, hb⟩ := publish5 q h5 g1 g2 h6
  refine ⟨_, hb, fun x hx e => ?_⟩
  obtain ⟨e1, e2⟩ := bytes5_inj hx.1 a e
  have ne : ∀ n : Nat, n < 256 → n / 16 ≠ 3 → UInt8.ofNat n ≠
      UInt8.ofNat (Packet5.publish q.dup q.qos q.retain q.topicName q.packetId [] (q.payload.getD [])).first := by
    intro n h8 hn e
    have := congrArg UInt8.toNat e
    simp only [UInt8.toNat_ofNat', Packet5.first] at this
    have hl : q.qos.level ≤ 2 := by cases hq : q.qos <;> first | decide | exact absurd hq g2
    have b1 : (if q.dup = true then 8 else 0) ≤ 8 := by split <;> omega
    have b2 : (if q.retain = true then 1 else 0) ≤ 1 := by split <;> omega
    omega
  cases x with
  | publish dup qos retain topic id ps payload =>
    simp only [Packet5.body, List.append_assoc] at e2
    have ht := field_append_inj hx.2.1.2 g1.2 e2
    rw [h1] at ht
    rcases hf with hf | hf
    · exact hx.2.2.2.1 (ht ▸ hf)
    · exact hx.2.2.2.2.1 (ht ▸ hf)
  | _ => exact ne _ (by simp [Packet5.first]) (by simp [Packet5.first]) e1

example := C130_wildcard_false {} (exFive.take 5) (fun e he => exFive_obeys e (List.mem_of_mem_take he)) 0 (str "#") (by decide)

example : ((Server.init.run {} (exFive.take 5)).step {} (.deliver 0 (str "#"))).2.sent =
  [.publish { qos := .atLeastOnce, topicName := str "#", packetId := some 5, payload := some [1] }] := by decide +kernel

theorem wire_cons (q : Property) : ∃ h t, q.wire = h :: t ∧ h ≠ 0 := by
  cases q <;> exact ⟨_, _, rfl, by decide⟩

/-- C130 is false for AUTH packets: none the server can send is a legal MQTT 5 packet, because the length of
the properties is left out. -/
theorem C130_auth_false (p : AuthPacket) (b : Buf) (he : (Packet.auth p).encode = .ok b) (hl : b.length < 2 ^ 28) :
    ∀ x : Packet5, x.Legal → x.bytes ≠ b := by
  intro x hx e
  obtain ⟨body, hb, hbody⟩ := AuthPacket.encode_inv he
  have hlb : body.length < 2 ^ 28 := by
    rw [hb] at hl
    simp only [frame, List.length_cons, List.length_append] at hl
    omega
  rw [hb, frame_eq rfl hlb] at e
  obtain ⟨e1, e2⟩ := bytes5_inj hx.1 hlb e
  cases x with
  | auth why =>
    cases why with
    | none => rw [hbody] at e2; cases e2
    | some w =>
      obtain ⟨code, qs⟩ := w
      rw [hbody] at e2
      have e3 : Packet5.propertyBlock qs = encodeProps p.properties.toProps := (List.cons.inj e2).2
      have hshape : ∀ r ∈ p.properties.toProps, ∃ (i : UInt8) (v t : Buf), i.toNat ≤ 38 ∧ r.encode = i :: (encodeBin v ++ t) := by
        intro r hr
        simp only [AuthProperties.toProps, List.mem_append, List.mem_map] at hr
        rcases hr with ((⟨v, _, rfl⟩ | ⟨v, _, rfl⟩) | ⟨v, _, rfl⟩) | ⟨v, _, rfl⟩
        · exact ⟨0x15, v, [], by decide, (by
            rw [List.append_nil]; show encodeVbi 0x15 ++ encodeBin v = _; rw [show encodeVbi 0x15 = [0x15] by decide]; rfl)⟩
        · exact ⟨0x16, v, [], by decide, (by
            rw [List.append_nil]; show encodeVbi 0x16 ++ encodeBin v = _; rw [show encodeVbi 0x16 = [0x16] by decide]; rfl)⟩
        · exact ⟨0x1f, v, [], by decide, (by
            rw [List.append_nil]; show encodeVbi 0x1f ++ encodeBin v = _; rw [show encodeVbi 0x1f = [0x1f] by decide]; rfl)⟩
        · exact ⟨0x26, v.1, encodeBin v.2, by decide, (by
            show encodeVbi 0x26 ++ (encodeBin v.1 ++ encodeBin v.2) = _; rw [show encodeVbi 0x26 = [0x26] by decide]; rfl)⟩
      cases hps : p.properties.toProps with
      | nil =>
        rw [hps] at e3
        have := congrArg List.length e3
        have hv := encodeVbi_length_pos (qs.flatMap Property.wire).length
        have hq : (qs.flatMap Property.wire).length < 2 ^ 28 := by
          have := hx.1
          simp only [Packet5.body, Packet5.propertyBlock, List.length_cons, List.length_append] at this
          omega
        rw [encodeVbi_eq_vbi (by omega)] at hv
        simp only [Packet5.propertyBlock, List.length_append, encodeProps, List.flatMap_nil, List.length_nil] at this
        omega
      | cons r rs =>
        obtain ⟨i, v, t, hi, hr⟩ := hshape r (by rw [hps]; simp)
        rw [hps] at e3
        have e4 : vbi (qs.flatMap Property.wire).length ++ qs.flatMap Property.wire = i :: (encodeBin v ++ t ++ encodeProps rs) := by
          rw [Packet5.propertyBlock] at e3
          rw [e3]
          show r.encode ++ _ = _
          rw [hr]; rfl
        have hn : (qs.flatMap Property.wire).length = i.toNat ∧ qs.flatMap Property.wire = encodeBin v ++ t ++ encodeProps rs := by
          have hq : (qs.flatMap Property.wire).length < 2 ^ 28 := by
            have := hx.1
            simp only [Packet5.body, Packet5.propertyBlock, List.length_cons, List.length_append] at this
            omega
          have hi' : [i] = vbi i.toNat := by rw [short_vbi (by omega)]; simp
          refine vbi_append_inj hq (by omega) ?_
          rw [e4, ← hi']; rfl
        obtain ⟨hn, hw⟩ := hn
        have hlen := congrArg List.length hw
        rw [hn, List.length_append, List.length_append] at hlen
        have hbin : (encodeBin v).length = v.length + 2 := by simp [encodeBin, encodeU16]
        have h0 : encodeBin v ++ t ++ encodeProps rs = 0 :: UInt8.ofNat v.length :: (v ++ t ++ encodeProps rs) := by
          have : v.length < 256 := by omega
          have e : encodeU16 (UInt16.ofNat v.length) = [0, UInt8.ofNat v.length] := by
            rw [encodeU16_be, UInt16.toNat_ofNat', Nat.mod_eq_of_lt (by omega), be16, Nat.div_eq_of_lt this, Nat.mod_eq_of_lt this]
            rfl
          rw [encodeBin, e]; simp
        rw [h0] at hw
        cases qs with
        | nil => cases hw
        | cons q qs =>
          obtain ⟨h, tl, e, hne⟩ := wire_cons q
          rw [List.flatMap_cons, e] at hw
          exact hne (List.cons.inj hw).1
  | publish dup qos retain topic id ps payload =>
    have := congrArg UInt8.toNat e1
    simp only [UInt8.toNat_ofNat', Packet5.first] at this
    have hl : qos.level ≤ 2 := by
      have hq := hx.2.2.2.2.2.2.1
      cases h : qos <;> first | decide | exact absurd h hq
    have b1 : (if dup = true then 8 else 0) ≤ 8 := by split <;> omega
    have b2 : (if retain = true then 1 else 0) ≤ 1 := by split <;> omega
    have b3 : (0xf0 : UInt8).toNat = 240 := rfl
    omega
  | _ => exact absurd e1 (by simp only [Packet5.first]; decide)

example : Session.authSuccess.encode = .ok [0xf0, 1, 0] := by decide

example : ∀ x : Packet5, x.Legal → x.bytes ≠ [0xf0, 1, 0] :=
  C130_auth_false { reason := .success } _ (by decide) (by decide)

end Mercurio
