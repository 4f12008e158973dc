import Verif.Spec.Net
import Verif.Lemmas.Server
import Verif.Props.Delivery

/-!
# C129: several filters in one packet, or in several packets
-/

namespace Mercurio

open Spec Server

/-- The codes in a packet that answers a SUBSCRIBE or UNSUBSCRIBE, one for each filter. -/
def Spec.codesIn : Packet → List ReasonCode
  | .subAck a => a.payload
  | .unsubAck a => a.payload
  | _ => []

/-! ## Lemmas -/

theorem Map.insert_twice {K V : Type} [DecidableEq K] (m : Map K V) (k : K) (v v' : V) :
    (m.insert k v).insert k v' = m.insert k v' := by
  simp [Map.insert, Map.erase]

/-- The storage with a session saved under `x`. -/
def withSaved (w : World) (x : Str) (v : SessionState) : World := w.mapStore fun st => st.saveSession x v

theorem add_withSaved (s : Session) (w : World) (x : Str) (v : SessionState) (f : Str) :
    s.addSubscription (withSaved w x v) f =
      ((s.addSubscription w f).1, withSaved (s.addSubscription w f).2 x v) := rfl

theorem loop_withSaved (fs : List Str) : ∀ (s : Session) (w : World) (x : Str) (v : SessionState),
    s.subscribeLoop (withSaved w x v) fs =
      ((s.subscribeLoop w fs).1, withSaved (s.subscribeLoop w fs).2.1 x v, (s.subscribeLoop w fs).2.2) := by
  induction fs with
  | nil => intros; rfl
  | cons f fs ih =>
    intro s w x v
    simp only [Session.subscribeLoop]
    cases validateSubscribeFilter f with
    | error e => simp only [ih]
    | ok u => simp only [add_withSaved, ih]

theorem loop_append (fs gs : List Str) : ∀ (s : Session) (w : World),
    s.subscribeLoop w (fs ++ gs) =
      (((s.subscribeLoop w fs).1.subscribeLoop (s.subscribeLoop w fs).2.1 gs).1,
       ((s.subscribeLoop w fs).1.subscribeLoop (s.subscribeLoop w fs).2.1 gs).2.1,
       (s.subscribeLoop w fs).2.2 ++ ((s.subscribeLoop w fs).1.subscribeLoop (s.subscribeLoop w fs).2.1 gs).2.2) := by
  induction fs with
  | nil => intros; rfl
  | cons f fs ih =>
    intro s w
    simp only [List.cons_append, Session.subscribeLoop]
    cases validateSubscribeFilter f with
    | error e => simp only [ih, List.cons_append]
    | ok u => simp only [ih, List.cons_append]

theorem loop_who (fs : List Str) : ∀ (s : Session) (w : World),
    (s.subscribeLoop w fs).1.clientId = s.clientId ∧ (s.subscribeLoop w fs).1.connect = s.connect := by
  induction fs with
  | nil => intros; exact ⟨rfl, rfl⟩
  | cons f fs ih =>
    intro s w
    simp only [Session.subscribeLoop]
    cases validateSubscribeFilter f with
    | error e => exact ih s w
    | ok u =>
      obtain ⟨a, b⟩ := ih (s.addSubscription w f).1 (s.addSubscription w f).2
      exact ⟨a, b⟩

theorem unloop_append (fs gs : List Str) : ∀ subs : Map Str SubStream,
    Session.unsubscribeLoop subs (fs ++ gs) =
      ((Session.unsubscribeLoop (Session.unsubscribeLoop subs fs).1 gs).1,
       (Session.unsubscribeLoop subs fs).2 ++ (Session.unsubscribeLoop (Session.unsubscribeLoop subs fs).1 gs).2) := by
  induction fs with
  | nil => intros; rfl
  | cons f fs ih => intro subs; simp only [List.cons_append, Session.unsubscribeLoop, ih]

/-- The state and the answer after a SUBSCRIBE. -/
theorem step_subscribe_eq {cfg : AuthConfig} {srv : Server} {c : Nat} {k : Conn} {s : Session}
    (hk : srv.conns.get c = some k) (hs : srv.heap.get k.session = some s) (p : SubscribePacket) :
    let r := s.subscribeLoop srv.world (p.payload.map (·.topicFilter))
    srv.step cfg (.recv c (.subscribe p)) =
      ({ srv with world := withSaved r.2.1 s.clientId (stateOf s.clientId r.1.filters), heap := srv.heap.insert k.session r.1 },
       { sent := [.subAck { protocolVersion := s.connect.protocolVersion, packetId := p.packetId, payload := r.2.2 }] }) := by
  intro r
  have ha : srv.at c = some s := at_eq_some.mpr ⟨k, hk, hs⟩
  obtain ⟨k', hk', _, e⟩ := step_recv_ok (cfg := cfg) (p := .subscribe p) ha (by simp) rfl
  rw [hk] at hk'
  cases hk'
  rw [e]
  have hw : r.1.clientId = s.clientId := (loop_who _ s srv.world).1
  rw [← hw]
  rfl

theorem step_unsubscribe_eq {cfg : AuthConfig} {srv : Server} {c : Nat} {k : Conn} {s : Session}
    (hk : srv.conns.get c = some k) (hs : srv.heap.get k.session = some s) (p : UnsubscribePacket) :
    let r := Session.unsubscribeLoop s.subscriptions p.payload
    srv.step cfg (.recv c (.unsubscribe p)) =
      ({ srv with world := withSaved srv.world s.clientId (stateOf s.clientId r.1.keys)
                  heap := srv.heap.insert k.session { s with subscriptions := r.1 } },
       { sent := [.unsubAck { protocolVersion := s.connect.protocolVersion, packetId := p.packetId, payload := r.2 }] }) := by
  intro r
  have ha : srv.at c = some s := at_eq_some.mpr ⟨k, hk, hs⟩
  obtain ⟨k', hk', _, e⟩ := step_recv_ok (cfg := cfg) (p := .unsubscribe p) ha (by simp) rfl
  rw [hk] at hk'
  cases hk'
  rw [e]
  rfl

theorem withSaved_twice (w : World) (x : Str) (v v' : SessionState) :
    withSaved (withSaved w x v) x v' = withSaved w x v' := by
  simp [withSaved, World.mapStore, MemoryStore.saveSession, Map.insert_twice]

theorem two_subscribes {cfg : AuthConfig} {srv : Server} {c : Nat} {s : Session} (ha : srv.at c = some s)
    (p q r : SubscribePacket) (hr : r.payload = p.payload ++ q.payload) :
    ((srv.step cfg (.recv c (.subscribe p))).1.step cfg (.recv c (.subscribe q))).1 =
      (srv.step cfg (.recv c (.subscribe r))).1 ∧
    (srv.step cfg (.recv c (.subscribe r))).2.sent.flatMap codesIn =
      (srv.step cfg (.recv c (.subscribe p))).2.sent.flatMap codesIn ++
      ((srv.step cfg (.recv c (.subscribe p))).1.step cfg (.recv c (.subscribe q))).2.sent.flatMap codesIn ∧
    ∃ s', (srv.step cfg (.recv c (.subscribe p))).1.at c = some s' := by
  obtain ⟨k, hk, hs⟩ := at_eq_some.mp ha
  have e1 := step_subscribe_eq (cfg := cfg) hk hs p
  have e3 := step_subscribe_eq (cfg := cfg) hk hs r
  simp only at e1 e3
  have hs2 : (srv.step cfg (.recv c (.subscribe p))).1.heap.get k.session =
      some (s.subscribeLoop srv.world (p.payload.map (·.topicFilter))).1 := by
    rw [e1]; simp [Map.get_insert]
  have hk2 : (srv.step cfg (.recv c (.subscribe p))).1.conns.get c = some k := by rw [e1]; exact hk
  have e2 := step_subscribe_eq (cfg := cfg) hk2 hs2 q
  simp only at e2
  refine ⟨?_, ?_, _, at_eq_some.mpr ⟨k, hk2, hs2⟩⟩
  · rw [e2, e3, hr, List.map_append, loop_append]
    rw [e1]
    simp only [loop_withSaved, (loop_who _ s srv.world).1, withSaved_twice, Map.insert_twice]
  · rw [e2, e3, hr, List.map_append, loop_append]
    rw [e1]
    simp only [loop_withSaved, List.flatMap_cons, List.flatMap_nil, List.append_nil, codesIn]

theorem two_unsubscribes {cfg : AuthConfig} {srv : Server} {c : Nat} {s : Session} (ha : srv.at c = some s)
    (p q r : UnsubscribePacket) (hr : r.payload = p.payload ++ q.payload) :
    ((srv.step cfg (.recv c (.unsubscribe p))).1.step cfg (.recv c (.unsubscribe q))).1 =
      (srv.step cfg (.recv c (.unsubscribe r))).1 ∧
    (srv.step cfg (.recv c (.unsubscribe r))).2.sent.flatMap codesIn =
      (srv.step cfg (.recv c (.unsubscribe p))).2.sent.flatMap codesIn ++
      ((srv.step cfg (.recv c (.unsubscribe p))).1.step cfg (.recv c (.unsubscribe q))).2.sent.flatMap codesIn ∧
    ∃ s', (srv.step cfg (.recv c (.unsubscribe p))).1.at c = some s' := by
  obtain ⟨k, hk, hs⟩ := at_eq_some.mp ha
  have e1 := step_unsubscribe_eq (cfg := cfg) hk hs p
  have e3 := step_unsubscribe_eq (cfg := cfg) hk hs r
  simp only at e1 e3
  have hs2 : (srv.step cfg (.recv c (.unsubscribe p))).1.heap.get k.session =
      some { s with subscriptions := (Session.unsubscribeLoop s.subscriptions p.payload).1 } := by
    rw [e1]; simp [Map.get_insert]
  have hk2 : (srv.step cfg (.recv c (.unsubscribe p))).1.conns.get c = some k := by rw [e1]; exact hk
  have e2 := step_unsubscribe_eq (cfg := cfg) hk2 hs2 q
  simp only at e2
  refine ⟨?_, ?_, _, at_eq_some.mpr ⟨k, hk2, hs2⟩⟩
  · rw [e2, e3, hr, unloop_append]
    rw [e1]
    simp only [withSaved_twice, Map.insert_twice]
  · rw [e2, e3, hr, unloop_append]
    rw [e1]
    simp only [List.flatMap_cons, List.flatMap_nil, List.append_nil, codesIn]

/-! ## C129 -/

/-- C129: a client sends SUBSCRIBE packets one right after the other (at least one).  The server is then in the same state as after
one SUBSCRIBE with all their filters, whatever the packet identifiers, options and properties, and the codes in
the answers, put together, are those of the answer to the one packet.  So all that happens later is the same. -/
theorem C129_subscribe (cfg : AuthConfig) (srv : Server) (hr : srv.Reachable cfg) (c : Nat) (hopen : srv.isOpen c)
    (ps : List SubscribePacket) (hps : ps ≠ []) (p : SubscribePacket) (hp : p.payload = ps.flatMap (·.payload)) :
    let one : List Event := [.recv c (.subscribe p)]
    let many : List Event := ps.map fun q => .recv c (.subscribe q)
    srv.run cfg many = srv.run cfg one ∧
    (srv.sentTo cfg c many).flatMap codesIn = (srv.sentTo cfg c one).flatMap codesIn := by
  have key : ∀ (ps : List SubscribePacket) (q : SubscribePacket) (srv : Server) (s : Session), srv.at c = some s →
      ∀ p : SubscribePacket, p.payload = q.payload ++ ps.flatMap (·.payload) →
      (((q :: ps).map fun q => Event.recv c (.subscribe q)).foldl (fun s e => (s.step cfg e).1) srv) =
        (srv.step cfg (.recv c (.subscribe p))).1 ∧
      (srv.sentTo cfg c ((q :: ps).map fun q => Event.recv c (.subscribe q))).flatMap codesIn =
        (srv.step cfg (.recv c (.subscribe p))).2.sent.flatMap codesIn := by
    intro ps
    induction ps with
    | nil =>
      intro q srv s ha p hp
      obtain ⟨k, hk, hs⟩ := at_eq_some.mp ha
      have e1 := step_subscribe_eq (cfg := cfg) hk hs p
      have e2 := step_subscribe_eq (cfg := cfg) hk hs q
      simp only [List.flatMap_nil, List.append_nil] at hp
      rw [hp] at e1
      refine ⟨?_, ?_⟩
      · show (srv.step cfg (.recv c (.subscribe q))).1 = _
        rw [e1, e2]
      · simp only [List.map_cons, List.map_nil, Server.sentTo, Event.conn, if_true, List.append_nil]
        rw [e1, e2]; rfl
    | cons q2 ps ih =>
      intro q srv s ha p hp
      obtain ⟨h1, h2, s', hs'⟩ := two_subscribes (cfg := cfg) ha q
        { q2 with payload := q2.payload ++ ps.flatMap (·.payload) } p (by simpa using hp)
      obtain ⟨i1, i2⟩ := ih q2 _ s' hs' { q2 with payload := q2.payload ++ ps.flatMap (·.payload) } rfl
      refine ⟨?_, ?_⟩
      · rw [← h1, ← i1]; rfl
      · rw [h2, ← i2]
        simp only [List.map_cons, Server.sentTo, Event.conn, if_true, List.flatMap_append]
  obtain ⟨k, hk⟩ := hopen
  obtain ⟨s, hs⟩ := (hr.inv.conns c k hk).2
  cases ps with
  | nil => exact absurd rfl hps
  | cons q ps =>
    obtain ⟨h1, h2⟩ := key ps q srv s (at_eq_some.mpr ⟨k, hk, hs⟩) p (by simpa using hp)
    refine ⟨h1, ?_⟩
    rw [show (srv.sentTo cfg c [.recv c (.subscribe p)]) = (srv.step cfg (.recv c (.subscribe p))).2.sent by
      simp [Server.sentTo, Event.conn]]
    exact h2

/-- C129: a client sends UNSUBSCRIBE packets one right after the other (at least one).  The server is then in the same state as after
one UNSUBSCRIBE with all their filters, whatever the packet identifiers and properties, and the codes in
the answers, put together, are those of the answer to the one packet.  So all that happens later is the same. -/
theorem C129_unsubscribe (cfg : AuthConfig) (srv : Server) (hr : srv.Reachable cfg) (c : Nat) (hopen : srv.isOpen c)
    (ps : List UnsubscribePacket) (hps : ps ≠ []) (p : UnsubscribePacket) (hp : p.payload = ps.flatMap (·.payload)) :
    let one : List Event := [.recv c (.unsubscribe p)]
    let many : List Event := ps.map fun q => .recv c (.unsubscribe q)
    srv.run cfg many = srv.run cfg one ∧
    (srv.sentTo cfg c many).flatMap codesIn = (srv.sentTo cfg c one).flatMap codesIn := by
  have key : ∀ (ps : List UnsubscribePacket) (q : UnsubscribePacket) (srv : Server) (s : Session), srv.at c = some s →
      ∀ p : UnsubscribePacket, p.payload = q.payload ++ ps.flatMap (·.payload) →
      (((q :: ps).map fun q => Event.recv c (.unsubscribe q)).foldl (fun s e => (s.step cfg e).1) srv) =
        (srv.step cfg (.recv c (.unsubscribe p))).1 ∧
      (srv.sentTo cfg c ((q :: ps).map fun q => Event.recv c (.unsubscribe q))).flatMap codesIn =
        (srv.step cfg (.recv c (.unsubscribe p))).2.sent.flatMap codesIn := by
    intro ps
    induction ps with
    | nil =>
      intro q srv s ha p hp
      obtain ⟨k, hk, hs⟩ := at_eq_some.mp ha
      have e1 := step_unsubscribe_eq (cfg := cfg) hk hs p
      have e2 := step_unsubscribe_eq (cfg := cfg) hk hs q
      simp only [List.flatMap_nil, List.append_nil] at hp
      rw [hp] at e1
      refine ⟨?_, ?_⟩
      · show (srv.step cfg (.recv c (.unsubscribe q))).1 = _
        rw [e1, e2]
      · simp only [List.map_cons, List.map_nil, Server.sentTo, Event.conn, if_true, List.append_nil]
        rw [e1, e2]; rfl
    | cons q2 ps ih =>
      intro q srv s ha p hp
      obtain ⟨h1, h2, s', hs'⟩ := two_unsubscribes (cfg := cfg) ha q
        { q2 with payload := q2.payload ++ ps.flatMap (·.payload) } p (by simpa using hp)
      obtain ⟨i1, i2⟩ := ih q2 _ s' hs' { q2 with payload := q2.payload ++ ps.flatMap (·.payload) } rfl
      refine ⟨?_, ?_⟩
      · rw [← h1, ← i1]; rfl
      · rw [h2, ← i2]
        simp only [List.map_cons, Server.sentTo, Event.conn, if_true, List.flatMap_append]
  obtain ⟨k, hk⟩ := hopen
  obtain ⟨s, hs⟩ := (hr.inv.conns c k hk).2
  cases ps with
  | nil => exact absurd rfl hps
  | cons q ps =>
    obtain ⟨h1, h2⟩ := key ps q srv s (at_eq_some.mpr ⟨k, hk, hs⟩) p (by simpa using hp)
    refine ⟨h1, ?_⟩
    rw [show (srv.sentTo cfg c [.recv c (.unsubscribe p)]) = (srv.step cfg (.recv c (.unsubscribe p))).2.sent by
      simp [Server.sentTo, Event.conn]]
    exact h2

/-! ## Examples -/

/-- Three filters, one of them not valid, in one packet and in two. -/
example :
    let p : SubscribePacket := ⟨1, none, [⟨str "a/+", {}⟩, ⟨str "a/#/b", {}⟩, ⟨str "c", {}⟩]⟩
    let ps : List SubscribePacket := [⟨2, none, [⟨str "a/+", {}⟩]⟩, ⟨3, none, [⟨str "a/#/b", {}⟩, ⟨str "c", {}⟩]⟩]
    twoClients.isOpen 0 ∧ ps ≠ [] ∧ p.payload = ps.flatMap (·.payload) ∧
    (twoClients.sentTo exCfg 0 [.recv 0 (.subscribe p)]).flatMap codesIn =
      [.grantedQoS0, .topicFilterInvalid, .grantedQoS0] := by
  refine ⟨by rw [isOpen_iff]; decide +kernel, by simp, by rfl, by decide +kernel⟩

/-- The same for UNSUBSCRIBE, from a client that has subscribed to `a/+`. -/
example :
    let srv := (twoClients.step exCfg (.recv 0 (.subscribe ⟨1, none, [⟨str "a/+", {}⟩]⟩))).1
    let p : UnsubscribePacket := ⟨1, none, [str "a/+", str "c"]⟩
    let ps : List UnsubscribePacket := [⟨2, none, [str "a/+"]⟩, ⟨3, none, [str "c"]⟩]
    srv.isOpen 0 ∧ ps ≠ [] ∧ p.payload = ps.flatMap (·.payload) ∧
    (srv.sentTo exCfg 0 [.recv 0 (.unsubscribe p)]).flatMap codesIn = [.success, .noSubscriptionExisted] := by
  refine ⟨by rw [isOpen_iff]; decide +kernel, by simp, by rfl, by decide +kernel⟩

end Mercurio
