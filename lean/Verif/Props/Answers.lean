import Verif.Props.Alone
import Verif.Props.Net
import Verif.Lemmas.Solo

/-!
# C119: what a client is answered depends on nobody else
-/

namespace Mercurio

open Spec Server

/-! ## Specification -/

/-- The packets that arrive on connection `c` in a history (after the CONNECT). -/
def Spec.packetsFrom (c : Nat) (es : List Event) : List Packet :=
  es.filterMap fun
    | .recv d p => if d = c then some p else none
    | _ => none

/-- What is sent in answer to the packets that arrive on connection `c`, packet by packet (forwarded messages are
not answers). -/
def Spec.answers (cfg : AuthConfig) (c : Nat) : Server → List Event → List (List Packet)
  | _, [] => []
  | srv, e :: es =>
    match e with
    | .recv d _ => if d = c then (srv.step cfg e).2.sent :: answers cfg c (srv.step cfg e).1 es
      else answers cfg c (srv.step cfg e).1 es
    | _ => answers cfg c (srv.step cfg e).1 es

/-- The event does not disturb connection `c`: no other connection works on its session, nobody resumes it, and
unless the event is a packet of its own the connection stays open if it is open.  (A connection is not used twice.) -/
structure Spec.Undisturbed (cfg : AuthConfig) (c : Nat) (srv : Server) (e : Event) : Prop where
  alone : ∀ d, d ≠ c → ¬ srv.shares c d
  others : ∀ d q u w, e = .first d (.connect q) u w → srv.clientOf c = some q.payload.clientId →
    q.flags.cleanStart = true
  stays : (∀ p, e ≠ .recv c p) → srv.isOpen c → (srv.step cfg e).1.isOpen c
  once : ∀ p u w, e ≠ .first c p u w

/-- No event of the history disturbs connection `c`. -/
def Spec.UndisturbedRun (cfg : AuthConfig) (c : Nat) : Server → List Event → Prop
  | _, [] => True
  | srv, e :: es => Undisturbed cfg c srv e ∧ UndisturbedRun cfg c (srv.step cfg e).1 es

/-! ## Sessions that answer alike -/

/-- What the answers depend on. -/
structure Session.Alike (s s' : Session) : Prop where
  connect : s.connect = s'.connect
  auth : s.authMethod = s'.authMethod
  subs : ∀ f, (s.subscriptions.get f).isSome = (s'.subscriptions.get f).isSome

theorem Session.Alike.refl (s : Session) : s.Alike s := ⟨rfl, rfl, fun _ => rfl⟩
theorem Session.Alike.symm {s s' : Session} (h : s.Alike s') : s'.Alike s :=
  ⟨h.connect.symm, h.auth.symm, fun f => (h.subs f).symm⟩
theorem Session.Alike.trans {a b c : Session} (h : a.Alike b) (k : b.Alike c) : a.Alike c :=
  ⟨h.connect.trans k.connect, h.auth.trans k.auth, fun f => (h.subs f).trans (k.subs f)⟩

theorem subscribeLoop_alike (fs : List Str) : ∀ (s s' : Session) (w w' : World), s.Alike s' →
    (s.subscribeLoop w fs).1.Alike (s'.subscribeLoop w' fs).1 ∧
      (s.subscribeLoop w fs).2.2 = (s'.subscribeLoop w' fs).2.2 := by
  induction fs with
  | nil => intro s s' w w' h; exact ⟨h, rfl⟩
  | cons f fs ih =>
    intro s s' w w' h
    simp only [Session.subscribeLoop]
    cases validateSubscribeFilter f with
    | error e =>
      obtain ⟨h1, h2⟩ := ih s s' w w' h
      exact ⟨h1, by simp only [h2]⟩
    | ok u =>
      obtain ⟨h1, h2⟩ := ih (s.addSubscription w f).1 (s'.addSubscription w' f).1 (s.addSubscription w f).2
        (s'.addSubscription w' f).2 ⟨h.connect, h.auth, fun g => by
          rw [addSubscription_get, addSubscription_get]
          split
          · rfl
          · exact h.subs g⟩
      exact ⟨h1, by simp only [h2]⟩

theorem unsubscribeLoop_alike (fs : List Str) : ∀ (m m' : Map Str SubStream),
    (∀ f, (m.get f).isSome = (m'.get f).isSome) →
    (∀ f, ((Session.unsubscribeLoop m fs).1.get f).isSome = ((Session.unsubscribeLoop m' fs).1.get f).isSome) ∧
      (Session.unsubscribeLoop m fs).2 = (Session.unsubscribeLoop m' fs).2 := by
  induction fs with
  | nil => intro m m' h; exact ⟨h, rfl⟩
  | cons f fs ih =>
    intro m m' h
    obtain ⟨h1, h2⟩ := ih (m.erase f) (m'.erase f) (fun g => by
      rw [Map.get_erase, Map.get_erase]
      split
      · rfl
      · exact h g)
    simp only [Session.unsubscribeLoop]
    exact ⟨h1, by rw [h2, h f]⟩

theorem processIncoming_alike {s s' : Session} (h : s.Alike s') (w w' : World) (m : Option AuthManager) (c : Nat)
    (p : Packet) :
    (s.processIncoming w m c p).result = (s'.processIncoming w' m c p).result ∧
      (s.processIncoming w m c p).session.Alike (s'.processIncoming w' m c p).session := by
  cases p with
  | publish p =>
    simp only [Session.processIncoming, Session.handlePublish]
    cases validatePublishTopic p.topicName with
    | error e => exact ⟨rfl, h⟩
    | ok u =>
      refine ⟨rfl, ?_⟩
      simp only [Session.notePublish]
      cases p.qos <;> cases p.packetId <;> exact ⟨h.connect, h.auth, h.subs⟩
  | pubAck p => exact ⟨rfl, h.connect, h.auth, h.subs⟩
  | pubRec p => exact ⟨rfl, h.connect, h.auth, h.subs⟩
  | pubRel p => exact ⟨rfl, h.connect, h.auth, h.subs⟩
  | pubComp p => exact ⟨rfl, h.connect, h.auth, h.subs⟩
  | subscribe p =>
    obtain ⟨h1, h2⟩ := subscribeLoop_alike (p.payload.map (·.topicFilter)) s s' w w' h
    simp only [Session.processIncoming, Session.handleSubscribe]
    exact ⟨by rw [h2, h.connect], h1⟩
  | unsubscribe p =>
    obtain ⟨h1, h2⟩ := unsubscribeLoop_alike p.payload s.subscriptions s'.subscriptions h.subs
    simp only [Session.processIncoming, Session.handleUnsubscribe]
    exact ⟨by rw [h2, h.connect], h.connect, h.auth, h1⟩
  | auth p =>
    simp only [Session.processIncoming, Session.handleAuth]
    cases m with
    | none => exact ⟨rfl, h⟩
    | some a =>
      simp only [h.auth]
      exact ⟨trivial, h.connect, rfl, h.subs⟩
  | _ => exact ⟨rfl, h⟩

/-- The two connections are both closed, or both open with sessions that answer alike. -/
def Server.AlikeAt (c : Nat) (srv srv' : Server) : Prop :=
  (srv.at c = none ∧ srv'.at c = none) ∨ ∃ s s', srv.at c = some s ∧ srv'.at c = some s' ∧ s.Alike s'

theorem Server.at_none_of_closed {srv : Server} {c : Nat} (h : ¬ srv.isOpen c) : srv.at c = none := by
  cases ha : srv.at c with
  | none => rfl
  | some s => exact absurd (isOpen_of_at ha) h

theorem recv_alike (cfg : AuthConfig) {c : Nat} {srv srv' : Server} (h : AlikeAt c srv srv') (p : Packet) :
    (srv.step cfg (.recv c p)).2.sent = (srv'.step cfg (.recv c p)).2.sent ∧
      AlikeAt c (srv.step cfg (.recv c p)).1 (srv'.step cfg (.recv c p)).1 := by
  rcases h with ⟨h1, h2⟩ | ⟨s, s', h1, h2, h⟩
  · have e1 : srv.step cfg (.recv c p) = (srv, {}) := by simp only [Server.step]; exact onConn_none h1 _
    have e2 : srv'.step cfg (.recv c p) = (srv', {}) := by simp only [Server.step]; exact onConn_none h2 _
    rw [e1, e2]
    exact ⟨rfl, Or.inl ⟨h1, h2⟩⟩
  · by_cases hd : ∃ d, p = .disconnect d
    · obtain ⟨d, rfl⟩ := hd
      obtain ⟨k, _, _, e1⟩ := step_disconnect (cfg := cfg) (d := d) h1
      obtain ⟨k', _, _, e2⟩ := step_disconnect (cfg := cfg) (d := d) h2
      rw [e1, e2]
      exact ⟨rfl, Or.inl ⟨at_none_of_closed (not_open_finish _ _ _ _), at_none_of_closed (not_open_finish _ _ _ _)⟩⟩
    · obtain ⟨k, hk, _, e1⟩ := step_recv (cfg := cfg) (p := p) h1 (fun d he => hd ⟨d, he⟩)
      obtain ⟨k', hk', _, e2⟩ := step_recv (cfg := cfg) (p := p) h2 (fun d he => hd ⟨d, he⟩)
      obtain ⟨g1, g2⟩ := processIncoming_alike h srv.world srv'.world cfg.manager c p
      rw [e1, e2, g1]
      cases (s'.processIncoming srv'.world cfg.manager c p).result with
      | error e =>
        exact ⟨rfl, Or.inl ⟨at_none_of_closed (not_open_finish _ _ _ _), at_none_of_closed (not_open_finish _ _ _ _)⟩⟩
      | ok res =>
        exact ⟨rfl, Or.inr ⟨_, _, at_put_same (by exact hk) _, at_put_same (by exact hk') _, g2⟩⟩

theorem processOutgoing_alike {s : Session} {t : TopicTree Message} {f : Str} {s' : Session} {p : PublishPacket}
    (h : s.processOutgoing t f = .packet s' p) : s.Alike s' := by
  unfold Session.processOutgoing at h
  cases hs : s.subscriptions.get f with
  | none => rw [hs] at h; cases h
  | some st =>
    rw [hs] at h
    simp only at h
    cases hp : st.poll t with
    | none => rw [hp] at h; cases h
    | some x =>
      rw [hp] at h
      simp only at h
      have hsubs : ∀ g, (s.subscriptions.get g).isSome = ((s.subscriptions.insert f x.2).get g).isSome := by
        intro g
        rw [Map.get_insert]
        split
        · rename_i e; subst e; rw [hs]; rfl
        · rfl
      unfold Session.noteOutgoing at h
      split at h
      · cases h
      · rename_i s2 hn
        cases h
        cases hid : (Session.outgoingPacket f x.1).packetId with
        | none => rw [hid] at hn; cases hn; exact ⟨rfl, rfl, hsubs⟩
        | some id =>
          rw [hid] at hn
          simp only at hn
          cases hq : (Session.outgoingPacket f x.1).qos <;> rw [hq] at hn <;> cases hn <;> exact ⟨rfl, rfl, hsubs⟩

/-- An event that is no packet of the connection leaves its session answering alike. -/
theorem other_alike (cfg : AuthConfig) {c : Nat} {srv : Server} (hi : Inv srv) {e : Event}
    (hu : Undisturbed cfg c srv e) (hne : ∀ p, e ≠ .recv c p) : AlikeAt c srv (srv.step cfg e).1 := by
  by_cases ho : srv.isOpen c
  · obtain ⟨s, hs⟩ := at_of_isOpen hi ho
    obtain ⟨k, hk⟩ := ho
    have hst := hu.stays hne ⟨k, hk⟩
    by_cases he : ∃ d, e.conn = some d ∧ d ≠ c
    · obtain ⟨d, h1, h2⟩ := he
      have hid : srv.clientOf c = some k.key := by simp [clientOf, hk]
      have := at_apart cfg hi h1 (Ne.symm h2) hid (hu.alone d h2) (fun p u w h e' =>
        hu.others d p u w h (by rw [hid, e']))
      exact Or.inr ⟨s, s, hs, by rw [this]; exact hs, .refl s⟩
    · have hc : ∀ d, e.conn = some d → d = c := fun d h => Classical.byContradiction fun h' => he ⟨d, h, h'⟩
      cases e with
      | first d p u w => exact absurd rfl (hc d rfl ▸ hu.once p u w)
      | recv d p => exact absurd rfl (hc d rfl ▸ hne p)
      | deliver d f =>
        have := hc d rfl
        subst this
        obtain ⟨k', hk', _, e1⟩ := onConn_at hs (fun r s => srv.deliver d r s f)
        have e1 : srv.step cfg (.deliver d f) = srv.deliver d k'.session s f := e1
        rw [e1] at hst ⊢
        unfold Server.deliver at hst ⊢
        cases hp : s.processOutgoing srv.world.broker.tree f with
        | idle => exact Or.inr ⟨s, s, hs, hs, .refl s⟩
        | packet s' p => exact Or.inr ⟨s, s', hs, at_put_same (by exact hk') _, processOutgoing_alike hp⟩
        | panicked s' =>
          rw [hp] at hst
          obtain ⟨k2, hk2⟩ := hst
          simp [Map.get_erase] at hk2
      | close d =>
        have := hc d rfl
        subst this
        obtain ⟨k', _, _, e1⟩ := onConn_at hs (fun r s => (srv.finish d r s, ({} : Out)))
        have e1 : srv.step cfg (.close d) = (srv.finish d k'.session s, {}) := e1
        rw [e1] at hst
        exact absurd hst (not_open_finish _ _ _ _)
      | abort d =>
        have := hc d rfl
        subst this
        obtain ⟨k2, hk2⟩ := hst
        simp [Server.step, Map.get_erase] at hk2
      | restart =>
        obtain ⟨k2, hk2⟩ := hst
        simp [Server.step, Map.get] at hk2
  · refine Or.inl ⟨at_none_of_closed ho, at_none_of_closed ?_⟩
    rintro ⟨k, hk⟩
    by_cases he : ∃ d, e.conn = some d ∧ d ≠ c
    · obtain ⟨d, h1, h2⟩ := he
      rw [conns_other cfg srv h1 (Ne.symm h2)] at hk
      exact ho ⟨k, hk⟩
    · have hc : ∀ d, e.conn = some d → d = c := fun d h => Classical.byContradiction fun h' => he ⟨d, h, h'⟩
      have loc : LocalTo c e → False := by
        intro hl
        rcases (step_local cfg srv hl).conns with h | h
        · rw [h] at hk; exact ho ⟨k, hk⟩
        · rw [h] at hk; exact ho ⟨k, get_erase_some _ _ _ _ hk⟩
      cases e with
      | first d p u w => exact absurd rfl (hc d rfl ▸ hu.once p u w)
      | recv d p => exact absurd rfl (hc d rfl ▸ hne p)
      | deliver d f => exact loc (hc d rfl ▸ .deliver f)
      | close d => exact loc (hc d rfl ▸ .close)
      | abort d => exact ho ⟨k, get_erase_some _ _ _ _ hk⟩
      | restart => simp [Server.step, Map.get] at hk

theorem Server.AlikeAt.symm {c : Nat} {a b : Server} (h : AlikeAt c a b) : AlikeAt c b a := by
  rcases h with ⟨h1, h2⟩ | ⟨s, s', h1, h2, h⟩
  · exact Or.inl ⟨h2, h1⟩
  · exact Or.inr ⟨s', s, h2, h1, h.symm⟩

theorem Server.AlikeAt.trans {c : Nat} {a b d : Server} (h : AlikeAt c a b) (k : AlikeAt c b d) : AlikeAt c a d := by
  rcases h with ⟨h1, h2⟩ | ⟨s, s', h1, h2, h⟩ <;> rcases k with ⟨k1, k2⟩ | ⟨t, t', k1, k2, k⟩
  · exact Or.inl ⟨h1, k2⟩
  · rw [h2] at k1; cases k1
  · rw [h2] at k1; cases k1
  · rw [h2] at k1; cases k1; exact Or.inr ⟨s, t', h1, k2, h.trans k⟩

theorem answers_recv (cfg : AuthConfig) (c : Nat) (srv : Server) (p : Packet) (es : List Event) :
    answers cfg c srv (.recv c p :: es) = (srv.step cfg (.recv c p)).2.sent ::
      answers cfg c (srv.step cfg (.recv c p)).1 es := by
  simp [answers]

theorem answers_other (cfg : AuthConfig) (c : Nat) (srv : Server) {e : Event} (h : ∀ p, e ≠ .recv c p) (es : List Event) :
    answers cfg c srv (e :: es) = answers cfg c (srv.step cfg e).1 es := by
  cases e with
  | recv d p =>
    have : d ≠ c := by rintro rfl; exact h p rfl
    simp [answers, this]
  | _ => simp [answers]

theorem packetsFrom_recv (c : Nat) (p : Packet) (es : List Event) :
    packetsFrom c (.recv c p :: es) = p :: packetsFrom c es := by
  simp [packetsFrom]

theorem packetsFrom_other {c : Nat} {e : Event} (h : ∀ p, e ≠ .recv c p) (es : List Event) :
    packetsFrom c (e :: es) = packetsFrom c es := by
  unfold packetsFrom
  cases e with
  | recv d p =>
    have : d ≠ c := by rintro rfl; exact h p rfl
    simp [this]
  | _ => rfl

/-- A history without packets of the connection. -/
theorem silent_alike (cfg : AuthConfig) {c : Nat} (es : List Event) : ∀ {srv : Server}, Inv srv →
    UndisturbedRun cfg c srv es → packetsFrom c es = [] →
    answers cfg c srv es = [] ∧ AlikeAt c srv (srv.run cfg es) := by
  induction es with
  | nil =>
    intro srv hi _ _
    refine ⟨rfl, ?_⟩
    cases h : srv.at c with
    | none => exact Or.inl ⟨h, h⟩
    | some s => exact Or.inr ⟨s, s, h, h, .refl s⟩
  | cons e es ih =>
    intro srv hi hu hp
    have hne : ∀ p, e ≠ .recv c p := by
      rintro p rfl
      rw [packetsFrom_recv] at hp; cases hp
    rw [packetsFrom_other hne] at hp
    obtain ⟨h1, h2⟩ := ih (hi.step cfg e) hu.2 hp
    rw [answers_other cfg c srv hne]
    exact ⟨h1, (other_alike cfg hi hu.1 hne).trans h2⟩

theorem answers_alike (cfg : AuthConfig) {c : Nat} (es : List Event) : ∀ {srv srv' : Server} (es' : List Event),
    Inv srv → Inv srv' → AlikeAt c srv srv' → UndisturbedRun cfg c srv es → UndisturbedRun cfg c srv' es' →
    packetsFrom c es = packetsFrom c es' →
    answers cfg c srv es = answers cfg c srv' es' ∧ AlikeAt c (srv.run cfg es) (srv'.run cfg es') := by
  induction es with
  | nil =>
    intro srv srv' es' hi hi' ha _ hu' hp
    obtain ⟨h1, h2⟩ := silent_alike cfg es' hi' hu' hp.symm
    exact ⟨h1.symm, ha.trans h2⟩
  | cons e es ih =>
    intro srv srv' es' hi hi' ha hu hu' hp
    by_cases hne : ∀ p, e ≠ .recv c p
    · rw [packetsFrom_other hne] at hp
      rw [answers_other cfg c srv hne]
      exact ih es' (hi.step cfg e) hi' ((other_alike cfg hi hu.1 hne).symm.trans ha) hu.2 hu' hp
    · obtain ⟨p, rfl⟩ : ∃ p, e = .recv c p := Classical.byContradiction fun h => hne fun p hp => h ⟨p, hp⟩
      rw [packetsFrom_recv] at hp
      rw [answers_recv]
      clear hne
      induction es' generalizing srv' with
      | nil => cases hp
      | cons e' es' ih' =>
        by_cases hne : ∀ p, e' ≠ .recv c p
        · rw [packetsFrom_other hne] at hp
          rw [answers_other cfg c srv' hne]
          exact ih' (hi'.step cfg e') (ha.trans (other_alike cfg hi' hu'.1 hne)) hu'.2 hp
        · obtain ⟨p', rfl⟩ : ∃ p, e' = .recv c p := Classical.byContradiction fun h => hne fun p hp => h ⟨p, hp⟩
          rw [packetsFrom_recv] at hp
          simp only [List.cons.injEq] at hp
          obtain ⟨rfl, hp⟩ := hp
          obtain ⟨h1, h2⟩ := recv_alike cfg ha p
          obtain ⟨h3, h4⟩ := ih es' (hi.step cfg _) (hi'.step cfg _) h2 hu.2 hu'.2 hp
          rw [answers_recv, h1, h3]
          exact ⟨rfl, h4⟩

/-! ## C119 -/

/-- C119: take any two servers with the same configuration, with any other clients, subscriptions and stored data, and
a client that connects to each with the same CONNECT asking for a clean start.  It is answered the same; and in any
two histories in which the same packets arrive from it, whatever the other clients do and whatever is forwarded to it
in between, it is answered the same to each of its packets, and its connection is open afterwards on both or on none. -/
theorem C119_same_answers (cfg : AuthConfig) (srv srv' : Server) (hr : srv.Reachable cfg) (hr' : srv'.Reachable cfg)
    (c : Nat) (p : ConnectPacket) (uuid : Str) (hclean : p.flags.cleanStart = true)
    (ha : Admitted cfg srv c p) (ha' : Admitted cfg srv' c p) :
    let r := srv.step cfg (.first c (.connect p) uuid true)
    let r' := srv'.step cfg (.first c (.connect p) uuid true)
    r.2.sent = r'.2.sent ∧
    ∀ es es', UndisturbedRun cfg c r.1 es → UndisturbedRun cfg c r'.1 es' →
      packetsFrom c es = packetsFrom c es' →
      answers cfg c r.1 es = answers cfg c r'.1 es' ∧ ((r.1.run cfg es).isOpen c ↔ (r'.1.run cfg es').isOpen c) := by
  intro r r'
  have e1 : r = srv.start c p uuid true := step_first ha
  have e2 : r' = srv'.start c p uuid true := step_first ha'
  obtain ⟨_, a1, a2, _, a3⟩ := Tasks.start_clean (srv := srv) (c := c) (uuid := uuid) hclean
  obtain ⟨_, b1, b2, _, b3⟩ := Tasks.start_clean (srv := srv') (c := c) (uuid := uuid) hclean
  refine ⟨by rw [e1, e2, a3, b3], fun es es' hu hu' hp => ?_⟩
  have hi : Inv r.1 := hr.inv.step cfg _
  have hi' : Inv r'.1 := hr'.inv.step cfg _
  have hal : AlikeAt c r.1 r'.1 := by
    refine Or.inr ⟨_, _, ?_, ?_, .refl ((Session.new p).begin uuid false).1⟩
    · rw [e1]
      exact at_eq_some.mpr ⟨_, by rw [a1, Map.get_insert, if_pos rfl], by rw [a2, Map.get_insert, if_pos rfl]⟩
    · rw [e2]
      exact at_eq_some.mpr ⟨_, by rw [b1, Map.get_insert, if_pos rfl], by rw [b2, Map.get_insert, if_pos rfl]⟩
  obtain ⟨h1, h2⟩ := answers_alike cfg es es' hi hi' hal hu hu' hp
  refine ⟨h1, ?_⟩
  have j1 : Inv (r.1.run cfg es) := by
    obtain ⟨es0, rfl⟩ := hr
    exact Reachable.inv (cfg := cfg) ⟨es0 ++ (.first c (.connect p) uuid true :: es), by rw [run_append]; rfl⟩
  have j2 : Inv (r'.1.run cfg es') := by
    obtain ⟨es0, rfl⟩ := hr'
    exact Reachable.inv (cfg := cfg) ⟨es0 ++ (.first c (.connect p) uuid true :: es'), by rw [run_append]; rfl⟩
  rcases h2 with ⟨h3, h4⟩ | ⟨s, s', h3, h4, _⟩
  · constructor
    · intro h
      obtain ⟨s, hs⟩ := at_of_isOpen j1 h
      rw [h3] at hs; cases hs
    · intro h
      obtain ⟨s, hs⟩ := at_of_isOpen j2 h
      rw [h4] at hs; cases hs
  · exact ⟨fun _ => isOpen_of_at h4, fun _ => isOpen_of_at h3⟩

/-! ## Byte streams -/

/-- An event that leaves connection `c` to itself: nothing is forwarded to it, its CONNECT asks for a clean start, and
the clients of other connections do not use its identifier. -/
structure Spec.ToItself (m : Mode) (c : Nat) (n : Net) (e : NetEvent) : Prop where
  quiet : ∀ f, e ≠ .deliver c f
  clean : e.conn = c → ∀ w p rest, n.wires.get c = some w → w.begun = false →
    parsePacket m w.buf = .packet (.connect p) rest → p.flags.cleanStart = true
  apart : e.conn ≠ c → ∀ id, n.server.clientOf c = some id → n.server.clientOf e.conn ≠ some id ∧
    ∀ w p rest, n.wires.get e.conn = some w → parsePacket m w.buf = .packet (.connect p) rest → p.payload.clientId ≠ id

/-- The two servers look alike from connection `c`. -/
structure Net.AlikeFrom (c : Nat) (n n' : Net) : Prop where
  wire : n.wires.get c = n'.wires.get c
  session : AlikeAt c n.server n'.server

theorem conns_alike {c : Nat} {a b : Server} (hi : Inv a) (hi' : Inv b) (h : AlikeAt c a b) :
    (a.conns.get c).isSome = (b.conns.get c).isSome := by
  rcases h with ⟨h1, h2⟩ | ⟨s, s', h1, h2, _⟩
  · have : ∀ {x : Server}, Inv x → x.at c = none → (x.conns.get c).isSome = false := by
      intro x hx h
      cases hk : x.conns.get c with
      | none => rfl
      | some k =>
        obtain ⟨s, hs⟩ := at_of_isOpen hx ⟨k, hk⟩
        rw [h] at hs; cases hs
    rw [this hi h1, this hi' h2]
  · obtain ⟨k, hk, _⟩ := at_eq_some.mp h1
    obtain ⟨k', hk', _⟩ := at_eq_some.mp h2
    rw [hk, hk']; rfl

theorem abort_alike (cfg : AuthConfig) {c : Nat} (a b : Server) :
    AlikeAt c (a.step cfg (.abort c)).1 (b.step cfg (.abort c)).1 := by
  refine Or.inl ⟨at_none_of_closed ?_, at_none_of_closed ?_⟩ <;>
  · rintro ⟨k, hk⟩
    simp [Server.step, Map.get_erase] at hk

theorem act_alike (cfg : AuthConfig) {c : Nat} {n n' : Net} (hi : Inv n.server) (hi' : Inv n'.server) (w : Wire)
    {e : Event} (h1 : (n.server.step cfg e).2.sent = (n'.server.step cfg e).2.sent)
    (h2 : AlikeAt c (n.server.step cfg e).1 (n'.server.step cfg e).1) :
    Net.AlikeFrom c (n.act cfg c w e) (n'.act cfg c w e) := by
  have key : AlikeAt c (n.act cfg c w e).server (n'.act cfg c w e).server := by
    unfold Net.act
    simp only [h1]
    split
    · exact h2
    · exact abort_alike cfg _ _
  have j : Inv (n.act cfg c w e).server ∧ Inv (n'.act cfg c w e).server := by
    unfold Net.act
    simp only
    constructor
    · split
      · exact hi.step cfg e
      · exact (hi.step cfg e).step cfg _
    · split
      · exact hi'.step cfg e
      · exact (hi'.step cfg e).step cfg _
  refine ⟨?_, key⟩
  have := conns_alike j.1 j.2 key
  unfold Net.act at this ⊢
  simp only [Map.get_insert, if_true] at this ⊢
  rw [this, h1]

theorem first_alike (cfg : AuthConfig) {c : Nat} {a b : Server} (hi : Inv a) (hi' : Inv b) (h : AlikeAt c a b)
    (p : Packet) (hclean : ∀ q, p = .connect q → q.flags.cleanStart = true) (uuid : Str) (w : Bool) :
    (a.step cfg (.first c p uuid w)).2.sent = (b.step cfg (.first c p uuid w)).2.sent ∧
      AlikeAt c (a.step cfg (.first c p uuid w)).1 (b.step cfg (.first c p uuid w)).1 := by
  have hco := conns_alike hi hi' h
  simp only [Server.step]
  rw [hco]
  split
  · exact ⟨rfl, h⟩
  · rename_i hn
    cases p with
    | connect q =>
      simp only [Server.connect]
      split
      · exact ⟨rfl, h⟩
      · have hq := hclean q rfl
        have noA : ¬ a.isOpen c := by
          rintro ⟨k, hk⟩
          rw [hk] at hco
          exact hn hco.symm
        have noB : ¬ b.isOpen c := by
          rintro ⟨k, hk⟩
          rw [hk] at hn
          exact hn rfl
        cases w with
        | true =>
          obtain ⟨_, a1, a2, _, a3⟩ := Tasks.start_clean (srv := a) (c := c) (uuid := uuid) hq
          obtain ⟨_, b1, b2, _, b3⟩ := Tasks.start_clean (srv := b) (c := c) (uuid := uuid) hq
          refine ⟨by rw [a3, b3], Or.inr ⟨_, _, ?_, ?_, .refl ((Session.new q).begin uuid false).1⟩⟩
          · exact at_eq_some.mpr ⟨_, by rw [a1, Map.get_insert, if_pos rfl], by rw [a2, Map.get_insert, if_pos rfl]⟩
          · exact at_eq_some.mpr ⟨_, by rw [b1, Map.get_insert, if_pos rfl], by rw [b2, Map.get_insert, if_pos rfl]⟩
        | false =>
          have cl : ∀ {x : Server}, ¬ x.isOpen c → (x.start c q uuid false).1.at c = none := by
            intro x hx
            apply at_none_of_closed
            rintro ⟨k, hk⟩
            obtain ⟨r, hr⟩ := start_effect x c q uuid false
            rw [hr.conns] at hk
            exact hx ⟨k, hk⟩
          exact ⟨rfl, Or.inl ⟨cl noA, cl noB⟩⟩
    | _ => exact ⟨rfl, h⟩

theorem close_alike (cfg : AuthConfig) {c : Nat} {a b : Server} (h : AlikeAt c a b) :
    (a.step cfg (.close c)).2.sent = (b.step cfg (.close c)).2.sent ∧
      AlikeAt c (a.step cfg (.close c)).1 (b.step cfg (.close c)).1 := by
  have one : ∀ x : Server, (x.step cfg (.close c)).2.sent = [] ∧ (x.step cfg (.close c)).1.at c = none := by
    intro x
    cases hx : x.at c with
    | none =>
      have e : x.step cfg (.close c) = (x, {}) := by simp only [Server.step]; exact onConn_none hx _
      rw [e]; exact ⟨rfl, hx⟩
    | some s =>
      obtain ⟨k, _, _, e⟩ := onConn_at hx (fun r s => (x.finish c r s, ({} : Out)))
      have e : x.step cfg (.close c) = (x.finish c k.session s, {}) := e
      rw [e]; exact ⟨rfl, at_none_of_closed (not_open_finish _ _ _ _)⟩
  exact ⟨(one a).1.trans (one b).1.symm, Or.inl ⟨(one a).2, (one b).2⟩⟩

/-- The same event of the connection on both servers. -/
theorem own_alike (m : Mode) (cfg : AuthConfig) {c : Nat} {n n' : Net} (hi : Inv n.server) (hi' : Inv n'.server)
    (h : Net.AlikeFrom c n n') {e : NetEvent} (he : e.conn = c) (ht : ToItself m c n e) :
    Net.AlikeFrom c (n.step m cfg e) (n'.step m cfg e) := by
  have hclose : ∀ w, Net.AlikeFrom c (n.act cfg c w (.close c)) (n'.act cfg c w (.close c)) := by
    intro w
    obtain ⟨h1, h2⟩ := close_alike cfg h.session
    exact act_alike cfg hi hi' w h1 h2
  cases e with
  | accept d =>
    have he' : d = c := he
    subst he'
    simp only [Net.step, h.wire]
    cases hw : n'.wires.get d with
    | some w => exact h
    | none => exact ⟨by simp only [Map.get_insert, if_true], h.session⟩
  | data d b =>
    have he' : d = c := he
    subst he'
    simp only [Net.step, Net.onWire, h.wire]
    cases hw : n'.wires.get d with
    | none => exact h
    | some w =>
      simp only
      split
      · split
        · split
          · exact hclose w
          · exact ⟨by simp only [Map.get_insert, if_true], h.session⟩
        · exact h
      · exact h
  | turn d uuid written =>
    have he' : d = c := he
    subst he'
    have hwire := h.wire
    simp only [Net.step, Net.onWire, hwire]
    cases hw : n'.wires.get d with
    | none => exact h
    | some w =>
      rw [hw] at hwire
      simp only
      split
      · cases hp : parsePacket m w.buf with
        | needMore => exact h
        | packet p rest =>
          cases hb : w.begun with
          | true =>
            obtain ⟨h1, h2⟩ := recv_alike cfg h.session p
            exact act_alike cfg hi hi' _ h1 h2
          | false =>
            obtain ⟨h1, h2⟩ := first_alike cfg hi hi' h.session p
              (fun q hq => ht.clean rfl w q rest hwire hb (by rw [hp, hq])) uuid written
            exact act_alike cfg hi hi' _ h1 h2
        | error e => exact hclose w
        | panicked => exact act_alike cfg hi hi' w rfl (abort_alike cfg _ _)
      · exact h
  | deliver d f =>
    have he' : d = c := he
    subst he'
    exact absurd rfl (ht.quiet f)
  | close d =>
    have he' : d = c := he
    subst he'
    simp only [Net.step, Net.onWire, h.wire]
    cases hw : n'.wires.get d with
    | none => exact h
    | some w =>
      simp only
      split
      · exact hclose w
      · exact h

/-- C119 on byte streams: a client to which nothing is forwarded, whose CONNECT asks for a clean start and whose
identifier nobody else uses at the same time, finds the server as if there were nobody else: for any bytes it sends, in
any chunks, and whatever the other connections do, before and meanwhile, the bytes it has been sent, what the server
has read from it and whether it is still connected are the same as in the history that consists of its own events
alone. -/
theorem C119_as_if_alone (m : Mode) (cfg : AuthConfig) (c : Nat) (ns : List NetEvent) (hd : ShortChunks ns)
    (ht : ∀ ns1 e ns2, ns = ns1 ++ e :: ns2 → ToItself m c (Net.init.run m cfg ns1) e) :
    (Net.init.run m cfg ns).wires.get c = (Net.init.run m cfg (eventsOf c ns)).wires.get c := by
  have key : Net.AlikeFrom c (Net.init.run m cfg ns) (Net.init.run m cfg (eventsOf c ns)) := by
    induction ns using snoc_induction with
    | h0 => exact ⟨rfl, Or.inl ⟨rfl, rfl⟩⟩
    | hs l e ih =>
      have hd' : ShortChunks l := fun c b h => hd c b (List.mem_append_left _ h)
      have ih := ih hd' (fun ns1 e' ns2 h => ht ns1 e' (ns2 ++ [e]) (by rw [h]; simp))
      have hte := ht l e [] rfl
      obtain ⟨es, hn⟩ := netInv_run m cfg l hd'
      have hshort : ShortChunks (eventsOf c l) := fun c b h => hd' c b (List.mem_of_mem_filter h)
      obtain ⟨es', hn'⟩ := netInv_run m cfg (eventsOf c l) hshort
      have hi : Inv (Net.init.run m cfg l).server := Reachable.inv (cfg := cfg) ⟨es, hn.server⟩
      have hi' : Inv (Net.init.run m cfg (eventsOf c l)).server := Reachable.inv (cfg := cfg) ⟨es', hn'.server⟩
      rw [Net.run_snoc]
      by_cases he : e.conn = c
      · have hev : eventsOf c (l ++ [e]) = eventsOf c l ++ [e] := by simp [eventsOf, he]
        rw [hev, Net.run_snoc]
        exact own_alike m cfg hi hi' ih he hte
      · have hev : eventsOf c (l ++ [e]) = eventsOf c l := by simp [eventsOf, he]
        rw [hev]
        obtain ⟨s1, s2, s3⟩ := step_other m hn e c (Ne.symm he)
        refine ⟨s1.trans ih.wire, ?_⟩
        cases hid : (Net.init.run m cfg l).server.clientOf c with
        | none =>
          have h0 : ∀ {x : Server}, x.clientOf c = none → x.at c = none := by
            intro x hx
            apply at_none_of_closed
            rintro ⟨k, hk⟩
            simp [clientOf, hk] at hx
          rw [hid] at s2
          rcases ih.session with ⟨_, k2⟩ | ⟨s, s', k1, _, _⟩
          · exact Or.inl ⟨h0 s2, k2⟩
          · rw [h0 hid] at k1; cases k1
        | some id =>
          obtain ⟨a1, a2⟩ := hte.apart he id hid
          have := s3 id hid a1 a2
          rcases ih.session with ⟨k1, k2⟩ | ⟨s, s', k1, k2, k⟩
          · exact Or.inl ⟨this.trans k1, k2⟩
          · exact Or.inr ⟨s, s', this.trans k1, k2, k⟩
  exact key.wire

/-! ## Examples -/

/-- Whether a history disturbs a connection, computed. -/
def undisturbedB (cfg : AuthConfig) (c : Nat) : Server → List Event → Bool
  | _, [] => true
  | srv, e :: es =>
    srv.conns.keys.all (fun d => d == c || (srv.conns.get d).map (·.session) != (srv.conns.get c).map (·.session)) &&
    (match e with
      | .first d (.connect q) _ _ => d != c && (srv.clientOf c != some q.payload.clientId || q.flags.cleanStart)
      | .first d _ _ _ => d != c
      | .recv d _ => d == c || ((srv.step cfg e).1.conns.get c).isSome
      | _ => ((srv.step cfg e).1.conns.get c).isSome) &&
    ((match e with | .first _ _ _ _ => ((srv.step cfg e).1.conns.get c).isSome | _ => true)) &&
    undisturbedB cfg c (srv.step cfg e).1 es

theorem undisturbedB_sound (cfg : AuthConfig) (c : Nat) (es : List Event) :
    ∀ srv : Server, undisturbedB cfg c srv es = true → UndisturbedRun cfg c srv es := by
  induction es with
  | nil => intro _ _; trivial
  | cons e es ih =>
    intro srv h
    simp only [undisturbedB, Bool.and_eq_true, List.all_eq_true, Bool.or_eq_true, beq_iff_eq, bne_iff_ne] at h
    obtain ⟨⟨⟨h1, h2⟩, h3⟩, h4⟩ := h
    refine ⟨⟨alone_of_keys fun c' hc' hne => (h1 c' hc').resolve_left hne, ?_, ?_, ?_⟩, ih _ h4⟩
    · rintro d q u w rfl hid
      simp only [Bool.and_eq_true, Bool.or_eq_true, bne_iff_ne] at h2
      exact h2.2.resolve_left fun h => h hid
    · intro hne _
      rw [isOpen_iff]
      cases e with
      | first d p u w => exact h3
      | recv d p =>
        simp only [Bool.or_eq_true, beq_iff_eq] at h2
        exact h2.resolve_left (by rintro rfl; exact hne p rfl)
      | _ => exact h2
    · rintro p u w rfl
      cases p <;> simp at h2

/-- A client subscribes, pings and unsubscribes twice. -/
def exAlone : List Event := [.recv 5 (.subscribe ⟨7, none, [⟨str "a/+", {}⟩]⟩), .recv 5 .pingReq,
  .recv 5 (.unsubscribe ⟨8, none, [str "a/+"]⟩), .recv 5 (.unsubscribe ⟨9, none, [str "a/+"]⟩)]
/-- The same with others about: one has subscribed to everything and retained a message, and publishes meanwhile. -/
def exAmongOthers : List Event := [.recv 5 (.subscribe ⟨7, none, [⟨str "a/+", {}⟩]⟩), .deliver 5 (str "a/+"),
  .recv 1 (.publish { qos := .atLeastOnce, topicName := str "a/b", packetId := some 3, payload := some [3] }),
  .deliver 5 (str "a/+"), .recv 5 .pingReq, .close 1,
  .recv 5 (.unsubscribe ⟨8, none, [str "a/+"]⟩), .recv 5 (.unsubscribe ⟨9, none, [str "a/+"]⟩)]
/-- The other client. -/
def exOthers : List Event := [.first 1 (.connect (exConnect (str "y") false)) (str "v") true,
  .recv 1 (.subscribe ⟨7, none, [⟨str "#", {}⟩]⟩),
  .recv 1 (.publish { retain := true, topicName := str "a/b", payload := some [1] })]

example : Admitted {} Server.init 5 (exConnect (str "x") true) ∧
    Admitted {} (Server.init.run {} exOthers) 5 (exConnect (str "x") true) ∧
    UndisturbedRun {} 5 (Server.init.step {} (.first 5 (.connect (exConnect (str "x") true)) (str "u") true)).1 exAlone ∧
    UndisturbedRun {} 5 ((Server.init.run {} exOthers).step {}
      (.first 5 (.connect (exConnect (str "x") true)) (str "u") true)).1 exAmongOthers ∧
    packetsFrom 5 exAlone = packetsFrom 5 exAmongOthers ∧
    answers {} 5 ((Server.init.run {} exOthers).step {}
      (.first 5 (.connect (exConnect (str "x") true)) (str "u") true)).1 exAmongOthers =
      [[.subAck { protocolVersion := .v5, packetId := 7, payload := [.grantedQoS0] }], [.pingResp],
       [.unsubAck { protocolVersion := .v5, packetId := 8, payload := [.success] }],
       [.unsubAck { protocolVersion := .v5, packetId := 9, payload := [.noSubscriptionExisted] }]] := by
  refine ⟨⟨?_, by simp⟩, ⟨?_, by simp⟩, undisturbedB_sound _ _ _ _ (by decide +kernel),
    undisturbedB_sound _ _ _ _ (by decide +kernel), by decide +kernel, by decide +kernel⟩
  · rw [isOpen_iff]; decide +kernel
  · rw [isOpen_iff]; decide +kernel

/-- Whether an event leaves a connection to itself, computed. -/
def toItselfB (m : Mode) (c : Nat) (n : Net) (e : NetEvent) : Bool :=
  (match e with | .deliver d _ => d != c | _ => true) &&
  (match n.wires.get e.conn with
    | some w => match parsePacket m w.buf with
      | .packet (.connect p) _ =>
        (e.conn != c || p.flags.cleanStart) && (e.conn == c || n.server.clientOf c != some p.payload.clientId)
      | _ => true
    | none => true) &&
  (e.conn == c || n.server.clientOf c == none || n.server.clientOf e.conn != n.server.clientOf c)

theorem toItselfB_sound {m : Mode} {c : Nat} {n : Net} {e : NetEvent} (h : toItselfB m c n e = true) :
    ToItself m c n e := by
  simp only [toItselfB, Bool.and_eq_true, Bool.or_eq_true, beq_iff_eq, bne_iff_ne] at h
  obtain ⟨⟨h1, h2⟩, h3⟩ := h
  refine ⟨?_, ?_, ?_⟩
  · rintro f rfl
    simp at h1
  · intro he w p rest hw _ hp
    rw [he, hw] at h2
    simp only [hp, Bool.and_eq_true, Bool.or_eq_true, bne_iff_ne] at h2
    exact h2.1.resolve_left fun h => h rfl
  · intro he id hid
    refine ⟨?_, ?_⟩
    · intro h
      rcases h3 with (h3 | h3) | h3
      · exact he h3
      · rw [hid] at h3; cases h3
      · exact h3 (h.trans hid.symm)
    · intro w p rest hw hp hpid
      rw [hw] at h2
      simp only [hp, Bool.and_eq_true, Bool.or_eq_true, beq_iff_eq, bne_iff_ne] at h2
      rcases h2.2 with h | h
      · exact he h
      · exact h (by rw [hid, hpid])

/-- The client of `exChunks` (which asks for a clean start), with a hostile peer and a client of another name about. -/
def exCompany : List NetEvent :=
  [.accept 1, .data 1 [0x20, 0], .accept 2, .data 2 [0x10, 14, 0, 4, 77, 81, 84, 84, 5, 0, 0, 60, 0, 0, 1, 121],
   .turn 2 (str "v") true] ++ exChunks.take 3 ++ [.turn 1 (str "v") true, .data 2 [0x82, 7, 0, 1, 0, 0, 1, 97, 0]] ++
  exChunks.drop 3 ++ [.turn 2 (str "v") true, .close 2]

example : ShortChunks exCompany ∧
    (∀ ns1 e ns2, exCompany = ns1 ++ e :: ns2 → ToItself .debug 0 (Net.init.run .debug {} ns1) e) ∧
    eventsOf 0 exCompany = exChunks ∧
    ((Net.init.run .debug {} exCompany).wires.get 0).map (fun w => (w.running, w.sent)) =
      some (true, [0x20, 3, 0, 0, 0, 0x90, 4, 0, 1, 0, 0]) := by
  refine ⟨?_, ?_, by decide +kernel, by decide +kernel⟩
  · have h : exCompany.all (fun | .data _ b => b.length ≤ 2 ^ 31 | _ => true) = true := by decide +kernel
    intro c b hb
    simpa using List.all_eq_true.mp h _ hb
  · have h : (List.range exCompany.length).all (fun i => match exCompany[i]? with
        | some e => toItselfB .debug 0 (Net.init.run .debug {} (exCompany.take i)) e
        | none => true) = true := by decide +kernel
    intro ns1 e ns2 he
    have := List.all_eq_true.mp h ns1.length (by rw [he]; simp)
    have h1 : exCompany[ns1.length]? = some e := by rw [he]; simp
    have h2 : exCompany.take ns1.length = ns1 := by rw [he]; simp
    rw [h1, h2] at this
    exact toItselfB_sound this

end Mercurio
