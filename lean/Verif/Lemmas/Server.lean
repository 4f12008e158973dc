import Verif.Spec.Server
import Verif.Lemmas.Topic
import Verif.Lemmas.Storage
import Verif.Props.Topic

/-!
# Lemmas about single server events
-/

namespace Mercurio

open Spec

namespace Server

theorem at_eq_some {srv : Server} {c : Nat} {s : Session} :
    srv.at c = some s ↔ ∃ k, srv.conns.get c = some k ∧ srv.heap.get k.session = some s := by
  unfold Server.at
  cases srv.conns.get c with
  | none => simp
  | some k => simp

theorem onConn_at {srv : Server} {c : Nat} {s : Session} (h : srv.at c = some s)
    (f : Nat → Session → Server × Out) :
    ∃ k, srv.conns.get c = some k ∧ srv.heap.get k.session = some s ∧
      srv.onConn c f = f k.session s := by
  obtain ⟨k, hk, hs⟩ := at_eq_some.mp h
  exact ⟨k, hk, hs, by simp [onConn, hk, hs]⟩

theorem onConn_none {srv : Server} {c : Nat} (h : srv.at c = none)
    (f : Nat → Session → Server × Out) : srv.onConn c f = (srv, {}) := by
  unfold Server.at at h
  unfold onConn
  cases hk : srv.conns.get c with
  | none => rfl
  | some k => simp only [hk] at h; simp [h]

@[simp] theorem conns_mapStore (srv : Server) (f) : (srv.mapStore f).conns = srv.conns := rfl
@[simp] theorem heap_mapStore (srv : Server) (f) : (srv.mapStore f).heap = srv.heap := rfl
@[simp] theorem sessions_mapStore (srv : Server) (f) : (srv.mapStore f).sessions = srv.sessions := rfl
@[simp] theorem fresh_mapStore (srv : Server) (f) : (srv.mapStore f).fresh = srv.fresh := rfl
@[simp] theorem store_mapStore (srv : Server) (f) : (srv.mapStore f).store = f srv.store := rfl
@[simp] theorem log_mapStore (srv : Server) (f) : (srv.mapStore f).world.log = srv.world.log := rfl
@[simp] theorem tree_mapStore (srv : Server) (f) :
    (srv.mapStore f).world.broker.tree = srv.world.broker.tree := rfl
@[simp] theorem conns_put (srv : Server) (r s) : (srv.put r s).conns = srv.conns := rfl
@[simp] theorem heap_put (srv : Server) (r s) : (srv.put r s).heap = srv.heap.insert r s := rfl
@[simp] theorem sessions_put (srv : Server) (r s) : (srv.put r s).sessions = srv.sessions := rfl
@[simp] theorem fresh_put (srv : Server) (r s) : (srv.put r s).fresh = srv.fresh := rfl
@[simp] theorem store_put (srv : Server) (r s) : (srv.put r s).store = srv.store := rfl
@[simp] theorem world_put (srv : Server) (r s) : (srv.put r s).world = srv.world := rfl

theorem conns_finish (srv : Server) (c r s) : (srv.finish c r s).conns = srv.conns.erase c := by
  unfold finish; cases s.will <;> rfl

theorem sessions_finish (srv : Server) (c r s) : (srv.finish c r s).sessions = srv.sessions := by
  unfold finish; cases s.will <;> rfl

theorem fresh_finish (srv : Server) (c r s) : (srv.finish c r s).fresh = srv.fresh := by
  unfold finish; cases s.will <;> rfl

theorem not_open_finish (srv : Server) (c r s) : ¬ (srv.finish c r s).isOpen c := by
  rintro ⟨k, hk⟩
  rw [conns_finish, Map.get_erase] at hk
  simp at hk

/-- The step of a packet that is not DISCONNECT. -/
theorem step_recv {cfg : AuthConfig} {srv : Server} {c : Nat} {s : Session} {p : Packet}
    (h : srv.at c = some s) (hp : ∀ d, p ≠ .disconnect d) :
    ∃ k, srv.conns.get c = some k ∧ srv.heap.get k.session = some s ∧
      srv.step cfg (.recv c p) =
        (match (s.processIncoming srv.world cfg.manager c p).result with
        | .error _ => ({ srv with world := (s.processIncoming srv.world cfg.manager c p).world }.finish
            c k.session (s.processIncoming srv.world cfg.manager c p).session, {})
        | .ok res => ((({ srv with world := (s.processIncoming srv.world cfg.manager c p).world }).mapStore
            (saveAfter (s.processIncoming srv.world cfg.manager c p).session p)).put k.session
              (s.processIncoming srv.world cfg.manager c p).session, { sent := res.toList })) := by
  obtain ⟨k, hk, hs, e⟩ := onConn_at h (fun r s => srv.recv cfg c r s p)
  refine ⟨k, hk, hs, ?_⟩
  show srv.onConn c (fun r s => srv.recv cfg c r s p) = _
  rw [e]
  unfold recv
  cases p <;> first | rfl | exact absurd rfl (hp _)

/-- A packet that is processed without error. -/
theorem step_recv_ok {cfg : AuthConfig} {srv : Server} {c : Nat} {s : Session} {p : Packet}
    (h : srv.at c = some s) (hp : ∀ d, p ≠ .disconnect d) {s' : Session} {w' : World}
    {res : Option Packet}
    (hh : s.processIncoming srv.world cfg.manager c p = ⟨s', w', .ok res⟩) :
    ∃ k, srv.conns.get c = some k ∧ srv.heap.get k.session = some s ∧
      srv.step cfg (.recv c p) = (({ srv with world := w' }.mapStore (saveAfter s' p)).put k.session s',
        { sent := res.toList }) := by
  obtain ⟨k, hk, hs, e⟩ := step_recv (cfg := cfg) h hp
  exact ⟨k, hk, hs, by rw [e, hh]⟩

/-- A packet that is answered with an error. -/
theorem step_recv_error {cfg : AuthConfig} {srv : Server} {c : Nat} {s : Session} {p : Packet}
    (h : srv.at c = some s) (hp : ∀ d, p ≠ .disconnect d) {s' : Session} {w' : World} {e : Err}
    (hh : s.processIncoming srv.world cfg.manager c p = ⟨s', w', .error e⟩) :
    ∃ k, srv.conns.get c = some k ∧ srv.heap.get k.session = some s ∧
      srv.step cfg (.recv c p) = ({ srv with world := w' }.finish c k.session s', {}) := by
  obtain ⟨k, hk, hs, e⟩ := step_recv (cfg := cfg) h hp
  exact ⟨k, hk, hs, by rw [e, hh]⟩

theorem step_disconnect {cfg : AuthConfig} {srv : Server} {c : Nat} {s : Session}
    {d : DisconnectPacket} (h : srv.at c = some s) :
    ∃ k, srv.conns.get c = some k ∧ srv.heap.get k.session = some s ∧
      srv.step cfg (.recv c (.disconnect d)) =
        ((srv.mapStore fun st => st.deleteWill s.clientId).finish c k.session { s with will := none }, {}) := by
  obtain ⟨k, hk, hs, e⟩ := onConn_at h (fun r s => srv.recv cfg c r s (.disconnect d))
  refine ⟨k, hk, hs, ?_⟩
  show srv.onConn c (fun r s => srv.recv cfg c r s (.disconnect d)) = _
  rw [e]; rfl

theorem at_put_same {srv : Server} {c : Nat} {k : Conn} (hk : srv.conns.get c = some k)
    (s : Session) : (srv.put k.session s).at c = some s := by
  rw [at_eq_some]
  exact ⟨k, hk, by simp [Map.get_insert]⟩

end Server

/-! ## Subscribing -/

theorem subscribeLoop_cons_invalid (s : Session) (w : World) {f : Str} (fs : List Str)
    (h : ¬ ValidFilter f) : s.subscribeLoop w (f :: fs) =
      ((s.subscribeLoop w fs).1, (s.subscribeLoop w fs).2.1,
        .topicFilterInvalid :: (s.subscribeLoop w fs).2.2) := by
  rw [← C23_filter_iff] at h
  simp only [Session.subscribeLoop]
  cases hf : validateSubscribeFilter f with
  | error e => rfl
  | ok u => exact absurd hf h

theorem subscribeLoop_cons_valid (s : Session) (w : World) {f : Str} (fs : List Str)
    (h : ValidFilter f) : s.subscribeLoop w (f :: fs) =
      (((s.addSubscription w f).1.subscribeLoop (s.addSubscription w f).2 fs).1,
        ((s.addSubscription w f).1.subscribeLoop (s.addSubscription w f).2 fs).2.1,
        .grantedQoS0 :: ((s.addSubscription w f).1.subscribeLoop (s.addSubscription w f).2 fs).2.2) := by
  rw [← C23_filter_iff] at h
  simp only [Session.subscribeLoop, h]

theorem subscribeLoop_codes (fs : List Str) : ∀ (s : Session) (w : World),
    (s.subscribeLoop w fs).2.2 = fs.map subscribeCode := by
  induction fs with
  | nil => intro s w; rfl
  | cons f fs ih =>
    intro s w
    by_cases hf : ValidFilter f
    · rw [subscribeLoop_cons_valid _ _ _ hf]; simp [ih, subscribeCode, hf]
    · rw [subscribeLoop_cons_invalid _ _ _ hf]; simp [ih, subscribeCode, hf]

/-- The loop only changes the subscriptions of the session. -/
theorem subscribeLoop_session (fs : List Str) : ∀ (s : Session) (w : World),
    ∃ subs, (s.subscribeLoop w fs).1 = { s with subscriptions := subs } := by
  induction fs with
  | nil => intro s w; exact ⟨s.subscriptions, rfl⟩
  | cons f fs ih =>
    intro s w
    by_cases hf : ValidFilter f
    · rw [subscribeLoop_cons_valid _ _ _ hf]
      obtain ⟨subs, h⟩ := ih (s.addSubscription w f).1 (s.addSubscription w f).2
      exact ⟨subs, h⟩
    · rw [subscribeLoop_cons_invalid _ _ _ hf]; exact ih _ _

/-- The loop changes neither storage nor what was sent on any channel. -/
theorem subscribeLoop_world (fs : List Str) : ∀ (s : Session) (w : World),
    (s.subscribeLoop w fs).2.1.broker.store = w.broker.store ∧
    ∀ path l, TopicNode.sentAt w.broker.tree path = some l →
      TopicNode.sentAt (s.subscribeLoop w fs).2.1.broker.tree path = some l := by
  induction fs with
  | nil => intro s w; exact ⟨rfl, fun _ _ h => h⟩
  | cons f fs ih =>
    intro s w
    by_cases hf : ValidFilter f
    · rw [subscribeLoop_cons_valid _ _ _ hf]
      obtain ⟨h1, h2⟩ := ih (s.addSubscription w f).1 (s.addSubscription w f).2
      exact ⟨h1, fun path l h => h2 path l (TopicNode.sentAt_ensure _ _ _ _ h)⟩
    · rw [subscribeLoop_cons_invalid _ _ _ hf]; exact ih _ _

/-- A stream that has just been made: nothing missed yet, and the messages retained for the filter
ahead. -/
def Fresh (w : World) (f : Str) (st : SubStream) : Prop :=
  st.retained = w.broker.store.getRetained f ∧ IsLevels f st.rx.path ∧
  ∃ sent, TopicNode.sentAt w.broker.tree st.rx.path = some sent ∧ st.rx.next = sent.length

theorem addSubscription_get (s : Session) (w : World) (f g : Str) :
    (s.addSubscription w f).1.subscriptions.get g =
      if f = g then some ⟨w.broker.store.getRetained f, (TopicTree.subscribe w.broker.tree f).2⟩
      else s.subscriptions.get g := by
  simp only [Session.addSubscription, Map.get_insert]; rfl

theorem addSubscription_fresh (s : Session) (w : World) (f : Str) :
    Fresh (s.addSubscription w f).2 f
      ⟨w.broker.store.getRetained f, (TopicTree.subscribe w.broker.tree f).2⟩ := by
  obtain ⟨sent, hs⟩ := TopicNode.sentAt_ensure_self w.broker.tree (splitLevels f)
  refine ⟨rfl, isLevels_split f, sent, hs, ?_⟩
  unfold TopicNode.sentAt at hs
  simp only [TopicTree.subscribe]
  cases hf : (TopicNode.ensure w.broker.tree (splitLevels f)).find (splitLevels f) with
  | none => simp [hf] at hs
  | some n => simp [hf] at hs; simp [hs]

/-- The subscriptions after the loop. -/
theorem subscribeLoop_get (fs : List Str) : ∀ (s : Session) (w : World) (f : Str),
    (f ∈ fs ∧ ValidFilter f → ∃ st, (s.subscribeLoop w fs).1.subscriptions.get f = some st ∧
      Fresh (s.subscribeLoop w fs).2.1 f st) ∧
    (¬ (f ∈ fs ∧ ValidFilter f) →
      (s.subscribeLoop w fs).1.subscriptions.get f = s.subscriptions.get f) := by
  induction fs with
  | nil => intro s w f; exact ⟨fun h => absurd h.1 (by simp), fun _ => rfl⟩
  | cons g fs ih =>
    intro s w f
    by_cases hg : ValidFilter g
    · rw [subscribeLoop_cons_valid _ _ _ hg]
      obtain ⟨h1, h2⟩ := ih (s.addSubscription w g).1 (s.addSubscription w g).2 f
      by_cases hin : f ∈ fs ∧ ValidFilter f
      · exact ⟨fun _ => h1 hin, fun h => absurd ⟨by simp [hin.1], hin.2⟩ h⟩
      · constructor
        · rintro ⟨hm, hv⟩
          have hfg : g = f := by
            rcases List.mem_cons.mp hm with h | h
            · exact h.symm
            · exact absurd ⟨h, hv⟩ hin
          subst hfg
          rw [h2 hin, addSubscription_get, if_pos rfl]
          refine ⟨_, rfl, ?_⟩
          obtain ⟨a, b, sent, d, e⟩ := addSubscription_fresh s w g
          obtain ⟨q1, q2⟩ := subscribeLoop_world fs (s.addSubscription w g).1 (s.addSubscription w g).2
          exact ⟨by rw [q1]; exact a, b, sent, q2 _ _ d, e⟩
        · intro hn
          have hfg : g ≠ f := by rintro rfl; exact hn ⟨by simp, hg⟩
          rw [h2 hin, addSubscription_get, if_neg hfg]
    · rw [subscribeLoop_cons_invalid _ _ _ hg]
      obtain ⟨h1, h2⟩ := ih s w f
      have : (f ∈ g :: fs ∧ ValidFilter f) ↔ (f ∈ fs ∧ ValidFilter f) := by
        constructor
        · rintro ⟨hm, hv⟩
          rcases List.mem_cons.mp hm with h | h
          · subst h; exact absurd hv hg
          · exact ⟨h, hv⟩
        · rintro ⟨hm, hv⟩; exact ⟨by simp [hm], hv⟩
      rw [this]; exact ⟨h1, h2⟩

/-! ## Unsubscribing -/

theorem unsubscribeLoop_eq (fs : List Str) : ∀ (m : Map Str SubStream),
    (Session.unsubscribeLoop m fs).2 = unsubscribeCodes m.keys fs ∧
    ∀ f, (Session.unsubscribeLoop m fs).1.get f = if f ∈ fs then none else m.get f := by
  induction fs with
  | nil => intro m; exact ⟨rfl, fun f => by simp [Session.unsubscribeLoop]⟩
  | cons g fs ih =>
    intro m
    obtain ⟨h1, h2⟩ := ih (m.erase g)
    simp only [Session.unsubscribeLoop, unsubscribeCodes]
    constructor
    · rw [h1, Map.keys_erase]
      simp only [Map.get_isSome]
    · intro f
      rw [h2, Map.get_erase]
      by_cases hf : f ∈ fs
      · simp [hf]
      · by_cases hg : g = f
        · simp [hg]
        · simp [hf, hg, Ne.symm hg]

end Mercurio
