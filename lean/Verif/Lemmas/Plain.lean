import Verif.Spec.Plain
import Verif.Props.Mailbox
import Verif.Props.Inflight

/-!
# A server seen as a plain broker

What a server knows, in the terms of the plain broker, and how the parts of a step change it.
-/

namespace Mercurio

open Spec Server

/-- The account of a session, given the topic tree. -/
def profileOf (t : TopicTree Message) (s : Session) : Profile :=
  ⟨s.clientId, s.connect.protocolVersion,
    fun f => (s.subscriptions.get f).map fun st => st.box (channelOf t st.rx), s.will, s.authMethod⟩

/-- A server as a plain broker. -/
def plainOf (srv : Server) : Plain where
  retained t := retainedOf t (Call.publications srv.world.log)
  kept name := (srv.store.loadSession name).map fun st f => f ∈ st.subscriptions
  wills := srv.store.getWill
  unacked := srv.store.getInflight
  known := srv.sessions.get
  account n := (srv.heap.get n).map (profileOf srv.world.broker.tree)
  conn c := (srv.conns.get c).map (·.session)

/-- The streams of all sessions are in order. -/
structure Fit (srv : Server) : Prop where
  faithful : srv.world.Faithful
  streams : ∀ r s, srv.heap.get r = some s → AllGood srv.world s

theorem upd_same {α β : Type} (f : α → β) (a : α) (b : β) : upd f a b a = b := by simp [upd]

theorem upd_upd {α β : Type} (f : α → β) (a : α) (b b' : β) : upd (upd f a b) a b' = upd f a b' := by
  funext x; simp only [upd]; split <;> rfl

theorem upd_self {α β : Type} (f : α → β) (a : α) {b : β} (h : f a = b) : upd f a b = f := by
  funext x; simp only [upd]; split
  · rename_i e; rw [e, h]
  · rfl

theorem get_insert_upd {K V : Type} [DecidableEq K] (m : Map K V) (k : K) (v : V) :
    (m.insert k v).get = upd m.get k (some v) := by
  funext x; rw [Map.get_insert]; simp only [upd, eq_comm]

theorem get_erase_upd {K V : Type} [DecidableEq K] (m : Map K V) (k : K) :
    (m.erase k).get = upd m.get k none := by
  funext x; rw [Map.get_erase]; simp only [upd, eq_comm]

theorem map_upd {α β γ : Type} (g : β → γ) (f : α → Option β) (a : α) (b : Option β) :
    (fun x => (upd f a b x).map g) = upd (fun x => (f x).map g) a (b.map g) := by
  funext x; simp only [upd]; split <;> rfl

/-! ## Parts of a step -/

theorem plainOf_put (srv : Server) (r : Nat) (s : Session) : plainOf (srv.put r s) =
    { plainOf srv with account := upd (plainOf srv).account r (some (profileOf srv.world.broker.tree s)) } := by
  simp only [plainOf, Server.put, Server.store, get_insert_upd, map_upd, Option.map_some]

theorem plainOf_conns (srv : Server) (c : Nat) :
    plainOf { srv with conns := srv.conns.erase c } = (plainOf srv).drop c := by
  simp only [plainOf, Plain.drop, Server.store, get_erase_upd, map_upd, Option.map_none]

theorem plainOf_deleteWill (srv : Server) (name : Str) :
    plainOf (srv.mapStore fun st => st.deleteWill name) =
      { plainOf srv with wills := upd (plainOf srv).wills name none } := by
  have : (srv.mapStore fun st => st.deleteWill name).store.getWill = upd srv.store.getWill name none := by
    show (srv.store.wills.erase name).get = _
    rw [get_erase_upd]; rfl
  ext1 <;> first | rfl | exact this

theorem plainOf_storeWill (srv : Server) (name : Str) (w : StoredWill) :
    plainOf (srv.mapStore fun st => st.storeWill name w) =
      { plainOf srv with wills := upd (plainOf srv).wills name (some w) } := by
  have : (srv.mapStore fun st => st.storeWill name w).store.getWill = upd srv.store.getWill name (some w) := by
    show (srv.store.wills.insert name w).get = _
    rw [get_insert_upd]; rfl
  ext1 <;> first | rfl | exact this

theorem plainOf_saveSession (srv : Server) (name : Str) (x : SessionState) :
    plainOf (srv.mapStore fun st => st.saveSession name x) =
      { plainOf srv with kept := upd (plainOf srv).kept name (some fun f => f ∈ x.subscriptions) } := by
  have : (fun n => ((srv.mapStore fun st => st.saveSession name x).store.loadSession n).map fun st f => f ∈ st.subscriptions) =
      upd (plainOf srv).kept name (some fun f => f ∈ x.subscriptions) := by
    show (fun n => ((srv.store.sessions.insert name x).get n).map _) = _
    rw [get_insert_upd, map_upd]; rfl
  ext1 <;> first | rfl | exact this

theorem upd_two {α β γ : Type} (f : α → β → γ) (a : α) (b : β) (v : γ) (x : α) (y : β) :
    upd f a (upd (f a) b v) x y = open Classical in if a = x ∧ b = y then v else f x y := by
  simp only [upd]
  by_cases hx : x = a
  · subst hx
    by_cases hy : y = b
    · simp [hy, upd]
    · simp [hy, Ne.symm hy, upd]
  · simp [hx, Ne.symm hx]

theorem getInflight_stored (st : MemoryStore) (name : Str) (id : UInt16) (i : Inflight) :
    (st.storeInflight name id i).getInflight = upd st.getInflight name (upd (st.getInflight name) id (some i)) := by
  funext n x
  rw [getInflight_store, upd_two]
  split <;> rename_i h <;> simp [h]

theorem getInflight_removed (st : MemoryStore) (name : Str) (id : UInt16) :
    (st.removeInflight name id).getInflight = upd st.getInflight name (upd (st.getInflight name) id none) := by
  funext n x
  rw [getInflight_remove, upd_two]
  split <;> rename_i h <;> simp [h]

theorem plainOf_storeInflight (srv : Server) (name : Str) (id : UInt16) (i : Inflight) :
    plainOf (srv.mapStore fun st => st.storeInflight name id i) = (plainOf srv).note name id (some i) := by
  ext1 <;> first | rfl | exact getInflight_stored _ _ _ _

theorem plainOf_removeInflight (srv : Server) (name : Str) (id : UInt16) :
    plainOf (srv.mapStore fun st => st.removeInflight name id) = (plainOf srv).note name id none := by
  ext1
  · rfl
  · funext n
    show ((srv.store.removeInflight name id).loadSession n).map _ = _
    unfold MemoryStore.removeInflight
    split <;> rfl
  · funext n
    show (srv.store.removeInflight name id).getWill n = _
    unfold MemoryStore.removeInflight
    split <;> rfl
  · exact getInflight_removed _ _ _
  all_goals rfl

/-! ## The broker -/

theorem retainedOf_snoc (t topic : Str) (pubs : List (Str × Message)) (m : Message) :
    retainedOf t (pubs ++ [(topic, m)]) =
      if m.retain = true ∧ topic = t then (if m.payload.getD [] = [] then none else some m)
      else retainedOf t pubs := by
  have hp : hasPayload m = true ↔ m.payload.getD [] ≠ [] := by
    unfold hasPayload
    cases m.payload with
    | none => simp
    | some p => cases p <;> simp
  unfold retainedOf
  rw [lastWith_snoc]
  by_cases h : m.retain = true ∧ topic = t
  · rw [if_pos h, if_pos (by simp [h.1, h.2])]
    simp only [hp]
    by_cases he : m.payload.getD [] = []
    · simp [he]
    · simp [he]
  · rw [if_neg h, if_neg (by simpa [and_comm] using h)]

theorem profileOf_grow {w w' : World} {cs : List Call} (hg : w.Grows w' cs) (hv : ∀ q ∈ Call.publications cs, ValidTopic q.1)
    {s : Session} (hs : AllGood w s) : profileOf w'.broker.tree s =
    { profileOf w.broker.tree s with boxes := fun f => ((profileOf w.broker.tree s).boxes f).map fun x =>
        (matching f (Call.publications cs)).foldl Mailbox.put x } := by
  have : (profileOf w'.broker.tree s).boxes = fun f => ((profileOf w.broker.tree s).boxes f).map fun x =>
      (matching f (Call.publications cs)).foldl Mailbox.put x := by
    funext f
    simp only [profileOf]
    cases hst : s.subscriptions.get f with
    | none => rfl
    | some st =>
      have hG := hs f st hst
      obtain ⟨sent, h1, h2⟩ := hG.channel
      have h3 := hg.sentAt h1
      rw [landed_matching f _ hv] at h3
      simp only [Option.map_some]
      rw [channelOf_eq (by rw [hG.path]; exact h3), channelOf_eq (by rw [hG.path]; exact h1)]
      unfold SubStream.box
      rw [foldl_put, List.drop_append_of_le_length h2]
  ext1 <;> first | rfl | exact this

open Classical in
theorem plainOf_publish {srv : Server} (hF : Fit srv) (src : Source) {topic : Str} (m : Message)
    (hv : ValidTopic topic) :
    plainOf { srv with world := srv.world.publish src topic m } = (plainOf srv).publish topic m := by
  have hg : srv.world.Grows (srv.world.publish src topic m) [.publish src topic m] :=
    ⟨hF.faithful, hF.faithful.publish src topic m, rfl, by simp⟩
  have hstore : ∀ st : MemoryStore, (Broker.publishStore st topic m).sessions = st.sessions ∧
      (Broker.publishStore st topic m).wills = st.wills ∧ (Broker.publishStore st topic m).inflight = st.inflight := by
    intro st
    unfold Broker.publishStore
    split
    · split <;> exact ⟨rfl, rfl, rfl⟩
    · exact ⟨rfl, rfl, rfl⟩
  obtain ⟨q1, q2, q3⟩ := hstore srv.store
  ext1
  · funext t
    show retainedOf t (Call.publications (srv.world.log ++ [.publish src topic m])) = _
    rw [Call.publications_append]
    show retainedOf t (_ ++ [(topic, m)]) = _
    rw [retainedOf_snoc]
    simp only [Plain.publish]
    cases m.retain with
    | false => simp; rfl
    | true =>
      simp only [true_and, if_true, upd, eq_comm (a := t)]
      rfl
  · funext n
    show ((Broker.publishStore srv.store topic m).sessions.get n).map _ = _
    rw [q1]; rfl
  · funext n
    show (Broker.publishStore srv.store topic m).wills.get n = _
    rw [q2]; rfl
  · funext n x
    show (match (Broker.publishStore srv.store topic m).inflight.get n with
      | some msgs => Map.get msgs x
      | none => none) = _
    rw [q3]; rfl
  · rfl
  · funext n
    simp only [plainOf, Plain.publish, Option.map_map]
    cases hn : srv.heap.get n with
    | none => rfl
    | some s =>
      simp only [Option.map_some, Option.some.injEq, Function.comp]
      rw [profileOf_grow hg (by simpa [Call.publications] using hv) (hF.streams n s hn)]
      have : ∀ f, (fun x => (matching f (Call.publications [.publish src topic m])).foldl Mailbox.put x) =
          fun x : Mailbox => if Matches f topic then x.put m else x := by
        intro f
        funext x
        by_cases h : Matches f topic <;> simp [Call.publications, matching, h]
      simp only [this]
  · rfl

/-- Subscribing changes nothing for what is there. -/
theorem plainOf_world {srv : Server} (hF : Fit srv) {w : World} {cs : List Call} (hg : srv.world.Grows w cs)
    (hc : Call.publications cs = []) (hst : w.broker.store = srv.store) :
    plainOf { srv with world := w } = plainOf srv := by
  ext1
  · funext t
    show retainedOf t (Call.publications w.log) = _
    rw [hg.log, Call.publications_append, hc, List.append_nil]; rfl
  · funext n
    show (w.broker.store.loadSession n).map _ = _
    rw [hst]; rfl
  · show w.broker.store.getWill = _
    rw [hst]; rfl
  · show w.broker.store.getInflight = _
    rw [hst]; rfl
  · rfl
  · funext n
    simp only [plainOf]
    cases hn : srv.heap.get n with
    | none => rfl
    | some s =>
      simp only [Option.map_some, Option.some.injEq]
      rw [profileOf_grow hg (by simp [hc]) (hF.streams n s hn), hc]
      ext1 <;> first | rfl | skip
      funext f
      simp [matching]
  · rfl

end Mercurio
