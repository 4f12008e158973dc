import Verif.Lemmas.ServerLog
import Verif.Spec.Delivery

/-!
# Subscription streams through histories of the server

Every stream of every session reads the channel of its filter, and everything it has ahead was
published to a topic the filter matches.
-/

namespace Mercurio

open Spec Server

/-! ## Channels -/

theorem copies_pos (q ls : List Str) (h : 0 < TopicNode.copies q ls) : MatchesLevels q ls := by
  induction ls generalizing q with
  | nil =>
    unfold TopicNode.copies at h
    split at h
    · rename_i hq
      rcases hq with rfl | rfl
      · exact .nil
      · exact .hash _
    · omega
  | cons l ls ih =>
    cases q with
    | nil => simp [TopicNode.copies] at h
    | cons k q =>
      unfold TopicNode.copies at h
      by_cases h1 : k = hashLevel ∧ q = []
      · obtain ⟨rfl, rfl⟩ := h1; exact .hash _
      · rw [if_neg h1] at h
        by_cases h2 : k = plusLevel
        · subst h2
          by_cases h3 : plusLevel = l
          · rw [if_pos rfl, if_pos h3] at h; exact .plus _ (ih q (by omega))
          · rw [if_pos rfl, if_neg h3] at h; exact .plus _ (ih q (by omega))
        · rw [if_neg h2] at h
          by_cases h3 : k = l
          · subst h3; rw [if_pos rfl] at h; exact .same _ (ih q (by omega))
          · rw [if_neg h3] at h; omega

/-- A channel made by subscribing is empty. -/
theorem sentAt_ensure_new {T : Type} (ls : List Str) : ∀ (n : TopicNode T) (q : List Str) (s : List T),
    n.sentAt q = none → (n.ensure ls).sentAt q = some s → s = [] := by
  induction ls with
  | nil => intro n q s h h'; simp only [TopicNode.ensure] at h'; rw [h] at h'; simp at h'
  | cons l ls ih =>
    intro n q s h h'
    cases q with
    | nil => simp [TopicNode.sentAt, TopicNode.find] at h
    | cons k q =>
      rw [TopicNode.ensure, TopicNode.sentAt_cons, TopicNode.child_insert] at h'
      rw [TopicNode.sentAt_cons] at h
      by_cases hk : l = k
      · subst hk
        rw [if_pos rfl] at h'
        cases hc : n.child l with
        | some c =>
          rw [hc] at h h'
          exact ih c q s h h'
        | none =>
          rw [hc] at h'
          cases hq : (TopicNode.new : TopicNode T).sentAt q with
          | none => exact ih _ q s hq h'
          | some s0 =>
            have h2 := TopicNode.sentAt_ensure _ ls q s0 hq
            have h3 : ((TopicNode.new : TopicNode T).ensure ls).sentAt q = some s := h'
            rw [h2] at h3
            cases q with
            | nil =>
              simp [TopicNode.sentAt, TopicNode.find, TopicNode.new, TopicNode.sent] at hq
              simp only [Option.some.injEq] at h3
              rw [← h3, ← hq]
            | cons a b => simp [TopicNode.sentAt_cons, TopicNode.child, TopicNode.new,
                TopicNode.children, Map.get] at hq
      · rw [if_neg hk, h] at h'; simp at h'

/-- What a publication adds to the channel of a filter. -/
def landed (q : List Str) (ps : List (Str × Message)) : List Message :=
  ps.flatMap fun p => List.replicate (TopicNode.copies q (splitLevels p.1)) p.2

theorem sentAt_calls (cs : List Call) : ∀ (t : TopicTree Message) (q : List Str) (s : List Message),
    Call.restart ∉ cs → TopicNode.sentAt t q = some s →
    TopicNode.sentAt (cs.foldl Call.onTree t) q = some (s ++ landed q (Call.publications cs)) := by
  induction cs with
  | nil => intro t q s _ h; simpa [landed, Call.publications] using h
  | cons c cs ih =>
    intro t q s hr h
    rw [List.mem_cons, not_or] at hr
    rw [List.foldl_cons]
    cases c with
    | publish src topic m =>
      refine (ih _ q _ hr.2 (sentAt_publish t topic m q s h)).trans ?_
      simp [landed, Call.publications]
    | subscribe f =>
      exact ih _ q s hr.2 (TopicNode.sentAt_ensure t (splitLevels f) q s h)
    | restart => exact absurd rfl hr.1

theorem landed_matching (f : Str) (ps : List (Str × Message)) (h : ∀ p ∈ ps, ValidTopic p.1) :
    landed (splitLevels f) ps = matching f ps := by
  unfold landed matching
  induction ps with
  | nil => rfl
  | cons p ps ih =>
    rw [List.flatMap_cons, ih (fun q hq => h q (by simp [hq]))]
    have hc := copies_iff f p.1 (h p (by simp))
    by_cases hm : Matches f p.1
    · rw [hc.1 hm]; simp [hm]
    · rw [hc.2 hm]; simp [hm]

/-- The second world is the first one after some more calls, without restart. -/
structure World.Grows (w w' : World) (cs : List Call) : Prop where
  before : w.Faithful
  after : w'.Faithful
  log : w'.log = w.log ++ cs
  running : Call.restart ∉ cs

theorem World.Grows.sentAt {w w' : World} {cs : List Call} (h : w.Grows w' cs) {q : List Str}
    {s : List Message} (hs : TopicNode.sentAt w.broker.tree q = some s) :
    TopicNode.sentAt w'.broker.tree q = some (s ++ landed q (Call.publications cs)) := by
  rw [h.after.tree, h.log, List.foldl_append, ← h.before.tree]
  exact sentAt_calls cs _ _ _ h.running hs

theorem restart_notMem_willCalls (c : Nat) (s : Session) : Call.restart ∉ willCalls c s := by
  unfold willCalls; cases s.will <;> simp

theorem restart_notMem_packetCalls (c : Nat) (p : Packet) : Call.restart ∉ packetCalls c p := by
  cases p with
  | publish p => simp only [packetCalls]; split <;> simp
  | _ => simp [packetCalls]

theorem restart_notMem_eventCalls (cfg : AuthConfig) (srv : Server) (e : Event) (h : e ≠ .restart) :
    Call.restart ∉ eventCalls cfg srv e := by
  cases e with
  | first c p uuid w =>
    cases p with
    | connect p => simp only [eventCalls]; split <;> simp
    | _ => simp [eventCalls]
  | recv c p =>
    simp only [eventCalls]
    cases srv.at c with
    | none => simp
    | some s =>
      simp only [List.mem_append, not_or]
      refine ⟨restart_notMem_packetCalls c p, ?_⟩
      split
      · simp
      · exact restart_notMem_willCalls c s
  | deliver c f => simp [eventCalls]
  | close c =>
    simp only [eventCalls]
    cases srv.at c with
    | none => simp
    | some s => exact restart_notMem_willCalls c s
  | abort c => simp [eventCalls]
  | restart => exact absurd rfl h

theorem step_grows {cfg : AuthConfig} {srv : Server} (h : srv.world.Faithful) {e : Event}
    (he : e ≠ .restart) : srv.world.Grows (srv.step cfg e).1.world (eventCalls cfg srv e) :=
  ⟨h, faithful_step cfg h e, step_log cfg srv e, restart_notMem_eventCalls cfg srv e he⟩

/-! ## Reading a stream -/

/-- What a stream still has ahead: retained messages, then the unread part of its channel. -/
def SubStream.ahead (st : SubStream) (sent : List Message) : List Message :=
  st.retained ++ sent.drop st.rx.next

theorem channelOf_eq {t : TopicTree Message} {r : Receiver} {sent : List Message}
    (h : TopicNode.sentAt t r.path = some sent) : channelOf t r = sent := by
  unfold channelOf; unfold TopicNode.sentAt at h; rw [h]; rfl

theorem liveNext_none {sent : List Message} {next : Nat} (h : next ≤ sent.length) :
    liveNext sent next = none ↔ sent.drop next = [] := by
  unfold liveNext Receiver.recv channelCapacity
  rw [List.drop_eq_nil_iff]
  by_cases hl : next + 16 < sent.length
  · rw [if_pos hl]
    have h2 : ¬ sent.length - 16 + 16 < sent.length := by omega
    have h3 : sent[sent.length - 16]? = some (sent[sent.length - 16]'(by omega)) :=
      List.getElem?_eq_getElem _
    simp only [if_neg h2, h3]
    simp; omega
  · rw [if_neg hl]
    by_cases hn : next < sent.length
    · rw [List.getElem?_eq_getElem hn]; simp; omega
    · rw [List.getElem?_eq_none (by omega)]; simp; omega

theorem liveNext_some {sent : List Message} {next n : Nat} {m : Message} (h : next ≤ sent.length)
    (hs : liveNext sent next = some (m, n)) :
    n ≤ sent.length ∧ next ≤ n ∧ (m :: sent.drop n).Sublist (sent.drop next) ∧
    ((sent.drop next).length ≤ 16 → m :: sent.drop n = sent.drop next) := by
  unfold liveNext Receiver.recv channelCapacity at hs
  by_cases hl : next + 16 < sent.length
  · rw [if_pos hl] at hs
    have h2 : ¬ sent.length - 16 + 16 < sent.length := by omega
    have h3 : sent[sent.length - 16]? = some (sent[sent.length - 16]'(by omega)) :=
      List.getElem?_eq_getElem _
    simp only [if_neg h2, h3, Option.some.injEq, Prod.mk.injEq] at hs
    obtain ⟨rfl, rfl⟩ := hs
    refine ⟨by omega, by omega, ?_, ?_⟩
    · rw [List.getElem_cons_drop]
      have : sent.drop (sent.length - 16) = (sent.drop next).drop (sent.length - 16 - next) := by
        rw [List.drop_drop]; congr 1; omega
      rw [this]; exact List.drop_sublist _ _
    · rw [List.length_drop]; omega
  · rw [if_neg hl] at hs
    by_cases hn : next < sent.length
    · rw [List.getElem?_eq_getElem hn] at hs
      simp only [Option.some.injEq, Prod.mk.injEq] at hs
      obtain ⟨rfl, rfl⟩ := hs
      rw [List.getElem_cons_drop]
      exact ⟨by omega, by omega, List.Sublist.refl _, fun _ => rfl⟩
    · rw [List.getElem?_eq_none (by omega)] at hs; simp at hs

theorem poll_none {t : TopicTree Message} {st : SubStream} {sent : List Message}
    (hc : TopicNode.sentAt t st.rx.path = some sent) (hn : st.rx.next ≤ sent.length) :
    st.poll t = none ↔ st.ahead sent = [] := by
  unfold SubStream.poll SubStream.ahead
  rw [channelOf_eq hc]
  cases st.retained with
  | cons m rest => simp
  | nil => simp [liveNext_none hn]

theorem poll_some {t : TopicTree Message} {st st' : SubStream} {sent : List Message} {m : Message}
    (hc : TopicNode.sentAt t st.rx.path = some sent) (hn : st.rx.next ≤ sent.length)
    (hp : st.poll t = some (m, st')) :
    st'.rx.path = st.rx.path ∧ st'.rx.next ≤ sent.length ∧ st.rx.next ≤ st'.rx.next ∧
    st'.retained = st.retained.tail ∧
    (m :: st'.ahead sent).Sublist (st.ahead sent) ∧
    (st.retained ≠ [] ∨ (sent.drop st.rx.next).length ≤ 16 → m :: st'.ahead sent = st.ahead sent) := by
  unfold SubStream.poll at hp
  unfold SubStream.ahead
  rw [channelOf_eq hc] at hp
  cases hr : st.retained with
  | cons a rest =>
    simp only [hr, Option.some.injEq, Prod.mk.injEq] at hp
    obtain ⟨rfl, rfl⟩ := hp
    exact ⟨rfl, hn, Nat.le_refl _, rfl, List.Sublist.refl _, fun _ => rfl⟩
  | nil =>
    simp only [hr] at hp
    cases hl : liveNext sent st.rx.next with
    | none => simp [hl] at hp
    | some r =>
      obtain ⟨m', n⟩ := r
      simp only [hl, Option.map_some, Option.some.injEq, Prod.mk.injEq] at hp
      obtain ⟨rfl, rfl⟩ := hp
      obtain ⟨h1, h2, h3, h4⟩ := liveNext_some hn hl
      refine ⟨rfl, h1, h2, by simp [hr], by simpa [hr] using h3, ?_⟩
      rintro (h | h)
      · exact absurd rfl h
      · simpa [hr] using h4 h

/-! ## Where the messages ahead of a stream come from -/

/-- The message was published, to a topic the filter matches. -/
def From (log : List Call) (f : Str) (m : Message) : Prop :=
  ∃ t, (t, m) ∈ Call.publications log ∧ Matches f t

theorem From.mono {log : List Call} {f : Str} {m : Message} (h : From log f m) (cs : List Call) :
    From (log ++ cs) f m := by
  obtain ⟨t, ht, hm⟩ := h
  exact ⟨t, by rw [Call.publications_append]; simp [ht], hm⟩

theorem from_landed {log : List Call} {f : Str} {cs : List Call} {m : Message}
    (h : m ∈ landed (splitLevels f) (Call.publications cs)) : From (log ++ cs) f m := by
  unfold landed at h
  rw [List.mem_flatMap] at h
  obtain ⟨p, hp, hm⟩ := h
  rw [List.mem_replicate] at hm
  refine ⟨p.1, ?_, ?_⟩
  · rw [Call.publications_append]
    have : (p.1, m) = p := by rw [hm.2]
    rw [this]; simp [hp]
  · rw [matches_iff]; exact copies_pos _ _ (by omega)

/-- The stream reads the channel of its filter, and the retained messages ahead were published to
topics the filter matches. -/
structure Good (w : World) (f : Str) (st : SubStream) : Prop where
  valid : ValidFilter f
  path : st.rx.path = splitLevels f
  channel : ∃ sent, TopicNode.sentAt w.broker.tree (splitLevels f) = some sent ∧
    st.rx.next ≤ sent.length
  retained : ∀ m ∈ st.retained, From w.log f m

theorem Good.grow {w w' : World} {cs : List Call} {f : Str} {st : SubStream} (h : Good w f st)
    (hg : w.Grows w' cs) : Good w' f st := by
  obtain ⟨sent, h1, h2⟩ := h.channel
  refine ⟨h.valid, h.path, ⟨_, hg.sentAt h1, by rw [List.length_append]; omega⟩, ?_⟩
  intro m hm; rw [hg.log]; exact (h.retained m hm).mono cs

theorem mem_of_lastWith {α : Type} {p : α → Bool} {l : List α} {a : α} (h : lastWith p l = some a) :
    a ∈ l ∧ p a = true := by
  unfold lastWith at h
  exact ⟨by have := List.mem_of_find?_eq_some h; simpa using this, List.find?_some h⟩

theorem mem_of_retainedOf {t : Str} {pubs : List (Str × Message)} {m : Message}
    (h : retainedOf t pubs = some m) : (t, m) ∈ pubs := by
  unfold retainedOf at h
  split at h
  · rename_i t' m' hl
    obtain ⟨h1, h2⟩ := mem_of_lastWith hl
    split at h
    · simp only [Option.some.injEq] at h
      simp only [decide_eq_true_eq] at h2
      rw [← h, ← h2.1]; exact h1
    · simp at h
  · simp at h

theorem from_retained {w : World} (h : w.Faithful) {f : Str} (hf : ValidFilter f) {m : Message}
    (hm : m ∈ w.broker.store.getRetained f) : From w.log f m := by
  obtain ⟨ts, _, hts, he⟩ := h.retained.lookup f hf
  rw [he, List.mem_filterMap] at hm
  obtain ⟨t, ht, hr⟩ := hm
  exact ⟨t, mem_of_retainedOf hr, ((hts t).mp ht).1⟩

/-- In a tree built by calls, a channel that was never published on by a matching topic is empty:
everything on the channel of a filter was published to a topic it matches. -/
theorem channel_from (log : List Call) (f : Str) (sent : List Message)
    (h : TopicNode.sentAt (log.foldl Call.onTree TopicTree.new) (splitLevels f) = some sent) :
    ∀ m ∈ sent, From log f m := by
  induction log using snoc_induction generalizing sent with
  | h0 =>
    exfalso
    unfold TopicNode.sentAt at h
    obtain ⟨l, ls, e⟩ := List.exists_cons_of_ne_nil (splitOn_ne_nil slash f)
    have e' : splitLevels f = l :: ls := e
    rw [e'] at h
    simp [TopicTree.new, TopicNode.find, TopicNode.child, TopicNode.new, TopicNode.children, Map.get] at h
  | hs l a ih =>
    rw [List.foldl_append] at h
    cases a with
    | restart =>
      exfalso
      unfold TopicNode.sentAt at h
      obtain ⟨l', ls, e⟩ := List.exists_cons_of_ne_nil (splitOn_ne_nil slash f)
      have e' : splitLevels f = l' :: ls := e
      rw [e'] at h
      simp [Call.onTree, TopicTree.new, TopicNode.find, TopicNode.child, TopicNode.new,
        TopicNode.children, Map.get] at h
    | publish src t m =>
      cases hl : TopicNode.sentAt (l.foldl Call.onTree TopicTree.new) (splitLevels f) with
      | none =>
        exfalso
        have : TopicNode.sentAt (TopicTree.publish (l.foldl Call.onTree TopicTree.new) t m)
            (splitLevels f) = some sent := h
        unfold TopicTree.publish at this
        rw [TopicNode.sentAt_sends, hl] at this
        simp at this
      | some s0 =>
        have e := sentAt_calls [Call.publish src t m] _ _ _ (by simp) hl
        rw [e] at h
        simp only [Option.some.injEq] at h
        intro x hx
        rw [← h] at hx
        rcases List.mem_append.mp hx with hx | hx
        · exact (ih s0 hl x hx).mono _
        · exact from_landed hx
    | subscribe g =>
      intro x hx
      cases hl : TopicNode.sentAt (l.foldl Call.onTree TopicTree.new) (splitLevels f) with
      | none =>
        have h' : TopicNode.sentAt (TopicNode.ensure (l.foldl Call.onTree TopicTree.new) (splitLevels g))
            (splitLevels f) = some sent := h
        rw [sentAt_ensure_new _ _ _ _ hl h'] at hx
        simp at hx
      | some s0 =>
        have e := sentAt_calls [Call.subscribe g] _ _ _ (by simp) hl
        rw [e] at h
        simp only [Option.some.injEq, Call.publications, landed, List.flatMap_nil, List.append_nil] at h
        rw [← h] at hx
        exact (ih s0 hl x hx).mono _

/-! ## Sessions -/

/-- All streams of the session are good. -/
def AllGood (w : World) (s : Session) : Prop :=
  ∀ f st, s.subscriptions.get f = some st → Good w f st

theorem AllGood.grow {w w' : World} {cs : List Call} {s : Session} (h : AllGood w s)
    (hg : w.Grows w' cs) : AllGood w' s := fun f st hf => (h f st hf).grow hg

theorem AllGood.congr {w : World} {s s' : Session} (h : AllGood w s)
    (hs : s'.subscriptions = s.subscriptions) : AllGood w s' := by
  intro f st hf; rw [hs] at hf; exact h f st hf

theorem grows_refl {w : World} (h : w.Faithful) : w.Grows w [] := ⟨h, h, by simp, by simp⟩

theorem grows_of_log {w w' : World} (h : w.Faithful) (h' : w'.Faithful) (hl : w'.log = w.log) :
    w.Grows w' [] := ⟨h, h', by simp [hl], by simp⟩

theorem AllGood.add {w : World} {s : Session} (hw : w.Faithful) (h : AllGood w s) {f : Str}
    (hf : ValidFilter f) : AllGood (s.addSubscription w f).2 (s.addSubscription w f).1 := by
  have hg : w.Grows (s.addSubscription w f).2 [Call.subscribe f] :=
    ⟨hw, hw.subscribe f, rfl, by simp⟩
  intro g st hst
  rw [addSubscription_get] at hst
  by_cases hfg : f = g
  · subst hfg
    rw [if_pos rfl] at hst
    simp only [Option.some.injEq] at hst
    obtain ⟨h1, h2, sent, h3, h4⟩ := addSubscription_fresh s w f
    rw [hst] at h1 h2 h3 h4
    have hp : st.rx.path = splitLevels f := (isLevels_iff _ _).mp h2
    refine ⟨hf, hp, ⟨sent, by rw [← hp]; exact h3, by omega⟩, ?_⟩
    intro m hm
    have e : st.retained = w.broker.store.getRetained f := by rw [← hst]
    rw [e] at hm
    rw [hg.log]
    exact (from_retained hw hf hm).mono _
  · rw [if_neg hfg] at hst
    exact (h g st hst).grow hg

theorem AllGood.subscribeLoop (fs : List Str) : ∀ {w : World} {s : Session}, w.Faithful →
    AllGood w s → AllGood (s.subscribeLoop w fs).2.1 (s.subscribeLoop w fs).1 := by
  induction fs with
  | nil => intro w s _ h; exact h
  | cons f fs ih =>
    intro w s hw h
    by_cases hf : ValidFilter f
    · rw [subscribeLoop_cons_valid _ _ _ hf]
      exact ih (hw.subscribe f) (h.add hw hf)
    · rw [subscribeLoop_cons_invalid _ _ _ hf]; exact ih hw h

theorem AllGood.restore (fs : List Str) : ∀ {w : World} {s : Session}, w.Faithful →
    AllGood w s → (∀ f ∈ fs, ValidFilter f) →
    AllGood (s.restoreSubscriptions w fs).2 (s.restoreSubscriptions w fs).1 := by
  induction fs with
  | nil => intro w s _ h _; exact h
  | cons f fs ih =>
    intro w s hw h hv
    exact ih (hw.subscribe f) (h.add hw (hv f (by simp))) (fun g hg => hv g (by simp [hg]))

/-- Only SUBSCRIBE and UNSUBSCRIBE change the streams of a session. -/
theorem processIncoming_subscriptions (s : Session) (w : World) (m : Option AuthManager) (c : Nat)
    (p : Packet) (h1 : ∀ q, p ≠ .subscribe q) (h2 : ∀ q, p ≠ .unsubscribe q) :
    (s.processIncoming w m c p).session.subscriptions = s.subscriptions := by
  cases p with
  | publish p =>
    simp only [Session.processIncoming, Session.handlePublish]
    cases validatePublishTopic p.topicName with
    | error e => rfl
    | ok u =>
      simp only [Session.notePublish]
      cases p.qos <;> cases p.packetId <;> rfl
  | subscribe p => exact absurd rfl (h1 p)
  | unsubscribe p => exact absurd rfl (h2 p)
  | auth p =>
    simp only [Session.processIncoming, Session.handleAuth]
    cases m <;> rfl
  | _ => rfl

theorem processIncoming_grows {w : World} (hw : w.Faithful) (s : Session) (m : Option AuthManager)
    (c : Nat) (p : Packet) : w.Grows (s.processIncoming w m c p).world (packetCalls c p) :=
  ⟨hw, hw.processIncoming s m c p, log_processIncoming s w m c p, restart_notMem_packetCalls c p⟩

theorem AllGood.processIncoming {w : World} {s : Session} (hw : w.Faithful) (h : AllGood w s)
    (m : Option AuthManager) (c : Nat) (p : Packet) :
    AllGood (s.processIncoming w m c p).world (s.processIncoming w m c p).session := by
  by_cases h1 : ∃ q, p = .subscribe q
  · obtain ⟨q, rfl⟩ := h1
    exact h.subscribeLoop _ hw
  by_cases h2 : ∃ q, p = .unsubscribe q
  · obtain ⟨q, rfl⟩ := h2
    intro f st hf
    have := (unsubscribeLoop_eq q.payload s.subscriptions).2 f
    simp only [Session.processIncoming, Session.handleUnsubscribe] at hf
    rw [this] at hf
    split at hf
    · simp at hf
    · exact h f st hf
  · exact (h.grow (processIncoming_grows hw s m c p)).congr
      (processIncoming_subscriptions s w m c p (fun q e => h1 ⟨q, e⟩) (fun q e => h2 ⟨q, e⟩))

theorem AllGood.insert {w : World} {s : Session} (h : AllGood w s) {f : Str} {st : SubStream}
    (hst : Good w f st) {s' : Session} (hs : s'.subscriptions = s.subscriptions.insert f st) :
    AllGood w s' := by
  intro g st' hg
  rw [hs, Map.get_insert] at hg
  split at hg
  · rename_i e; subst e; simp only [Option.some.injEq] at hg; rw [← hg]; exact hst
  · exact h g st' hg

theorem Good.poll {w : World} {f : Str} {st st' : SubStream} {m : Message} (h : Good w f st)
    (hp : st.poll w.broker.tree = some (m, st')) : Good w f st' := by
  obtain ⟨sent, h1, h2⟩ := h.channel
  obtain ⟨a, b, _, d, _⟩ := poll_some (by rw [h.path]; exact h1) h2 hp
  refine ⟨h.valid, a.trans h.path, ⟨sent, h1, b⟩, ?_⟩
  intro x hx
  rw [d] at hx
  exact h.retained x (List.mem_of_mem_tail hx)

/-! ## The whole server -/

/-- All streams are good, and all stored filters are valid. -/
structure Sound (srv : Server) : Prop where
  faithful : srv.world.Faithful
  streams : ∀ r s, srv.heap.get r = some s → AllGood srv.world s
  stored : ∀ cid st, srv.store.sessions.get cid = some st → ∀ f ∈ st.subscriptions, ValidFilter f

theorem sound_init : Sound Server.init :=
  ⟨faithful_init, by simp [Server.init, Map.get], by
    simp [Server.init, Server.store, MemoryStore.new, Map.get]⟩

/-- A session put into the heap. -/
theorem Sound.put {srv : Server} {w : World} {cs : List Call} (h : Sound srv)
    (hg : srv.world.Grows w cs)
    (hst : ∀ cid st, w.broker.store.sessions.get cid = some st → ∀ f ∈ st.subscriptions, ValidFilter f)
    {srv' : Server} {r : Nat} {s : Session} (hw : srv'.world = w)
    (hh : srv'.heap = srv.heap.insert r s) (hs : AllGood w s) : Sound srv' := by
  refine ⟨hw ▸ hg.after, ?_, ?_⟩
  · intro r' s' hr
    rw [hh, Map.get_insert] at hr
    rw [hw]
    split at hr
    · simp only [Option.some.injEq] at hr; rw [← hr]; exact hs
    · exact (h.streams r' s' hr).grow hg
  · intro cid st hc
    unfold Server.store at hc
    rw [hw] at hc; exact hst cid st hc

theorem processIncoming_sessions (s : Session) (w : World) (m : Option AuthManager) (c : Nat)
    (p : Packet) : (s.processIncoming w m c p).world.broker.store.sessions =
      w.broker.store.sessions := by
  cases p with
  | publish p =>
    simp only [Session.processIncoming, Session.handlePublish]
    cases validatePublishTopic p.topicName with
    | error e => rfl
    | ok u =>
      show (Broker.publishStore w.broker.store p.topicName (Session.messageOf p)).sessions = _
      unfold Broker.publishStore
      split
      · split <;> rfl
      · rfl
  | subscribe p =>
    simp only [Session.processIncoming, Session.handleSubscribe]
    rw [(subscribeLoop_world _ s w).1]
  | auth p =>
    simp only [Session.processIncoming, Session.handleAuth]
    cases m <;> rfl
  | _ => rfl

theorem sessions_publish (w : World) (src : Source) (t : Str) (m : Message) :
    (w.publish src t m).broker.store.sessions = w.broker.store.sessions := by
  show (Broker.publishStore w.broker.store t m).sessions = _
  unfold Broker.publishStore
  split
  · split <;> rfl
  · rfl

theorem sound_finish {srv srv' : Server} {cs : List Call} (h : Sound srv)
    (hg : srv.world.Grows srv'.world cs) (hh : srv'.heap = srv.heap)
    (hst : srv'.store.sessions = srv.store.sessions) (c r : Nat) {s : Session}
    (hs : AllGood srv'.world s) : Sound (srv'.finish c r s) := by
  have hl := log_finish srv' c r s
  have hf := faithful_finish hg.after c r s
  have hg2 : srv'.world.Grows (srv'.finish c r s).world (willCalls c s) :=
    ⟨hg.after, hf, hl, restart_notMem_willCalls c s⟩
  have hg3 : srv.world.Grows (srv'.finish c r s).world (cs ++ willCalls c s) :=
    ⟨hg.before, hf, by rw [hl, hg.log, List.append_assoc], by
      rw [List.mem_append, not_or]; exact ⟨hg.running, restart_notMem_willCalls c s⟩⟩
  refine h.put (r := r) (s := { s with will := none }) hg3 ?_ rfl (by rw [heap_finish, hh])
    ((hs.grow hg2).congr rfl)
  intro cid st hc
  have : (srv'.finish c r s).world.broker.store.sessions = srv'.store.sessions := by
    unfold finish
    cases s.will with
    | none => rfl
    | some w => exact sessions_publish _ _ _ _
  rw [this, hst] at hc
  exact h.stored cid st hc

theorem saveAfter_sessions (s : Session) (p : Packet) (st : MemoryStore) :
    (saveAfter s p st).sessions = st.sessions ∨
    (saveAfter s p st).sessions = st.sessions.insert s.clientId (stateOf s.clientId s.filters) := by
  cases p with
  | subscribe q => exact Or.inr rfl
  | unsubscribe q => exact Or.inr rfl
  | pubAck a => left; simp only [saveAfter, MemoryStore.removeInflight]; split <;> rfl
  | pubComp a => left; simp only [saveAfter, MemoryStore.removeInflight]; split <;> rfl
  | _ => exact Or.inl rfl

theorem saveOutgoing_sessions (s : Session) (p : PublishPacket) (st : MemoryStore) :
    (saveOutgoing s p st).sessions = st.sessions := by
  unfold saveOutgoing
  cases p.packetId with
  | none => rfl
  | some id => cases p.qos <;> rfl

theorem AllGood.filters {w : World} {s : Session} (h : AllGood w s) : ∀ f ∈ s.filters, ValidFilter f := by
  intro f hf
  have : (s.subscriptions.get f).isSome := (Map.get_isSome _ _).mpr hf
  obtain ⟨st, hst⟩ := Option.isSome_iff_exists.mp this
  exact (h f st hst).valid

theorem find_valid {srv : Server} (h : Sound srv) (cid : Str) (clean : Bool) :
    ∀ f ∈ (srv.find cid clean).subscriptions, ValidFilter f := by
  unfold Server.find
  split
  · simp [Found.none]
  · split
    · simp
    · split
      · rename_i st hst; exact h.stored cid st hst
      · simp [Found.none]

/-- The streams of a session that starts: those it had if it was in memory, none otherwise. -/
theorem begin_subscriptions (s : Session) (uuid : Str) (resume : Bool) :
    (s.begin uuid resume).1.subscriptions = s.subscriptions := by
  unfold Session.begin; split <;> rfl

theorem restoreWill_subscriptions (s : Session) (w : Option StoredWill) :
    (restoreWill s w).subscriptions = s.subscriptions := by
  unfold restoreWill; cases w <;> rfl

theorem restore_store (fs : List Str) : ∀ (s : Session) (w : World),
    (s.restoreSubscriptions w fs).2.broker.store = w.broker.store := by
  induction fs with
  | nil => intro s w; rfl
  | cons f fs ih => intro s w; exact ih _ _

theorem discard_enter_stored {srv : Server} (h : Sound srv) (p : ConnectPacket) :
    ∀ cid st, ((srv.discard p.payload.clientId p.flags.cleanStart).enter p).1.store.sessions.get cid =
      some st → ∀ f ∈ st.subscriptions, ValidFilter f := by
  have h1 : ∀ cid st, (srv.discard p.payload.clientId p.flags.cleanStart).store.sessions.get cid =
      some st → ∀ f ∈ st.subscriptions, ValidFilter f := by
    intro cid st hc
    unfold Server.discard at hc
    split at hc
    · have hc' : (srv.store.sessions.erase p.payload.clientId).get cid = some st := hc
      rw [Map.get_erase] at hc'
      split at hc'
      · simp at hc'
      · exact h.stored cid st hc'
    · exact h.stored cid st hc
  generalize srv.discard p.payload.clientId p.flags.cleanStart = q at h1
  unfold enter
  cases q.sessions.get p.payload.clientId with
  | none => exact h1
  | some r =>
    cases hr : q.heap.get r with
    | none => simp only [hr]; exact h1
    | some s => simp only [hr]; exact h1

theorem sound_start {srv : Server} (h : Sound srv) (c : Nat) (p : ConnectPacket) (uuid : Str)
    (w : Bool) (hf : (srv.start c p uuid w).1.world.Faithful) : Sound (srv.start c p uuid w).1 := by
  obtain ⟨h1, h2, h3, h4, h5⟩ := enter_discard srv p
  have hE := discard_enter_stored h p
  have hF := faithful_discard_enter h.faithful p
  have hv := find_valid h p.payload.clientId p.flags.cleanStart
  have hl := log_start srv c p uuid w
  have hgE : srv.world.Grows ((srv.discard p.payload.clientId p.flags.cleanStart).enter p).1.world [] :=
    grows_of_log h.faithful hF h3
  have hb : AllGood ((srv.discard p.payload.clientId p.flags.cleanStart).enter p).1.world
      (((srv.discard p.payload.clientId p.flags.cleanStart).enter p).2.2.begin uuid
        (srv.find p.payload.clientId p.flags.cleanStart).resume).1 := by
    have : AllGood ((srv.discard p.payload.clientId p.flags.cleanStart).enter p).1.world
        ((srv.discard p.payload.clientId p.flags.cleanStart).enter p).2.2 := by
      rcases h5 with ⟨_, _, ⟨s, hs, e⟩, _, _⟩ | ⟨_, _, e, _⟩
      · rw [e]; exact ((h.streams _ _ hs).grow hgE).congr rfl
      · rw [e]; intro f st hf; simp [Session.new, Map.get] at hf
    exact this.congr (begin_subscriptions _ _ _)
  cases w with
  | false => exact h.put hgE hE rfl (by rw [← h1]; rfl) hb
  | true =>
    have hM : (((srv.discard p.payload.clientId p.flags.cleanStart).enter p).1.mapStore
        (saveStart (((srv.discard p.payload.clientId p.flags.cleanStart).enter p).2.2.begin uuid
          (srv.find p.payload.clientId p.flags.cleanStart).resume).1
          (srv.find p.payload.clientId p.flags.cleanStart).subscriptions)).world.Faithful :=
      hF.mapStore (retained_saveStart _ _)
    have hg : srv.world.Grows (srv.start c p uuid true).1.world
        ((srv.find p.payload.clientId p.flags.cleanStart).subscriptions.map Call.subscribe) :=
      ⟨h.faithful, hf, by simpa using hl, by simp⟩
    refine h.put hg ?_ rfl (by rw [← h1]; rfl) ?_
    · intro cid st hc
      have e : (srv.start c p uuid true).1.world.broker.store = _ := restore_store _ _ _
      rw [e] at hc
      have hs : ∀ (s : Session) (subs : List Str) (m : MemoryStore),
          (saveStart s subs m).sessions = m.sessions.insert s.clientId (stateOf s.clientId subs) := by
        intro s subs m; unfold saveStart; cases s.will <;> rfl
      have hc' : (saveStart _ _ _).sessions.get cid = some st := hc
      rw [hs, Map.get_insert] at hc'
      split at hc'
      · simp only [Option.some.injEq] at hc'; rw [← hc']; exact hv
      · exact hE cid st hc'
    · refine AllGood.congr ?_ (restoreWill_subscriptions _ _)
      exact AllGood.restore _ hM (hb.grow (grows_of_log hF hM rfl)) hv

theorem sound_step (cfg : AuthConfig) {srv : Server} (h : Sound srv) (e : Event) :
    Sound (srv.step cfg e).1 := by
  cases e with
  | first c p uuid w =>
    have hf := faithful_step cfg h.faithful (.first c p uuid w)
    rcases step_first_cases cfg srv c p uuid w with ⟨h', _⟩ | ⟨q, rfl, hq, h'⟩
    · rw [h']; exact h
    · rw [h'] at hf ⊢
      exact sound_start h c q uuid w hf
  | recv c p =>
    cases ha : srv.at c with
    | none =>
      rw [show srv.step cfg (.recv c p) = (srv, {}) by simp only [Server.step]; exact onConn_none ha _]
      exact h
    | some s =>
      by_cases hd : ∃ d, p = .disconnect d
      · obtain ⟨d, rfl⟩ := hd
        obtain ⟨k, hk, hs, e⟩ := step_disconnect (cfg := cfg) (d := d) ha
        rw [e]
        have hM : (srv.mapStore fun st => st.deleteWill s.clientId).world.Faithful :=
          h.faithful.mapStore (g := fun st => st.deleteWill s.clientId) fun _ => rfl
        exact sound_finish (s := { s with will := none }) h (grows_of_log h.faithful hM rfl) rfl rfl c _
          (((h.streams _ _ hs).grow (grows_of_log h.faithful hM rfl)).congr rfl)
      · obtain ⟨k, hk, hs, e⟩ := step_recv (cfg := cfg) (p := p) ha (fun d he => hd ⟨d, he⟩)
        rw [e]
        have hg := processIncoming_grows h.faithful s cfg.manager c p
        have hs' := (h.streams _ _ hs).processIncoming h.faithful cfg.manager c p
        have hst := processIncoming_sessions s srv.world cfg.manager c p
        cases hr : (s.processIncoming srv.world cfg.manager c p).result with
        | error err => exact sound_finish (srv' := { srv with world := _ }) h hg rfl hst c _ hs'
        | ok res =>
          have hM : ((s.processIncoming srv.world cfg.manager c p).world.mapStore
              (saveAfter (s.processIncoming srv.world cfg.manager c p).session p)).Faithful :=
            hg.after.mapStore (retained_saveAfter _ _)
          refine h.put (cs := packetCalls c p) ⟨h.faithful, hM, hg.log, hg.running⟩ ?_ rfl rfl
            (hs'.grow (grows_of_log hg.after hM rfl))
          intro cid st hc
          have hc' : (saveAfter (s.processIncoming srv.world cfg.manager c p).session p
            (s.processIncoming srv.world cfg.manager c p).world.broker.store).sessions.get cid =
            some st := hc
          rcases saveAfter_sessions (s.processIncoming srv.world cfg.manager c p).session p
            (s.processIncoming srv.world cfg.manager c p).world.broker.store with e | e
          · rw [e, hst] at hc'; exact h.stored cid st hc'
          · rw [e, Map.get_insert] at hc'
            split at hc'
            · simp only [Option.some.injEq] at hc'; rw [← hc']; exact hs'.filters
            · rw [hst] at hc'; exact h.stored cid st hc'
  | deliver c f =>
    cases ha : srv.at c with
    | none =>
      rw [show srv.step cfg (.deliver c f) = (srv, {}) by simp only [Server.step]; exact onConn_none ha _]
      exact h
    | some s =>
      obtain ⟨k, hk, hs, e⟩ := onConn_at ha (fun r s => srv.deliver c r s f)
      have e' : srv.step cfg (.deliver c f) = srv.deliver c k.session s f := e
      rw [e', Server.deliver]
      rcases processOutgoing_cases s srv.world.broker.tree f with
        ⟨h1, _⟩ | ⟨st, m, st', hst, hp, ⟨u, _, h1⟩ | ⟨_, h1⟩⟩
      · rw [h1]; exact h
      · rw [h1]
        have hM : (srv.world.mapStore (saveOutgoing
            { s with subscriptions := s.subscriptions.insert f st', unacked := u }
            (Session.outgoingPacket f m))).Faithful := h.faithful.mapStore (retained_saveOutgoing _ _)
        refine h.put (grows_of_log h.faithful hM rfl) ?_ rfl rfl
          (AllGood.grow (AllGood.insert (h.streams _ _ hs) ((h.streams _ _ hs f st hst).poll hp) rfl)
            (grows_of_log h.faithful hM rfl))
        intro cid x hc
        have hc' : (saveOutgoing _ _ _).sessions.get cid = some x := hc
        rw [saveOutgoing_sessions] at hc'
        exact h.stored cid x hc'
      · rw [h1]
        exact h.put (grows_refl h.faithful) h.stored rfl rfl
          (AllGood.insert (h.streams _ _ hs) ((h.streams _ _ hs f st hst).poll hp) rfl)
  | close c =>
    cases ha : srv.at c with
    | none =>
      rw [show srv.step cfg (.close c) = (srv, {}) by simp only [Server.step]; exact onConn_none ha _]
      exact h
    | some s =>
      obtain ⟨k, hk, hs, e⟩ := onConn_at ha (fun r s => (srv.finish c r s, {}))
      have e' : srv.step cfg (.close c) = (srv.finish c k.session s, {}) := e
      rw [e']
      exact sound_finish h (grows_refl h.faithful) rfl rfl c _ (h.streams _ _ hs)
  | abort c => exact ⟨h.faithful, h.streams, h.stored⟩
  | restart => exact ⟨h.faithful.restart, by simp [Server.step, Map.get], h.stored⟩

theorem Server.Reachable.sound {cfg : AuthConfig} {srv : Server} (h : srv.Reachable cfg) : Sound srv :=
  h.induction sound_init fun _ e h => sound_step cfg h e

/-! ## Following one stream -/

/-- Starting a session changes no stream of an existing one. -/
theorem start_streams {srv : Server} (hi : Inv srv) (c : Nat) (p : ConnectPacket) (uuid : Str)
    (w : Bool) {r : Nat} {s : Session} (hr : r < srv.fresh) (hs : srv.heap.get r = some s) :
    ∃ s', (srv.start c p uuid w).1.heap.get r = some s' ∧ s'.subscriptions = s.subscriptions := by
  obtain ⟨h1, h2, h3, h4, h5⟩ := enter_discard srv p
  have hkeep : (srv.discard p.payload.clientId p.flags.cleanStart).enter p |>.2.1 = r →
      (srv.find p.payload.clientId p.flags.cleanStart).subscriptions = [] ∧
      ((srv.discard p.payload.clientId p.flags.cleanStart).enter p).2.2.subscriptions =
        s.subscriptions := by
    intro e
    rcases h5 with ⟨a, b, ⟨s0, hs0, e0⟩, _, _⟩ | ⟨a, _, _, _⟩
    · rw [e, hs] at hs0
      simp only [Option.some.injEq] at hs0
      refine ⟨?_, by rw [e0, hs0]; rfl⟩
      unfold Server.find
      simp [a, b]
    · omega
  by_cases hE : ((srv.discard p.payload.clientId p.flags.cleanStart).enter p).2.1 = r
  · obtain ⟨k1, k2⟩ := hkeep hE
    cases w with
    | false =>
      exact ⟨_, (Map.get_insert _ _ _ _).trans (if_pos hE), (begin_subscriptions _ _ _).trans k2⟩
    | true =>
      refine ⟨_, (Map.get_insert _ _ _ _).trans (if_pos hE), ?_⟩
      refine (restoreWill_subscriptions _ _).trans ?_
      rw [k1]
      exact (begin_subscriptions _ _ _).trans k2
  · refine ⟨s, ?_, rfl⟩
    cases w with
    | false => exact (Map.get_insert _ _ _ _).trans ((if_neg hE).trans (by rw [h1]; exact hs))
    | true => exact (Map.get_insert _ _ _ _).trans ((if_neg hE).trans ((congrArg (·.get r) h1).trans hs))

/-- An event of another connection does not touch the session. -/
theorem local_other {srv srv' : Server} {c c' : Nat} (hc : c' ≠ c)
    (he : LocalEffect srv srv' c') (ha : ∀ c', c' ≠ c → ¬ srv.shares c c')
    {s : Session} (hs : srv.at c = some s) : srv'.at c = some s := by
  obtain ⟨k, hk, hh⟩ := at_eq_some.mp hs
  rw [at_eq_some]
  refine ⟨k, ?_, ?_⟩
  · rcases he.conns with e | e
    · rw [e]; exact hk
    · rw [e, Map.get_erase, if_neg hc]; exact hk
  · rcases he.heap with e | ⟨k', s1, s2, hk', hh', e⟩
    · rw [e]; exact hh
    · rw [e, Map.get_insert, if_neg]
      · exact hh
      · intro hkk
        exact ha c' hc ⟨k, k', hk, hk', hkk.symm⟩

/-- Clients with different identifiers do not share a session. -/
theorem Server.Inv.apart {srv : Server} (hi : Inv srv) {c : Nat}
    (ha : ∀ c', c' ≠ c → srv.isOpen c' → srv.clientOf c' ≠ srv.clientOf c) : ∀ c', c' ≠ c → ¬ srv.shares c c' := by
  rintro c' hc ⟨k, k', hk, hk', hkk⟩
  have := hi.shared _ _ _ _ hk' hk hkk.symm
  exact ha c' hc ⟨k', hk'⟩ (by simp [Server.clientOf, hk, hk', this])

/-- What an event does to a subscription that stays. -/
theorem step_stream {cfg : AuthConfig} {srv : Server} (hi : Inv srv) {c : Nat} {f : Str} {e : Event}
    (hc : Calm cfg srv c f e) {s : Session} {st : SubStream} (hs : srv.at c = some s)
    (hf : s.subscriptions.get f = some st) :
    ∃ s' st', (srv.step cfg e).1.at c = some s' ∧ s'.subscriptions.get f = some st' ∧
      ((e ≠ .deliver c f ∧ st' = st) ∨
       (e = .deliver c f ∧ st.poll srv.world.broker.tree = none ∧ st' = st ∧
          (srv.step cfg e).2.sent = []) ∨
       (e = .deliver c f ∧ ∃ m, st.poll srv.world.broker.tree = some (m, st') ∧
          (srv.step cfg e).2.sent = [.publish (Session.outgoingPacket f m)])) := by
  obtain ⟨k, hk, hh⟩ := at_eq_some.mp hs
  have hstay := hc.stays
  cases e with
  | first c' p uuid w =>
    rcases step_first_cases cfg srv c' p uuid w with ⟨h', _⟩ | ⟨q, rfl, hq, h'⟩
    · exact ⟨s, st, by rw [h']; exact hs, hf, Or.inl ⟨by simp, rfl⟩⟩
    · rw [h']
      have hcc : c' ≠ c := by
        rintro rfl
        exact hq.1 ⟨k, hk⟩
      obtain ⟨s', h1, h2⟩ := start_streams hi c' q uuid w (hi.conns c k hk).1 hh
      refine ⟨s', st, ?_, by rw [h2]; exact hf, Or.inl ⟨by simp, rfl⟩⟩
      rw [at_eq_some]
      refine ⟨k, ?_, h1⟩
      obtain ⟨r, hr⟩ := start_effect srv c' q uuid w
      rw [hr.conns]
      split
      · rw [Map.get_insert, if_neg hcc]; exact hk
      · exact hk
  | recv c' p =>
    by_cases hcc : c' = c
    · subst hcc
      by_cases hd : ∃ d, p = .disconnect d
      · obtain ⟨d, rfl⟩ := hd
        obtain ⟨k', _, _, e⟩ := step_disconnect (cfg := cfg) (d := d) hs
        rw [e] at hstay
        exact absurd hstay (not_open_finish _ _ _ _)
      · obtain ⟨k', hk', hh', e⟩ := step_recv (cfg := cfg) (p := p) hs (fun d he => hd ⟨d, he⟩)
        rw [e] at hstay ⊢
        cases hr : (s.processIncoming srv.world cfg.manager c' p).result with
        | error err => rw [hr] at hstay; exact absurd hstay (not_open_finish _ _ _ _)
        | ok res =>
          refine ⟨_, st, at_put_same hk' _, ?_, Or.inl ⟨by simp, rfl⟩⟩
          by_cases h1 : ∃ q, p = .subscribe q
          · obtain ⟨q, rfl⟩ := h1
            refine ((subscribeLoop_get (q.payload.map (·.topicFilter)) s srv.world f).2 ?_).trans hf
            exact fun h => hc.sub q rfl h.1
          by_cases h2 : ∃ q, p = .unsubscribe q
          · obtain ⟨q, rfl⟩ := h2
            refine ((unsubscribeLoop_eq q.payload s.subscriptions).2 f).trans ?_
            rw [if_neg (hc.unsub q rfl)]; exact hf
          · rw [processIncoming_subscriptions s srv.world cfg.manager c' p (fun q e => h1 ⟨q, e⟩)
              (fun q e => h2 ⟨q, e⟩)]
            exact hf
    · exact ⟨s, st, local_other hcc (step_local cfg srv (.recv p)) hc.alone hs, hf,
        Or.inl ⟨by simp, rfl⟩⟩
  | deliver c' g =>
    by_cases hcc : c' = c
    · subst hcc
      obtain ⟨k', hk', hh', e⟩ := onConn_at hs (fun r s => srv.deliver c' r s g)
      have e' : srv.step cfg (.deliver c' g) = srv.deliver c' k'.session s g := e
      rw [e'] at hstay ⊢
      unfold Server.deliver at hstay ⊢
      rcases processOutgoing_cases s srv.world.broker.tree g with
        ⟨h1, h2⟩ | ⟨st1, m, st2, hst, hp, ⟨u, _, h1⟩ | ⟨_, h1⟩⟩
      · rw [h1]
        refine ⟨s, st, hs, hf, ?_⟩
        by_cases hg : g = f
        · subst hg
          right; left
          rcases h2 with h2 | ⟨st1, h2, h3⟩
          · rw [h2] at hf; simp at hf
          · rw [h2] at hf; simp only [Option.some.injEq] at hf
            exact ⟨rfl, hf ▸ h3, rfl, rfl⟩
        · exact Or.inl ⟨by simp [hg], rfl⟩
      · rw [h1]
        by_cases hg : g = f
        · subst hg
          rw [hst] at hf; simp only [Option.some.injEq] at hf; subst hf
          exact ⟨_, st2, at_put_same hk' _, (Map.get_insert _ _ _ _).trans (if_pos rfl),
            Or.inr (Or.inr ⟨rfl, m, hp, rfl⟩)⟩
        · exact ⟨_, st, at_put_same hk' _, ((Map.get_insert _ _ _ _).trans (if_neg hg)).trans hf,
            Or.inl ⟨by simp [hg], rfl⟩⟩
      · rw [h1] at hstay
        obtain ⟨k2, hk2⟩ := hstay
        have : (srv.conns.erase c').get c' = some k2 := hk2
        rw [Map.get_erase, if_pos rfl] at this
        simp at this
    · exact ⟨s, st, local_other hcc (step_local cfg srv (.deliver g)) hc.alone hs, hf,
        Or.inl ⟨by simp [hcc], rfl⟩⟩
  | close c' =>
    by_cases hcc : c' = c
    · subst hcc
      obtain ⟨k', _, _, e⟩ := onConn_at hs (fun r s => (srv.finish c' r s, {}))
      have e' : srv.step cfg (.close c') = (srv.finish c' k'.session s, {}) := e
      rw [e'] at hstay
      exact absurd hstay (not_open_finish _ _ _ _)
    · exact ⟨s, st, local_other hcc (step_local cfg srv .close) hc.alone hs, hf,
        Or.inl ⟨by simp, rfl⟩⟩
  | abort c' =>
    by_cases hcc : c' = c
    · subst hcc
      obtain ⟨k2, hk2⟩ := hstay
      have : (srv.conns.erase c').get c' = some k2 := hk2
      rw [Map.get_erase, if_pos rfl] at this
      simp at this
    · refine ⟨s, st, ?_, hf, Or.inl ⟨by simp, rfl⟩⟩
      rw [at_eq_some]
      exact ⟨k, by show (srv.conns.erase c').get c = _; rw [Map.get_erase, if_neg hcc]; exact hk, hh⟩
  | restart =>
    obtain ⟨k2, hk2⟩ := hstay
    simp [Server.step, Map.get] at hk2

end Mercurio
