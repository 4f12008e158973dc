import Verif.Props.MailboxKept

/-!
# C105: more than sixteen messages while the client is away
-/

namespace Mercurio

open Spec Server

theorem deliveredFor_append (cfg : AuthConfig) (cid f : Str) (b : List Event) (a : List Event) : ∀ srv : Server,
    srv.deliveredFor cfg cid f (a ++ b) =
      srv.deliveredFor cfg cid f a ++ (srv.run cfg a).deliveredFor cfg cid f b := by
  induction a with
  | nil => intro srv; rfl
  | cons e a ih =>
    intro srv
    rw [List.cons_append]
    simp only [Server.deliveredFor]
    rw [ih, List.append_assoc]
    rfl

theorem Spec.KeptRun.left {cfg : AuthConfig} {cid f : Str} {b : List Event} {a : List Event} : ∀ {srv : Server},
    KeptRun cfg cid f srv (a ++ b) → KeptRun cfg cid f srv a := by
  induction a with
  | nil => intro _ _; trivial
  | cons e a ih => intro srv h; exact ⟨h.1, ih h.2⟩

theorem Spec.PanicFree.left {cfg : AuthConfig} {b : List Event} {a : List Event} : ∀ {srv : Server},
    PanicFree cfg srv (a ++ b) → PanicFree cfg srv a := by
  induction a with
  | nil => intro _ _; trivial
  | cons e a ih => intro srv h; exact ⟨h.1, ih h.2⟩

/-- Taking a message out of a mailbox that holds the newest sixteen of some messages leaves such a mailbox. -/
theorem take_newest (r l : List Message) : ∃ r' l', (Mailbox.take ⟨r, newest l⟩).2 = ⟨r', newest l'⟩ ∧ r'.Sublist r ∧
    ((Mailbox.take ⟨r, newest l⟩).1 = none → r' = r ∧ newest l' = newest l) := by
  cases r with
  | cons m r => exact ⟨r, l, rfl, List.sublist_cons_self m r, by simp [Mailbox.take]⟩
  | nil =>
    have hl := newest_length l
    cases h : newest l with
    | nil => exact ⟨[], [], rfl, List.Sublist.refl _, fun _ => ⟨rfl, rfl⟩⟩
    | cons m ms =>
      rw [h, List.length_cons] at hl
      refine ⟨[], ms, ?_, List.Sublist.refl _, by simp [Mailbox.take]⟩
      rw [newest_of_le (by omega)]
      rfl

/-- The mailbox after the first part of a history. -/
theorem drawnFor_split (cfg : AuthConfig) (cid f : Str) (a : List Event) : ∀ (srv : Server) (r l : List Message),
    ∃ r' l', r'.Sublist r ∧ ∀ b, drawnFor cfg cid f srv ⟨r, newest l⟩ (a ++ b) =
      drawnFor cfg cid f srv ⟨r, newest l⟩ a ++ drawnFor cfg cid f (srv.run cfg a) ⟨r', newest l'⟩ b := by
  induction a with
  | nil => intro srv r l; exact ⟨r, l, List.Sublist.refl _, fun b => rfl⟩
  | cons e a ih =>
    intro srv r l
    by_cases h : ∃ c, e = .deliver c f ∧ srv.worksFor c cid = true
    · obtain ⟨r1, l1, h1, h2, _⟩ := take_newest r (l ++ matching f (published cfg srv [e]))
      obtain ⟨r2, l2, h3, h4⟩ := ih (srv.step cfg e).1 r1 l1
      refine ⟨r2, l2, h3.trans h2, fun b => ?_⟩
      rw [List.cons_append]
      simp only [drawnFor, foldl_put]
      rw [if_pos h, if_pos h, h1, h4 b, List.append_assoc]
      rfl
    · obtain ⟨r2, l2, h3, h4⟩ := ih (srv.step cfg e).1 r (l ++ matching f (published cfg srv [e]))
      refine ⟨r2, l2, h3, fun b => ?_⟩
      rw [List.cons_append]
      simp only [drawnFor, foldl_put]
      rw [if_neg h, if_neg h, h4 b]
      rfl

/-- The mailbox after a history in which nothing was taken out. -/
theorem drawnFor_idle (cfg : AuthConfig) (cid f : Str) (b : List Event) (a : List Event) :
    ∀ (srv : Server) (r l : List Message), drawnFor cfg cid f srv ⟨r, newest l⟩ a = [] →
    drawnFor cfg cid f srv ⟨r, newest l⟩ (a ++ b) =
      drawnFor cfg cid f (srv.run cfg a) ⟨r, newest (l ++ matching f (published cfg srv a))⟩ b := by
  induction a with
  | nil => intro srv r l _; rw [published_nil]; simp [matching]; rfl
  | cons e a ih =>
    intro srv r l h
    rw [List.cons_append, published_cons, matching_append]
    by_cases hd : ∃ c, e = .deliver c f ∧ srv.worksFor c cid = true
    · have hM : matching f (published cfg srv [e]) = [] := by
        obtain ⟨c, rfl, _⟩ := hd
        rw [published_one]; rfl
      simp only [drawnFor, foldl_put, hM, List.append_nil, if_pos hd] at h ⊢
      obtain ⟨r1, l1, h1, h2, h3⟩ := take_newest r l
      obtain ⟨k1, k2⟩ := List.append_eq_nil_iff.mp h
      have hn : (Mailbox.take ⟨r, newest l⟩).1 = none := by
        cases hx : (Mailbox.take ⟨r, newest l⟩).1 with
        | none => rfl
        | some m => rw [hx] at k1; simp at k1
      obtain ⟨q1, q2⟩ := h3 hn
      rw [h1, q1, q2] at k2
      rw [hn, h1, q1, q2, List.nil_append, ih _ _ _ k2]
      simp
      rfl
    · simp only [drawnFor, foldl_put, if_neg hd] at h ⊢
      rw [ih _ _ _ h, List.append_assoc]
      rfl

theorem drawnFor_sublist (cfg : AuthConfig) (cid f : Str) (es : List Event) : ∀ (srv : Server) (b : Mailbox),
    (drawnFor cfg cid f srv b es).Sublist (b.retained ++ b.live ++ matching f (published cfg srv es)) := by
  induction es with
  | nil => intro srv b; exact List.nil_sublist _
  | cons e es ih =>
    intro srv b
    rw [published_cons, matching_append]
    obtain ⟨h1, h2⟩ := put_keeps (matching f (published cfg srv [e])) b
    simp only [drawnFor]
    generalize (matching f (published cfg srv [e])).foldl Mailbox.put b = b' at h1 h2 ⊢
    have hb : (b'.retained ++ b'.live ++ matching f (published cfg (srv.step cfg e).1 es)).Sublist
        (b.retained ++ b.live ++ (matching f (published cfg srv [e]) ++
          matching f (published cfg (srv.step cfg e).1 es))) := by
      have := ((List.Sublist.refl b.retained).append h2).append
        (List.Sublist.refl (matching f (published cfg (srv.step cfg e).1 es)))
      rw [h1]
      simpa only [List.append_assoc] using this
    refine List.Sublist.trans ?_ hb
    split
    · have := ih (srv.step cfg e).1 b'.take.2
      match b', this with
      | ⟨m :: ms, live⟩, this => exact this.cons_cons m
      | ⟨[], m :: ms⟩, this => exact this.cons_cons m
      | ⟨[], []⟩, this => exact this
    · exact ih _ b'

/-- C105 is false for more than sixteen messages: a client of the session kept for `cid` subscribes to a valid filter
`f`.  Later (after any history `es`) it is away, or just busy: for some time (`away`) it is sent nothing for
`f`, on no connection of its session, while at least sixteen messages are accepted that `f` matches.  Whatever
happens afterwards (`back`), as long as the session and the subscription are kept and no task panics: of all
the messages published before and while it was away, only the newest sixteen can still reach it.  All that it is ever
sent for `f` from then on are retained messages of the time it subscribed, these sixteen, and later ones. -/
theorem C105_away_lost_false (cfg : AuthConfig) (srv : Server) (hr : srv.Reachable cfg) (c : Nat)
    (cid : Str) (hw : srv.worksFor c cid = true) (p : SubscribePacket) (f : Str)
    (hf : f ∈ p.payload.map (·.topicFilter)) (hvf : ValidFilter f) (es away back : List Event) :
    let srv1 := (srv.step cfg (.recv c (.subscribe p))).1
    let before := Call.publications srv.world.log
    let srv2 := srv1.run cfg es
    let missed := matching f (published cfg srv2 away)
    KeptRun cfg cid f srv1 (es ++ away ++ back) →
    (∀ q ∈ published cfg srv1 (es ++ away ++ back), ValidTopic q.1) →
    PanicFree cfg srv1 (es ++ away ++ back) →
    srv2.deliveredFor cfg cid f away = [] → 16 ≤ missed.length →
    ∃ topics : List Str, topics.Nodup ∧
      (∀ t, t ∈ topics ↔ Matches f t ∧ (retainedOf t before).isSome) ∧
      ((srv2.run cfg away).deliveredFor cfg cid f back).Sublist
        ((topics.filterMap (fun t => retainedOf t before) ++ missed.drop (missed.length - 16) ++
          matching f (published cfg (srv2.run cfg away) back)).map (forwarded f)) := by
  intro srv1 before srv2 missed hk hv hp hidle h16
  obtain ⟨topics, t1, t2, t3⟩ := kept_mailbox cfg srv hr c cid hw p f hf hvf
  refine ⟨topics, t1, t2, ?_⟩
  have hv1 : ∀ es1 es2, es ++ away ++ back = es1 ++ es2 → ∀ q ∈ published cfg srv1 es1, ValidTopic q.1 := by
    intro es1 es2 he q hq
    exact hv q (by rw [he, published_append]; exact List.mem_append_left _ hq)
  have e1 := t3 es (hk.left.left) (hv1 es (away ++ back) (by simp)) hp.left.left
  have e2 := t3 (es ++ away) hk.left (hv1 (es ++ away) back rfl) hp.left
  have e3 := t3 (es ++ away ++ back) hk hv hp
  obtain ⟨r, l, hs, hsplit⟩ := drawnFor_split cfg cid f es srv1 (topics.filterMap (fun t => retainedOf t before)) []
  change ∀ b, drawnFor cfg cid f srv1 ⟨topics.filterMap (fun t => retainedOf t before), []⟩ (es ++ b) =
    drawnFor cfg cid f srv1 ⟨topics.filterMap (fun t => retainedOf t before), []⟩ es ++ _ at hsplit
  change srv1.deliveredFor cfg cid f es = _ at e1
  change srv1.deliveredFor cfg cid f (es ++ away) = _ at e2
  change srv1.deliveredFor cfg cid f (es ++ away ++ back) = _ at e3
  rw [deliveredFor_append, e1, hsplit, List.map_append] at e2
  have e4 := List.append_cancel_left e2
  rw [show (srv1.run cfg es).deliveredFor cfg cid f away = [] from hidle] at e4
  have e5 := List.map_eq_nil_iff.mp e4.symm
  rw [List.append_assoc, deliveredFor_append, e1, hsplit, List.map_append] at e3
  have e6 := List.append_cancel_left e3
  rw [deliveredFor_append, show (srv1.run cfg es).deliveredFor cfg cid f away = [] from hidle, List.nil_append,
    drawnFor_idle cfg cid f back away _ _ _ e5] at e6
  show (((srv1.run cfg es).run cfg away).deliveredFor cfg cid f back).Sublist _
  rw [e6]
  refine List.Sublist.map _ ((drawnFor_sublist cfg cid f back _ _).trans ?_)
  refine (hs.append ?_).append (List.Sublist.refl _)
  unfold newest
  rw [List.length_append, List.drop_append, List.drop_eq_nil_of_le (by
    have : 16 ≤ (matching f (published cfg (srv1.run cfg es) away)).length := h16
    omega), List.nil_append]
  have hx : l.length + (matching f (published cfg (srv1.run cfg es) away)).length - 16 - l.length =
      (matching f (published cfg (srv1.run cfg es) away)).length - 16 := by omega
  rw [hx]
  exact List.Sublist.refl _

/-! ## Examples -/

/-- Whether a history has neither a restart, nor a clean start under `cid`, nor a SUBSCRIBE or UNSUBSCRIBE. -/
def keptB (cid : Str) : Event → Bool
  | .restart => false
  | .first _ (.connect p) _ _ => p.payload.clientId != cid || !p.flags.cleanStart
  | .recv _ (.subscribe _) => false
  | .recv _ (.unsubscribe _) => false
  | _ => true

theorem keptB_sound (cfg : AuthConfig) (cid f : Str) (es : List Event) : ∀ srv : Server,
    es.all (keptB cid) = true → KeptRun cfg cid f srv es := by
  induction es with
  | nil => intro _ _; trivial
  | cons e es ih =>
    intro srv h
    simp only [List.all_cons, Bool.and_eq_true] at h
    refine ⟨⟨keepsSession_check ?_, ?_, ?_⟩, ih _ h.2⟩
    · have h1 := h.1
      unfold keptB at h1
      split at h1 <;> simp_all
    · rintro c p _ rfl
      simp [keptB] at h
    · rintro c p _ rfl
      simp [keptB] at h

/-- Whether no task panics during a history, computed. -/
def panicFreeB (cfg : AuthConfig) : Server → List Event → Bool
  | _, [] => true
  | srv, e :: es => !(srv.step cfg e).2.panicked && panicFreeB cfg (srv.step cfg e).1 es

theorem panicFreeB_sound (cfg : AuthConfig) (es : List Event) : ∀ srv : Server,
    panicFreeB cfg srv es = true → PanicFree cfg srv es := by
  induction es with
  | nil => intro _ _; trivial
  | cons e es ih =>
    intro srv h
    simp only [panicFreeB, Bool.and_eq_true, Bool.not_eq_true'] at h
    exact ⟨h.1, ih _ h.2⟩

/-- Client `x` is sent a message and leaves, seventeen messages are published, `x` comes back and is sent
the second of them: the first one has been dropped. -/
example :
    let es : List Event := [.recv 1 (.publish exPublish), .deliver 0 (str "a/+")]
    let away : List Event := .recv 0 (.disconnect ⟨.success, none⟩) :: exBurst.map fun q => .recv 1 (.publish q)
    let back : List Event :=
      [.first 2 (.connect (exConnect (str "x") false)) (str "w") true, .deliver 2 (str "a/+")]
    let srv2 := exStays.run exCfg es
    exXY.Reachable exCfg ∧ exXY.worksFor 0 (str "x") = true ∧ ValidFilter (str "a/+") ∧
    KeptRun exCfg (str "x") (str "a/+") exStays (es ++ away ++ back) ∧
    (∀ q ∈ published exCfg exStays (es ++ away ++ back), ValidTopic q.1) ∧
    PanicFree exCfg exStays (es ++ away ++ back) ∧
    srv2.deliveredFor exCfg (str "x") (str "a/+") away = [] ∧
    (matching (str "a/+") (published exCfg srv2 away)).length = 17 ∧
    (srv2.run exCfg away).deliveredFor exCfg (str "x") (str "a/+") back =
      [.publish { qos := .atLeastOnce, topicName := str "a/+", packetId := some 2, payload := some (str "22") }] := by
  intro es away back srv2
  refine ⟨⟨_, rfl⟩, by decide +kernel, (C23_filter_iff _).mp (by decide +kernel), keptB_sound _ _ _ _ _ (by decide +kernel), ?_,
    panicFreeB_sound _ _ _ (by decide +kernel), by decide +kernel, ?_, by decide +kernel⟩
  · intro q hq
    rw [← C22_publish_topic_iff]
    revert q
    decide +kernel
  · have h : published exCfg srv2 away = exBurst.map fun q => (q.topicName, Session.messageOf q) := by decide +kernel
    rw [h]
    unfold matching
    rw [List.filter_eq_self.mpr]
    · decide +kernel
    · intro x hx
      obtain ⟨q, hq, rfl⟩ := List.mem_map.mp hx
      simpa using (exBurst_fine q hq).2

end Mercurio
