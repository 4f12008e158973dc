import Verif.Lemmas.Order
import Verif.Props.Broker
import Verif.Lemmas.Timed

/-! # C134: whom the server serves first -/

namespace Mercurio

open Spec Server

/-! ## Retained messages that are not looked at -/

theorem filter_erase_unmatched (m : Map Str Message) (t : Str) (P : Str → Bool) (ht : P t = false) :
    (m.erase t).filter (fun e => P e.1) = m.filter fun e => P e.1 := by
  induction m with
  | nil => rfl
  | cons e m ih =>
    have ih' : (Map.erase m t).filter (fun e => P e.1) = m.filter fun e => P e.1 := ih
    unfold Map.erase at ih' ⊢
    rw [List.filter_cons]
    by_cases h : e.1 = t
    · have : P e.1 = false := h ▸ ht
      simp only [h, ne_eq, not_true_eq_false, decide_false, Bool.false_eq_true, if_false]
      rw [List.filter_cons, this]
      simpa using ih'
    · simp only [ne_eq, h, not_false_eq_true, decide_true, if_true]
      rw [List.filter_cons, List.filter_cons, ih']

theorem getRetained_after {f : Str} (hf : ValidFilter f) : ∀ (l : List Effect) (s : MemoryStore),
    (∀ x ∈ l, Effect.touches .retained x = true → ∃ t m, x = .store (.storeRetained t m) ∧ ¬ Matches f t) →
    (storeAfter s l).getRetained f = s.getRetained f
  | [], _, _ => rfl
  | x :: l, s, h => by
    show (storeAfter (storeAfter s [x]) l).getRetained f = _
    rw [getRetained_after hf l _ fun y hy => h y (List.mem_cons_of_mem _ hy)]
    cases hx : Effect.touches .retained x with
    | false =>
      show ((storeAfter s [x]).retained.filter _).map _ = (s.retained.filter _).map _
      rw [keeps_retained s x hx]
    | true =>
      obtain ⟨t, m, rfl, hm⟩ := h x List.mem_cons_self hx
      have ht : topicMatchesFilter t (splitLevels f) = false := by
        cases hb : topicMatchesFilter t (splitLevels f) with
        | false => rfl
        | true => exact absurd ((topicMatches_iff f t hf).mp hb) hm
      show (s.storeRetained t m).getRetained f = _
      cases m with
      | none =>
        show ((s.retained.erase t).filter _).map _ = (s.retained.filter _).map _
        rw [filter_erase_unmatched s.retained t (fun t => topicMatchesFilter t (splitLevels f)) ht]
      | some m =>
        show (((t, m) :: s.retained.erase t).filter _).map _ = (s.retained.filter _).map _
        rw [List.filter_cons]
        simp only [ht, Bool.false_eq_true, if_false]
        rw [filter_erase_unmatched s.retained t (fun t => topicMatchesFilter t (splitLevels f)) ht]

theorem publish_retains {t : Str} {m : Message} {x : Effect} (h : x ∈ publishEffects t m) :
    ∃ y, x = .store (.storeRetained t y) := by
  unfold publishEffects at h
  split at h
  · simp only [List.mem_cons, List.not_mem_nil, or_false] at h
    exact ⟨_, h⟩
  · cases h

/-- What an event of a connection retains is what it publishes. -/
theorem effects_voices (cfg : AuthConfig) {srv : Server} {c : Nat} {s : Session} (hs : srv.at c = some s) {e : Event}
    (he : OfConn c e) {x : Effect} (hx : x ∈ srv.effects cfg e) (ht : Effect.touches .retained x = true) :
    ∃ t m, x = .store (.storeRetained t m) ∧ Voices cfg srv c s e t := by
  obtain ⟨k, hk, hh⟩ : ∃ k, srv.conns.get c = some k ∧ srv.heap.get k.session = some s := by
    unfold Server.at at hs
    split at hs
    · rename_i k hk; exact ⟨k, hk, hs⟩
    · cases hs
  have hfin : ∀ s' : Session, s'.will = s.will → (srv.step cfg e).1.at c = none → x ∈ finishEffects s' →
      ∃ t m, x = .store (.storeRetained t m) ∧ Voices cfg srv c s e t := by
    intro s' hw hend hx
    unfold finishEffects at hx
    rw [hw] at hx
    cases hsw : s.will with
    | none => rw [hsw] at hx; cases hx
    | some w =>
      rw [hsw] at hx
      rcases List.mem_append.mp hx with hx | hx
      · obtain ⟨y, hy⟩ := publish_retains hx
        exact ⟨_, y, hy, Or.inr ⟨hend, w, hsw, rfl⟩⟩
      · simp only [List.mem_cons, List.not_mem_nil, or_false] at hx
        subst hx
        cases ht
  have gone : ∀ (q : Server) (r : Nat) (s' : Session), (q.finish c r s').at c = none := by
    intro q r s'
    unfold Server.at
    rw [conns_finish, Map.get_erase, if_pos rfl]
  rcases he with ⟨p, rfl⟩ | ⟨f, rfl⟩ | rfl | rfl
  · simp only [Server.effects, Server.onConnEffects, hk, hh] at hx
    by_cases hd : ∃ d, p = .disconnect d
    · obtain ⟨d, rfl⟩ := hd
      simp only [Server.recvEffects, finishEffects, List.mem_cons, List.not_mem_nil, or_false] at hx
      subst hx
      cases ht
    · rw [recvEffects_eq cfg srv c s p (fun d h => hd ⟨d, h⟩)] at hx
      have hhandle : x ∈ handleEffects p → ∃ t m, x = .store (.storeRetained t m) ∧ Voices cfg srv c s (.recv c p) t := by
        intro hx
        cases p with
        | publish p =>
          simp only [handleEffects] at hx
          split at hx
          · cases hx
          · obtain ⟨y, hy⟩ := publish_retains hx
            exact ⟨_, y, hy, Or.inl ⟨p, rfl, rfl⟩⟩
        | _ => cases hx
      cases hr : (s.processIncoming srv.world cfg.manager c p).result with
      | error er =>
        rw [hr] at hx
        rcases List.mem_append.mp hx with hx | hx
        · exact hhandle hx
        · refine hfin _ (processIncoming_keeps s srv.world cfg.manager c p).1 ?_ hx
          have : (srv.step cfg (.recv c p)).1 = (srv.recv cfg c k.session s p).1 := by
            simp only [Server.step, Server.onConn, hk, hh]
          rw [this]
          cases p with
          | disconnect d => exact absurd ⟨d, rfl⟩ hd
          | _ => simp only [Server.recv, hr]; exact gone _ _ _
      | ok res =>
        rw [hr] at hx
        rcases List.mem_append.mp hx with hx | hx
        · rcases List.mem_append.mp hx with hx | hx
          · exact hhandle hx
          · cases p <;> simp only [saveEffects, List.mem_cons, List.not_mem_nil, or_false] at hx <;> (subst hx; cases ht)
        · obtain ⟨y, _, rfl⟩ := List.mem_map.mp hx
          cases ht
  · simp only [Server.effects, Server.onConnEffects, hk, hh, Server.deliverEffects] at hx
    split at hx
    · rcases List.mem_append.mp hx with hx | hx
      · unfold outgoingEffects at hx
        split at hx
        · cases hx
        · split at hx <;> simp only [List.mem_cons, List.not_mem_nil, or_false] at hx <;> (subst hx; cases ht)
      · simp only [List.mem_cons, List.not_mem_nil, or_false] at hx
        subst hx; cases ht
    · cases hx
  · simp only [Server.effects, Server.onConnEffects, hk, hh] at hx
    refine hfin s rfl ?_ hx
    simp only [Server.step, Server.onConn, hk, hh]
    exact gone _ _ _
  · cases hx

/-! ## Servers -/

/-- An event of a connection, as a change. -/
theorem step_plan {cfg : AuthConfig} {srv : Server} (h : srv.Reachable cfg) (hw : (plainOf srv).Fair) {c : Nat} {k : Conn} {s : Session}
    (hk : srv.conns.get c = some k) (hs : srv.heap.get k.session = some s) {e : Event} (he : OfConn c e) :
    plainOf (srv.step cfg e).1 =
      (plan cfg srv.store.getRetained (profileOf srv.world.broker.tree s) e).1.on c k.session s.clientId (plainOf srv) ∧
    (srv.step cfg e).2 = (plan cfg srv.store.getRetained (profileOf srv.world.broker.tree s) e).2 := by
  refine does_plan cfg _ he (who_open hk hs) (step_plain (able_reachable h) hw h.inv e) ?_
  rintro q rfl s' hs' f hf hv
  have hst : (srv.step cfg (.recv c (.subscribe q))).1 = (srv.recv cfg c k.session s (.subscribe q)).1 := by
    simp only [Server.step, Server.onConn, hk, hs]
  rw [hst] at hs'
  obtain ⟨st, h1, h2⟩ := (subscribeLoop_get (q.payload.map (·.topicFilter)) s srv.world f).1 ⟨hf, hv⟩
  have : s' = profileOf (s.subscribeLoop srv.world (q.payload.map (·.topicFilter))).2.1.broker.tree
      (s.subscribeLoop srv.world (q.payload.map (·.topicFilter))).1 := by
    change ((srv.heap.insert k.session (s.subscribeLoop srv.world (q.payload.map (·.topicFilter))).1).get k.session).map
      (profileOf (s.subscribeLoop srv.world (q.payload.map (·.topicFilter))).2.1.broker.tree) = some s' at hs'
    rw [Map.get_insert, if_pos rfl, Option.map_some, Option.some.injEq] at hs'
    exact hs'.symm
  rw [this]
  simp only [profileOf, h1, Option.map_some]
  rw [fresh_box h2, (subscribeLoop_world _ s srv.world).1]
  rfl

theorem open_of_at {srv : Server} {c : Nat} {s : Session} (h : srv.at c = some s) :
    ∃ k, srv.conns.get c = some k ∧ srv.heap.get k.session = some s := by
  unfold Server.at at h
  split at h
  · rename_i k hk; exact ⟨k, hk, h⟩
  · cases h

/-- The topics of what an event publishes. -/
theorem says_voices {cfg : AuthConfig} {srv : Server} (h : srv.Reachable cfg) (hw : (plainOf srv).Fair) {c : Nat} {k : Conn} {s : Session}
    (hk : srv.conns.get c = some k) (hs : srv.heap.get k.session = some s) {e : Event} (he : OfConn c e) {q : Str × Message}
    (hq : q ∈ (plan cfg srv.store.getRetained (profileOf srv.world.broker.tree s) e).1.says) : Voices cfg srv c s e q.1 := by
  rcases plan_says cfg _ _ he hq with h1 | ⟨h1, w, h2, h3⟩
  · exact Or.inl h1
  · refine Or.inr ⟨?_, w, h2, h3⟩
    have := congrArg (fun b => b.conn c) (step_plan h hw hk hs he).1
    simp only [Change.on, h1, if_true, upd_same] at this
    have hn : (srv.step cfg e).1.conns.get c = none := by
      simpa [plainOf] using this
    unfold Server.at
    rw [hn]

/-- The second of two events that have nothing to do with each other does what it would have done alone. -/
theorem second_plan {cfg : AuthConfig} {srv : Server} (h : srv.Reachable cfg) (hw : (plainOf srv).Fair) {c1 c2 : Nat} {k1 k2 : Conn}
    {s1 s2 : Session} (hk1 : srv.conns.get c1 = some k1) (hs1 : srv.heap.get k1.session = some s1)
    (hk2 : srv.conns.get c2 = some k2) (hs2 : srv.heap.get k2.session = some s2) {e1 e2 : Event} (he1 : OfConn c1 e1) (he2 : OfConn c2 e2)
    (hc : c1 ≠ c2) (hn : k1.session ≠ k2.session) (ha : ∀ t f, Voices cfg srv c1 s1 e1 t → Heeds c2 e2 f → ¬ Matches f t) :
    plainOf ((srv.step cfg e1).1.step cfg e2).1 =
      (plan cfg srv.store.getRetained (profileOf srv.world.broker.tree s2) e2).1.on c2 k2.session s2.clientId
        (plainOf (srv.step cfg e1).1) ∧
    ((srv.step cfg e1).1.step cfg e2).2 = (plan cfg srv.store.getRetained (profileOf srv.world.broker.tree s2) e2).2 := by
  obtain ⟨p1, _⟩ := step_plan h hw hk1 hs1 he1
  have hd := step_plain (cfg := cfg) (able_reachable h) hw h.inv e1
  have hw' : (plainOf (srv.step cfg e1).1).Fair := by
    refine hw.does ?_ hd
    rintro c p uuid written w rfl
    rcases he1 with ⟨_, h⟩ | ⟨_, h⟩ | h | h <;> cases h
  have hr' : (srv.step cfg e1).1.Reachable cfg := by
    obtain ⟨l, rfl⟩ := h
    exact ⟨l ++ [e1], (run_snoc cfg _ l e1).symm⟩
  have hret : ∀ f, Heeds c2 e2 f → ValidFilter f → (srv.step cfg e1).1.store.getRetained f = srv.store.getRetained f := by
    intro f hf hv
    rw [(whole_effects cfg srv e1).1]
    refine getRetained_after hv _ _ fun x hx ht => ?_
    have hat : srv.at c1 = some s1 := by unfold Server.at; rw [hk1]; exact hs1
    obtain ⟨t, m, h1, h2⟩ := effects_voices cfg hat he1 hx ht
    exact ⟨t, m, h1, ha t f h2 hf⟩
  have hsay := fun q hq => says_voices (q := q) h hw hk1 hs1 he1 hq
  generalize (plan cfg srv.store.getRetained (profileOf srv.world.broker.tree s1) e1).1 = x at p1 hsay
  have hconn : (plainOf (srv.step cfg e1).1).conn c2 = some k2.session := by
    rw [p1]
    simp only [Change.on]
    split
    · simp only [upd]; rw [if_neg hc.symm]; simp [plainOf, hk2]
    · simp [plainOf, hk2]
  have hacc : (plainOf (srv.step cfg e1).1).account k2.session = some (heard x.says (profileOf srv.world.broker.tree s2)) := by
    rw [p1]
    simp only [Change.on]
    rw [show (plainOf srv).account k2.session = some (profileOf srv.world.broker.tree s2) by simp [plainOf, hs2]]
    simp only [Option.map_some, if_neg hn.symm]
  obtain ⟨k', hk', hkk⟩ : ∃ k', (srv.step cfg e1).1.conns.get c2 = some k' ∧ k'.session = k2.session := by
    simpa [plainOf] using hconn
  obtain ⟨s', hs', hp'⟩ : ∃ s', (srv.step cfg e1).1.heap.get k2.session = some s' ∧
      profileOf (srv.step cfg e1).1.world.broker.tree s' = heard x.says (profileOf srv.world.broker.tree s2) := by
    simpa [plainOf] using hacc
  have hname : s'.clientId = s2.clientId := congrArg Profile.name hp'
  have := step_plan hr' hw' hk' (by rw [hkk]; exact hs') he2
  rw [hp', plan_heard cfg _ x.says he2 (fun f hf q hq => ha q.1 f (hsay q hq) hf) hret, hkk, hname] at this
  exact this

theorem trace_append (cfg : AuthConfig) (l1 l2 : List Event) : ∀ srv : Server,
    srv.trace cfg (l1 ++ l2) = srv.trace cfg l1 ++ (srv.run cfg l1).trace cfg l2 := by
  induction l1 with
  | nil => intro srv; rfl
  | cons e l1 ih => intro srv; simp only [List.cons_append, Server.trace, ih]; rfl

theorem Apart.symm {cfg : AuthConfig} {srv : Server} {c1 c2 : Nat} {s1 s2 : Session} {e1 e2 : Event}
    (h : Apart cfg srv c1 s1 e1 c2 s2 e2) : Apart cfg srv c2 s2 e2 c1 s1 e1 :=
  ⟨fun t1 t2 h1 h2 => ⟨(h.1 t2 t1 h2 h1).1.symm, fun r s f hr hf hm => (h.1 t2 t1 h2 h1).2 r s f hr hf hm.symm⟩, h.2.2, h.2.1⟩

/-- C134: whom the server serves first makes no difference, unless they have to do with each other.  After every history, take an
event of one client and an event of another one (packets, messages sent, ends of connections), that publish nothing to the
same topic or subscription and nothing the other is about to look at.  In either order, each of them is answered the same, and
what the server knows afterwards is the same: the same state of the plain broker explains all that happens from then on. -/
theorem C134_order (cfg : AuthConfig) (es : List Event) (hp : ProperWills es) {c1 c2 : Nat} {s1 s2 : Session} {e1 e2 : Event}
    (h1 : (Server.init.run cfg es).at c1 = some s1) (h2 : (Server.init.run cfg es).at c2 = some s2)
    (he1 : OfConn c1 e1) (he2 : OfConn c2 e2) (hne : s1.clientId ≠ s2.clientId)
    (ha : Apart cfg (Server.init.run cfg es) c1 s1 e1 c2 s2 e2) :
    let srv := Server.init.run cfg es
    ((srv.step cfg e2).1.step cfg e1).2 = (srv.step cfg e1).2 ∧
    ((srv.step cfg e1).1.step cfg e2).2 = (srv.step cfg e2).2 ∧
    ∃ b, ∀ order ∈ [[e1, e2], [e2, e1]], Plain.new.Goes cfg (Server.init.trace cfg (es ++ order)) b ∧
      ∀ later, ProperWills later → ∃ b', b.Goes cfg ((Server.init.run cfg (es ++ order)).trace cfg later) b' := by
  intro srv
  have hr : srv.Reachable cfg := ⟨es, rfl⟩
  have hnew : Plain.new.Fair := ⟨fun n s w hs => (by cases hs), fun name w hw => (by cases hw)⟩
  have fair : ∀ (l : List Event) (q : Server), q.Reachable cfg → (plainOf q).Fair → ProperWills l → (plainOf (q.run cfg l)).Fair := by
    intro l
    induction l with
    | nil => intro q _ h _; exact h
    | cons e l ih =>
      intro q hq hf hl
      refine ih _ ?_ (hf.does ?_ (step_plain (cfg := cfg) (able_reachable hq) hf hq.inv e)) fun c p uuid written w hm hw => hl c p uuid written w (by simp [hm]) hw
      · obtain ⟨l', rfl⟩ := hq
        exact ⟨l' ++ [e], (run_snoc cfg _ l' e).symm⟩
      · rintro c p uuid written w rfl hw
        exact hl c p uuid written w (by simp) hw
  have hw : (plainOf srv).Fair := fair es Server.init ⟨[], rfl⟩ hnew hp
  obtain ⟨k1, hk1, hs1⟩ := open_of_at h1
  obtain ⟨k2, hk2, hs2⟩ := open_of_at h2
  have hn : k1.session ≠ k2.session := by
    intro e
    have hs1' : srv.heap.get k1.session = some s1 := hs1
    rw [e, show srv.heap.get k2.session = some s2 from hs2] at hs1'
    cases hs1'
    exact hne rfl
  have hc : c1 ≠ c2 := by
    rintro rfl
    rw [hk1] at hk2
    cases hk2
    exact hn rfl
  obtain ⟨a1, a2⟩ := step_plan hr hw hk1 hs1 he1
  obtain ⟨b1, b2⟩ := step_plan hr hw hk2 hs2 he2
  obtain ⟨ab1, ab2⟩ := second_plan hr hw hk1 hs1 hk2 hs2 he1 he2 hc hn ha.2.1
  obtain ⟨ba1, ba2⟩ := second_plan hr hw hk2 hs2 hk1 hs1 he2 he1 hc.symm hn.symm ha.2.2
  have v1 := fun q hq => says_voices (q := q) hr hw hk1 hs1 he1 hq
  have v2 := fun q hq => says_voices (q := q) hr hw hk2 hs2 he2 hq
  have same : plainOf ((srv.step cfg e1).1.step cfg e2).1 = plainOf ((srv.step cfg e2).1.step cfg e1).1 := by
    rw [ab1, ba1, a1, b1]
    refine Change.comm hc hn hne (fun q1 h1 q2 h2 => (ha.1 _ _ (v1 q1 h1) (v2 q2 h2)).1) ?_
      (plan_commutes cfg _ _ _ he1 fun f hf q hq => ha.2.2 q.1 f (v2 q hq) hf)
      (plan_commutes cfg _ _ _ he2 fun f hf q hq => ha.2.1 q.1 f (v1 q hq) hf)
    intro n s f hs hf q1 h1 q2 h2
    obtain ⟨s0, hs0, rfl⟩ : ∃ s0, srv.heap.get n = some s0 ∧ profileOf srv.world.broker.tree s0 = s := by
      simpa [plainOf] using hs
    exact (ha.1 _ _ (v1 q1 h1) (v2 q2 h2)).2 n s0 f hs0 ((filters_boxes _ s0 f).mpr hf)
  have proper : ∀ order ∈ [[e1, e2], [e2, e1]], ProperWills (es ++ order) := by
    intro order ho c p uuid written w hm hwill
    rcases List.mem_append.mp hm with hm | hm
    · exact hp c p uuid written w hm hwill
    · exfalso
      have : .first c (.connect p) uuid written = e1 ∨ .first c (.connect p) uuid written = e2 := by
        simp only [List.mem_cons, List.not_mem_nil, or_false] at ho
        rcases ho with rfl | rfl <;> simp only [List.mem_cons, List.not_mem_nil, or_false] at hm
        · exact hm
        · exact hm.symm
      rcases this with rfl | rfl
      · rcases he1 with ⟨_, h⟩ | ⟨_, h⟩ | h | h <;> cases h
      · rcases he2 with ⟨_, h⟩ | ⟨_, h⟩ | h | h <;> cases h
  refine ⟨ba2.trans a2.symm, ab2.trans b2.symm, plainOf ((srv.step cfg e1).1.step cfg e2).1, fun order ho => ?_⟩
  have hend : plainOf (Server.init.run cfg (es ++ order)) = plainOf ((srv.step cfg e1).1.step cfg e2).1 := by
    simp only [List.mem_cons, List.not_mem_nil, or_false] at ho
    rw [Server.run_append]
    rcases ho with rfl | rfl
    · rfl
    · exact same.symm
  have hp' := proper order ho
  rw [← hend]
  exact ⟨goes_plain _ _ ⟨[], rfl⟩ hnew hp', fun later hl =>
    ⟨_, goes_plain later _ ⟨es ++ order, rfl⟩ (fair _ _ ⟨[], rfl⟩ hnew hp') hl⟩⟩

/-! ## Examples -/

/-- A publication that nobody has subscribed to. -/
def exElsewhere : PublishPacket := { exPublish with topicName := str "z", retain := true }

theorem exMorning_proper : ProperWills (exDay.take 3) :=
  fun c p uuid written w hm hw => exDay_proper c p uuid written w (List.mem_of_mem_take hm) hw

/-- Both clients publish, the second one to a subscriber of the first. -/
example : ∃ s1 s2, (Server.init.run exCfg (exDay.take 3)).at 0 = some s1 ∧ (Server.init.run exCfg (exDay.take 3)).at 1 = some s2 ∧
    s1.clientId ≠ s2.clientId ∧
    Apart exCfg (Server.init.run exCfg (exDay.take 3)) 0 s1 (.recv 0 (.publish exElsewhere)) 1 s2 (.recv 1 (.publish exPublish)) := by
  have hx : ((Server.init.run exCfg (exDay.take 3)).at 0).map (·.clientId) = some (str "x") := by decide +kernel
  have hy : ((Server.init.run exCfg (exDay.take 3)).at 1).map (·.clientId) = some (str "y") := by decide +kernel
  obtain ⟨s1, h1, n1⟩ := Option.map_eq_some_iff.mp hx
  obtain ⟨s2, h2, n2⟩ := Option.map_eq_some_iff.mp hy
  refine ⟨s1, s2, h1, h2, by rw [n1, n2]; decide, fun t1 t2 v1 v2 => ?_, ?_, ?_⟩
  · have e1 : t1 = str "z" := by
      rcases v1 with ⟨p, hp, ht⟩ | ⟨hn, _⟩
      · cases hp; exact ht
      · have : ((Server.init.run exCfg (exDay.take 3)).step exCfg (.recv 0 (.publish exElsewhere))).1.at 0 ≠ none := by decide +kernel
        exact absurd hn this
    have e2 : t2 = exPublish.topicName := by
      rcases v2 with ⟨p, hp, ht⟩ | ⟨hn, _⟩
      · cases hp; exact ht
      · have : ((Server.init.run exCfg (exDay.take 3)).step exCfg (.recv 1 (.publish exPublish))).1.at 1 ≠ none := by decide +kernel
        exact absurd hn this
    subst e1 e2
    refine ⟨by decide +kernel, fun r s f hr hf hm => ?_⟩
    have hall : ∀ x ∈ (Server.init.run exCfg (exDay.take 3)).heap, ∀ f ∈ x.2.filters,
        validateSubscribeFilter f = .ok () ∧ topicMatchesFilter (str "z") (splitLevels f) = false := by decide +kernel
    obtain ⟨g1, g2⟩ := hall _ (mem_of_get hr) f hf
    rw [(topicMatches_iff f _ ((C23_filter_iff f).mp g1)).mpr hm.1] at g2
    cases g2
  · rintro t f _ (⟨p, hp, _⟩ | hp) <;> cases hp
  · rintro t f _ (⟨p, hp, _⟩ | hp) <;> cases hp

example : OfConn 0 (.recv 0 (.publish exElsewhere)) ∧ OfConn 1 (.recv 1 (.publish exPublish)) := ⟨Or.inl ⟨_, rfl⟩, Or.inl ⟨_, rfl⟩⟩

/-- Where two publications meet in a subscription, the order matters: the subscriber gets the first one first. -/
example : let srv := Server.init.run exCfg (exDay.take 3)
    let other : Event := .recv 0 (.publish { exPublish with payload := some (str "23") })
    let this : Event := .recv 1 (.publish exPublish)
    ((srv.run exCfg [other, this]).step exCfg (.deliver 0 (str "a/+"))).2 ≠
      ((srv.run exCfg [this, other]).step exCfg (.deliver 0 (str "a/+"))).2 := by decide +kernel

end Mercurio
