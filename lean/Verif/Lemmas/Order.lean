import Verif.Props.Plain
import Verif.Props.Crash
import Verif.Spec.Order

/-!
# Events of different clients

What an event of one connection does to a plain broker, as one change that depends on little, and when two such changes
commute.
-/

namespace Mercurio

open Spec Server Classical

/-- The messages a mailbox is given. -/
noncomputable def feed (f : Str) (ms : List (Str × Message)) (x : Mailbox) : Mailbox :=
  ms.foldl (fun x q => if Matches f q.1 then x.put q.2 else x) x

/-- What the messages do to an account. -/
noncomputable def heard (ms : List (Str × Message)) (s : Profile) : Profile :=
  { s with boxes := fun f => (s.boxes f).map (feed f ms) }

/-- What the messages do to the retained ones. -/
noncomputable def keepAll (ms : List (Str × Message)) (r : Str → Option Message) : Str → Option Message :=
  ms.foldl (fun r q => if q.2.retain then upd r q.1 (if q.2.payload.getD [] = [] then none else some q.2) else r) r

/-- What an event of a connection does. -/
structure Change where
  says : List (Str × Message) := []
  g : Profile → Profile := id
  kept : Option (Str → Prop) := none
  noWill : Bool := false
  note : Option (UInt16 × Option Inflight) := none
  ends : Bool := false

/-- The broker after the change. -/
noncomputable def Change.on (ch : Change) (c n : Nat) (name : Str) (b : Plain) : Plain where
  retained := keepAll ch.says b.retained
  kept := match ch.kept with
    | none => b.kept
    | some k => upd b.kept name (some k)
  wills := if ch.noWill then upd b.wills name none else b.wills
  unacked := match ch.note with
    | none => b.unacked
    | some x => upd b.unacked name (upd (b.unacked name) x.1 x.2)
  known := b.known
  account x := (b.account x).map fun s => if x = n then ch.g (heard ch.says s) else heard ch.says s
  conn := if ch.ends then upd b.conn c none else b.conn

/-- The end of a connection. -/
def hang (s : Profile) : Change :=
  match s.will with
  | none => { ends := true }
  | some w => { says := [(w.topic, ⟨none, w.topic, false, w.qos, w.retain, some w.payload⟩)]
                g := fun s => { s with will := none }
                noWill := true
                ends := true }

/-- The mailboxes after subscribing. -/
noncomputable def opened (R : Str → List Message) (fs : List Str) (s : Profile) : Profile :=
  { s with boxes := fun f => if f ∈ fs ∧ ValidFilter f then some ⟨R f, []⟩ else s.boxes f }

/-- The mailboxes after unsubscribing. -/
noncomputable def closed (fs : List Str) (s : Profile) : Profile :=
  { s with boxes := fun f => if f ∈ fs then none else s.boxes f }

/-- What a packet does. -/
noncomputable def packetPlan (cfg : AuthConfig) (R : Str → List Message) (s : Profile) : Packet → Change × List Packet
  | .publish p =>
    if ValidTopic p.topicName then
      let q := (p.topicName, (⟨p.packetId, p.topicName, p.dup, p.qos, p.retain, p.payload⟩ : Message))
      match p.qos, p.packetId with
      | .atMostOnce, _ => ({ says := [q] }, [])
      | .atLeastOnce, some id => ({ says := [q] }, [.pubAck { packetId := id }])
      | .exactlyOnce, some id => ({ says := [q] }, [.pubRec { packetId := id }])
      | _, _ => ({ hang s with says := q :: (hang s).says }, [])
    else (hang s, [])
  | .pubAck a => ({ note := some (a.packetId, none) }, [])
  | .pubComp a => ({ note := some (a.packetId, none) }, [])
  | .pubRec a => ({}, [.pubRel { packetId := a.packetId }])
  | .pubRel a => ({}, [.pubComp { packetId := a.packetId }])
  | .subscribe p =>
    ({ g := opened R (p.payload.map (·.topicFilter))
       kept := some fun f => (opened R (p.payload.map (·.topicFilter)) s).boxes f ≠ none },
      [.subAck { protocolVersion := s.version, packetId := p.packetId
                 payload := p.payload.map fun x => subscribeCode x.topicFilter }])
  | .unsubscribe p =>
    ({ g := closed p.payload, kept := some fun f => (closed p.payload s).boxes f ≠ none },
      [.unsubAck { protocolVersion := s.version, packetId := p.packetId, payload := Plain.codes s.boxes p.payload }])
  | .pingReq => ({}, [.pingResp])
  | .disconnect _ => ({ g := fun s => { s with will := none }, noWill := true, ends := true }, [])
  | .auth p =>
    match cfg.manager with
    | none => (hang s, [])
    | some m =>
      let r := Plain.authStep m s.auth p
      match r.2 with
      | none => ({ hang s with g := fun x => (hang s).g { x with auth := r.1 } }, [])
      | some x => ({ g := fun s => { s with auth := r.1 } }, [x])
  | _ => (hang s, [])

/-- What sending the next message of a mailbox does. -/
noncomputable def sendPlan (s : Profile) (f : Str) : Change × Out :=
  match s.boxes f with
  | none => ({}, {})
  | some box =>
    match box.take with
    | (none, _) => ({}, {})
    | (some m, rest) =>
      let g : Profile → Profile := fun s => { s with boxes := upd s.boxes f (some rest) }
      match m.packetId, m.qos with
      | some _, .invalid => ({ g := g, ends := true }, { panicked := true })
      | some id, .atLeastOnce => ({ g := g, note := some (id, some ⟨id, f, m.payload, m.qos, m.dup⟩) }, { sent := [forwarded f m] })
      | some id, .exactlyOnce => ({ g := g, note := some (id, some ⟨id, f, m.payload, m.qos, m.dup⟩) }, { sent := [forwarded f m] })
      | _, _ => ({ g := g }, { sent := [forwarded f m] })

/-- What an event of a connection does. -/
noncomputable def plan (cfg : AuthConfig) (R : Str → List Message) (s : Profile) : Event → Change × Out
  | .recv _ p => ((packetPlan cfg R s p).1, { sent := (packetPlan cfg R s p).2 })
  | .deliver _ f => sendPlan s f
  | .close _ => (hang s, {})
  | .abort _ => ({ ends := true }, {})
  | _ => ({}, {})

/-! ## Messages -/

theorem feed_nil {f : Str} {ms : List (Str × Message)} (h : ∀ q ∈ ms, ¬ Matches f q.1) (x : Mailbox) : feed f ms x = x := by
  induction ms generalizing x with
  | nil => rfl
  | cons q ms ih =>
    show feed f ms (if Matches f q.1 then x.put q.2 else x) = x
    rw [if_neg (h q List.mem_cons_self)]
    exact ih (fun q hq => h q (List.mem_cons_of_mem _ hq)) x

theorem feed_swap {f : Str} {m1 m2 : List (Str × Message)} (h : ∀ q1 ∈ m1, ∀ q2 ∈ m2, ¬ (Matches f q1.1 ∧ Matches f q2.1))
    (x : Mailbox) : feed f m1 (feed f m2 x) = feed f m2 (feed f m1 x) := by
  by_cases h1 : ∀ q ∈ m1, ¬ Matches f q.1
  · rw [feed_nil h1, feed_nil h1]
  · have h2 : ∀ q ∈ m2, ¬ Matches f q.1 := by
      intro q2 hq2 hm
      apply h1
      intro q1 hq1 hm1
      exact h q1 hq1 q2 hq2 ⟨hm1, hm⟩
    rw [feed_nil h2, feed_nil h2]

theorem heard_swap {m1 m2 : List (Str × Message)} {s : Profile}
    (h : ∀ f, s.boxes f ≠ none → ∀ q1 ∈ m1, ∀ q2 ∈ m2, ¬ (Matches f q1.1 ∧ Matches f q2.1)) :
    heard m1 (heard m2 s) = heard m2 (heard m1 s) := by
  have : (heard m1 (heard m2 s)).boxes = (heard m2 (heard m1 s)).boxes := by
    funext f
    simp only [heard, Option.map_map]
    cases hb : s.boxes f with
    | none => rfl
    | some x => simp only [Option.map_some, Function.comp]; rw [feed_swap (h f (by simp [hb]))]
  ext1 <;> first | rfl | exact this

theorem keepAll_at {ms : List (Str × Message)} {t : Str} (h : ∀ q ∈ ms, q.1 ≠ t) (r : Str → Option Message) :
    keepAll ms r t = r t := by
  induction ms generalizing r with
  | nil => rfl
  | cons q ms ih =>
    show keepAll ms (if q.2.retain then upd r q.1 (if q.2.payload.getD [] = [] then none else some q.2) else r) t = r t
    rw [ih (fun q hq => h q (List.mem_cons_of_mem _ hq))]
    split
    · simp only [upd]; rw [if_neg (Ne.symm (h q List.mem_cons_self))]
    · rfl

theorem keepAll_congr (ms : List (Str × Message)) {t : Str} {r r' : Str → Option Message} (h : r t = r' t) :
    keepAll ms r t = keepAll ms r' t := by
  induction ms generalizing r r' with
  | nil => exact h
  | cons q ms ih =>
    refine ih ?_
    simp only []
    split
    · simp only [upd]; split <;> first | rfl | exact h
    · exact h

theorem keepAll_swap {m1 m2 : List (Str × Message)} (h : ∀ q1 ∈ m1, ∀ q2 ∈ m2, q1.1 ≠ q2.1) (r : Str → Option Message) :
    keepAll m1 (keepAll m2 r) = keepAll m2 (keepAll m1 r) := by
  funext t
  by_cases h1 : ∀ q ∈ m1, q.1 ≠ t
  · rw [keepAll_at h1]
    exact keepAll_congr m2 (keepAll_at h1 r).symm
  · have h2 : ∀ q ∈ m2, q.1 ≠ t := by
      intro q2 hq2 e2
      apply h1
      intro q1 hq1 e1
      exact h q1 hq1 q2 hq2 (e1.trans e2.symm)
    rw [keepAll_at h2]
    exact keepAll_congr m1 (keepAll_at h2 r)

theorem heard_nil (s : Profile) : heard [] s = s := by
  have : (heard [] s).boxes = s.boxes := by funext f; simp only [heard]; cases s.boxes f <;> rfl
  ext1 <;> first | rfl | exact this

theorem heard_cons (q : Str × Message) (ms : List (Str × Message)) (s : Profile) : heard (q :: ms) s = heard ms (heard [q] s) := by
  have : (heard (q :: ms) s).boxes = (heard ms (heard [q] s)).boxes := by
    funext f; simp only [heard]; cases s.boxes f <;> rfl
  ext1 <;> first | rfl | exact this

/-! ## Changes -/

theorem upd_comm {α β : Type} (f : α → β) {a a' : α} (h : a ≠ a') (b b' : β) : upd (upd f a b) a' b' = upd (upd f a' b') a b := by
  funext x
  simp only [upd]
  by_cases h1 : x = a
  · subst h1; simp [h]
  · simp [h1]

/-- When two changes commute. -/
theorem Change.comm {x y : Change} {c1 c2 n1 n2 : Nat} {name1 name2 : Str} {b : Plain} (hc : c1 ≠ c2) (hn : n1 ≠ n2)
    (hname : name1 ≠ name2) (hsays : ∀ q1 ∈ x.says, ∀ q2 ∈ y.says, q1.1 ≠ q2.1)
    (hb : ∀ n s f, b.account n = some s → s.boxes f ≠ none → ∀ q1 ∈ x.says, ∀ q2 ∈ y.says, ¬ (Matches f q1.1 ∧ Matches f q2.1))
    (h1 : ∀ s, heard y.says (x.g s) = x.g (heard y.says s)) (h2 : ∀ s, heard x.says (y.g s) = y.g (heard x.says s)) :
    y.on c2 n2 name2 (x.on c1 n1 name1 b) = x.on c1 n1 name1 (y.on c2 n2 name2 b) := by
  ext1
  · exact (keepAll_swap hsays b.retained).symm
  · simp only [Change.on]
    cases x.kept <;> cases y.kept <;> first | rfl | exact upd_comm _ hname _ _
  · simp only [Change.on]
    cases x.noWill <;> cases y.noWill <;> first | rfl | exact upd_comm _ hname _ _
  · simp only [Change.on]
    cases x.note <;> cases y.note <;> first | rfl | skip
    rename_i p q
    have e1 : ∀ v, upd b.unacked name1 v name2 = b.unacked name2 := fun v => by simp [upd, hname.symm]
    have e2 : ∀ v, upd b.unacked name2 v name1 = b.unacked name1 := fun v => by simp [upd, hname]
    simp only [e1, e2]
    exact upd_comm _ hname _ _
  · rfl
  · funext n
    simp only [Change.on, Option.map_map]
    cases ha : b.account n with
    | none => rfl
    | some s =>
      have hsw := heard_swap (m1 := x.says) (m2 := y.says) (s := s) (fun f hf => hb n s f ha hf)
      simp only [Option.map_some, Function.comp, Option.some.injEq]
      by_cases e1 : n = n1
      · have e2 : n ≠ n2 := fun e => hn (e1.symm.trans e)
        simp only [if_pos e1, if_neg e2, h1, hsw]
      · by_cases e2 : n = n2
        · simp only [if_pos e2, if_neg e1, h2, hsw]
        · simp only [if_neg e1, if_neg e2, hsw]
  · simp only [Change.on]
    cases x.ends <;> cases y.ends <;> first | rfl | exact upd_comm _ hc _ _

/-! ## Events are changes -/

theorem on_none (c n : Nat) (name : Str) (b : Plain) : ({} : Change).on c n name b = b := by
  ext1 <;> first | rfl | skip
  funext x
  simp only [Change.on, id, heard_nil, ite_self]
  cases b.account x <;> rfl

theorem on_publish (ch : Change) (c n : Nat) (name : Str) (b : Plain) (t : Str) (m : Message) :
    ch.on c n name (b.publish t m) = { ch with says := (t, m) :: ch.says }.on c n name b := by
  ext1 <;> first | rfl | skip
  funext x
  simp only [Change.on, Plain.publish, Option.map_map]
  cases b.account x with
  | none => rfl
  | some s =>
    simp only [Option.map_some, Function.comp, Option.some.injEq]
    rw [heard_cons (t, m) ch.says s]
    rfl

theorem on_modify (ch : Change) (c n : Nat) (name : Str) (b : Plain) (h : Profile → Profile)
    (hh : ∀ s, heard ch.says (h s) = h (heard ch.says s)) :
    ch.on c n name (b.modify n h) = { ch with g := fun s => ch.g (h s) }.on c n name b := by
  ext1 <;> first | rfl | skip
  funext x
  simp only [Change.on, Plain.modify, upd]
  by_cases e : x = n
  · subst e
    simp only [if_true, Option.map_map]
    cases b.account x with
    | none => rfl
    | some s => simp only [Option.map_some, Function.comp, hh]
  · simp only [if_neg e]

theorem on_hang {b : Plain} {c n : Nat} {s : Profile} (hw : b.who c = some (n, s)) : (hang s).on c n s.name b = b.hangUp c := by
  unfold Plain.hangUp hang
  rw [hw]
  simp only []
  cases s.will with
  | none =>
    ext1 <;> first | rfl | skip
    funext x
    simp only [Change.on, id, heard_nil, ite_self, Plain.drop]
    cases b.account x <;> rfl
  | some w =>
    ext1 <;> first | rfl | skip
    funext x
    simp only [Change.on, Plain.drop, Plain.modify, Plain.publish, upd, if_true]
    by_cases e : x = n
    · subst e
      simp only [if_true, Option.map_map]
      cases b.account x <;> rfl
    · simp only [if_neg e]
      cases b.account x <;> rfl

theorem who_account {b : Plain} {c n : Nat} {s : Profile} (hw : b.who c = some (n, s)) :
    b.conn c = some n ∧ b.account n = some s := by
  unfold Plain.who at hw
  rcases h1 : b.conn c with _ | k
  · simp [h1] at hw
  · rcases h2 : b.account k with _ | s'
    · simp [h1, h2] at hw
    · simp only [h1, h2, Option.bind_some, Option.map_some, Option.some.injEq, Prod.mk.injEq] at hw
      obtain ⟨rfl, rfl⟩ := hw
      exact ⟨rfl, h2⟩

theorem who_publish {b : Plain} {c n : Nat} {s : Profile} (hw : b.who c = some (n, s)) (t : Str) (m : Message) :
    (b.publish t m).who c = some (n, heard [(t, m)] s) := by
  obtain ⟨h1, h2⟩ := who_account hw
  show ((b.conn c).bind fun k => ((b.account k).map (heard [(t, m)])).map fun s => (k, s)) = _
  simp [h1, h2]

theorem on_file {b : Plain} {c n : Nat} {s : Profile} (ha : b.account n = some s) {g : Profile → Profile} {boxes : Str → Option Mailbox}
    (hg : g s = { s with boxes := boxes }) :
    b.file n s.name boxes = Change.on { g := g, kept := some fun f => (g s).boxes f ≠ none } c n s.name b := by
  ext1 <;> first | rfl | skip
  · simp only [Plain.file, Change.on, hg]
  · funext x
    simp only [Change.on, Plain.file, Plain.modify, upd, heard_nil]
    by_cases e : x = n
    · subst e; simp only [if_true, ha, Option.map_some, hg]
    · simp only [if_neg e]; cases b.account x <;> rfl

theorem on_note (b : Plain) (c n : Nat) (name : Str) (id : UInt16) (i : Option Inflight) :
    b.note name id i = Change.on { note := some (id, i) } c n name b := by
  ext1 <;> first | rfl | skip
  funext x
  simp only [Change.on, _root_.id, heard_nil, ite_self, Plain.note]
  cases b.account x <;> rfl

theorem publish_plan (cfg : AuthConfig) (R : Str → List Message) {b b' : Plain} {c n : Nat} {s : Profile}
    (hw : b.who c = some (n, s)) {p : PublishPacket} {out : List Packet} (hd : b.Receives cfg c n s (.publish p) b' out) :
    b' = (packetPlan cfg R s (.publish p)).1.on c n s.name b ∧ out = (packetPlan cfg R s (.publish p)).2 := by
  simp only [Plain.Receives, packetPlan] at hd ⊢
  split at hd
  · rename_i hv
    rw [if_pos hv]
    generalize hm : (⟨p.packetId, p.topicName, p.dup, p.qos, p.retain, p.payload⟩ : Message) = m at hd ⊢
    have plain : b.publish p.topicName m = Change.on { says := [(p.topicName, m)] } c n s.name b := by
      rw [← on_publish {} c n s.name b, on_none]
    have hung : (b.publish p.topicName m).hangUp c = Change.on { hang s with says := (p.topicName, m) :: (hang s).says } c n s.name b := by
      rw [← on_hang (who_publish hw _ m)]
      exact on_publish (hang s) c n s.name b _ _
    unfold Plain.Answered at hd
    cases hq : p.qos <;> cases hp : p.packetId <;> rw [hq, hp] at hd <;>
      first
      | exact ⟨hd.1.trans plain, hd.2⟩
      | exact ⟨hd.1.trans hung, hd.2⟩
  · rename_i hv
    rw [if_neg hv]
    exact ⟨hd.1.trans (on_hang hw).symm, hd.2⟩

theorem auth_plan (cfg : AuthConfig) (R : Str → List Message) {b b' : Plain} {c n : Nat} {s : Profile}
    (hw : b.who c = some (n, s)) {p : AuthPacket} {out : List Packet} (hd : b.Receives cfg c n s (.auth p) b' out) :
    b' = (packetPlan cfg R s (.auth p)).1.on c n s.name b ∧ out = (packetPlan cfg R s (.auth p)).2 := by
  obtain ⟨h1, h2⟩ := who_account hw
  simp only [Plain.Receives, packetPlan] at hd ⊢
  cases hm : cfg.manager with
  | none => rw [hm] at hd; exact ⟨hd.1.trans (on_hang hw).symm, hd.2⟩
  | some m =>
    rw [hm] at hd
    simp only [] at hd ⊢
    generalize Plain.authStep m s.auth p = r at hd ⊢
    obtain ⟨a, x⟩ := r
    cases x with
    | none =>
      refine ⟨hd.1.trans ?_, hd.2⟩
      have hw' : (b.modify n fun s => { s with auth := a }).who c = some (n, { s with auth := a }) := by
        simp [Plain.who, Plain.modify, h1, upd, h2]
      rw [← on_hang hw']
      exact on_modify (hang s) c n s.name b _ fun _ => rfl
    | some x =>
      refine ⟨hd.1.trans ?_, hd.2⟩
      have := on_modify {} c n s.name b (fun s => { s with auth := a }) fun _ => rfl
      rw [on_none] at this
      exact this

theorem receives_plan (cfg : AuthConfig) (R : Str → List Message) {b b' : Plain} {c n : Nat} {s : Profile}
    (hw : b.who c = some (n, s)) {p : Packet} {out : List Packet} (hd : b.Receives cfg c n s p b' out)
    (hR : ∀ q, p = .subscribe q → ∀ s', b'.account n = some s' → ∀ f ∈ q.payload.map (·.topicFilter), ValidFilter f →
      s'.boxes f = some ⟨R f, []⟩) :
    b' = (packetPlan cfg R s p).1.on c n s.name b ∧ out = (packetPlan cfg R s p).2 := by
  have ha := (who_account hw).2
  cases p with
  | publish p => exact publish_plan cfg R hw hd
  | auth p => exact auth_plan cfg R hw hd
  | pubAck a => exact ⟨hd.1.trans (on_note b c n s.name _ _), hd.2⟩
  | pubComp a => exact ⟨hd.1.trans (on_note b c n s.name _ _), hd.2⟩
  | pubRec a => exact ⟨hd.1.trans (on_none c n s.name b).symm, hd.2⟩
  | pubRel a => exact ⟨hd.1.trans (on_none c n s.name b).symm, hd.2⟩
  | pingReq => exact ⟨hd.1.trans (on_none c n s.name b).symm, hd.2⟩
  | subscribe q =>
    obtain ⟨boxes, h1, h2, h3⟩ := hd
    have hacc : b'.account n = some { s with boxes := boxes } := by
      rw [h2]; simp [Plain.file, Plain.modify, upd, ha]
    refine ⟨h2.trans (on_file ha ?_), h3⟩
    have : (opened R (q.payload.map (·.topicFilter)) s).boxes = boxes := by
      funext f
      simp only [opened]
      split
      · rename_i hf
        exact (hR q rfl _ hacc f hf.1 hf.2).symm
      · rename_i hf
        exact ((h1 f).2 hf).symm
    rw [← this]; rfl
  | unsubscribe q => exact ⟨hd.1.trans (on_file ha rfl), hd.2⟩
  | disconnect d =>
    refine ⟨hd.1.trans ?_, hd.2⟩
    ext1 <;> first | rfl | skip
    funext x
    simp only [Change.on, Plain.drop, Plain.modify, upd, heard_nil, packetPlan]
    by_cases e : x = n
    · subst e; simp
    · simp only [if_neg e]; cases b.account x <;> rfl
  | _ => exact ⟨hd.1.trans (on_hang hw).symm, hd.2⟩

theorem sends_plan {b b' : Plain} {c n : Nat} {s : Profile} {f : Str} {out : Out}
    (hd : b.Sends c n s f b' out) : b' = (sendPlan s f).1.on c n s.name b ∧ out = (sendPlan s f).2 := by
  unfold Plain.Sends at hd
  unfold sendPlan
  cases hb : s.boxes f with
  | none => rw [hb] at hd; exact ⟨hd.1.trans (on_none c n s.name b).symm, hd.2⟩
  | some box =>
    rw [hb] at hd
    simp only [] at hd ⊢
    generalize box.take = z at hd ⊢
    obtain ⟨x, rest⟩ := z
    cases x with
    | none => exact ⟨hd.1.trans (on_none c n s.name b).symm, hd.2⟩
    | some m =>
      simp only [] at hd ⊢
      have base : ∀ note ends, Change.on { g := fun s => { s with boxes := upd s.boxes f (some rest) }, note := note, ends := ends } c n s.name b =
          Change.on { note := note, ends := ends } c n s.name (b.modify n fun s => { s with boxes := upd s.boxes f (some rest) }) :=
        fun note ends => (on_modify { note := note, ends := ends } c n s.name b _ fun s => by simp only [heard_nil]).symm
      have e2 : ∀ x : Plain, x.drop c = Change.on { ends := true } c n s.name x := by
        intro x
        ext1 <;> first | rfl | skip
        funext y
        simp only [Change.on, id, heard_nil, ite_self, Plain.drop]
        cases x.account y <;> rfl
      obtain ⟨id, topic, dup, qos, retain, payload⟩ := m
      cases qos <;> cases id <;> simp only [base] <;>
        first
        | exact ⟨hd.1.trans (on_none c n s.name _).symm, hd.2⟩
        | exact ⟨hd.1.trans (on_note _ c n s.name _ _), hd.2⟩
        | exact ⟨hd.1.trans (e2 _), hd.2⟩

theorem does_plan (cfg : AuthConfig) (R : Str → List Message) {b b' : Plain} {c n : Nat} {s : Profile} {e : Event} (he : OfConn c e)
    (hw : b.who c = some (n, s)) {out : Out} (hd : b.Does cfg e b' out)
    (hR : ∀ q, e = .recv c (.subscribe q) → ∀ s', b'.account n = some s' → ∀ f ∈ q.payload.map (·.topicFilter), ValidFilter f →
      s'.boxes f = some ⟨R f, []⟩) :
    b' = (plan cfg R s e).1.on c n s.name b ∧ out = (plan cfg R s e).2 := by
  rcases he with ⟨p, rfl⟩ | ⟨f, rfl⟩ | rfl | rfl
  · simp only [Plain.Does, hw] at hd
    obtain ⟨sent, h1, h2⟩ := hd
    obtain ⟨h3, h4⟩ := receives_plan cfg R hw h1 fun q hq => hR q (by rw [hq])
    exact ⟨h3, by rw [h2, h4]; rfl⟩
  · simp only [Plain.Does, hw] at hd
    exact sends_plan hd
  · exact ⟨hd.1.trans (on_hang hw).symm, hd.2⟩
  · refine ⟨hd.1.trans ?_, hd.2⟩
    ext1 <;> first | rfl | skip
    funext y
    simp only [plan, Change.on, id, heard_nil, ite_self, Plain.drop]
    cases b.account y <;> rfl

/-! ## What changes depend on -/

theorem codes_heard (ms : List (Str × Message)) (fs : List Str) : ∀ boxes : Str → Option Mailbox,
    Plain.codes (fun f => (boxes f).map (feed f ms)) fs = Plain.codes boxes fs := by
  induction fs with
  | nil => intro _; rfl
  | cons f fs ih =>
    intro boxes
    simp only [Plain.codes, Option.map_eq_none_iff]
    congr 1
    rw [← ih (upd boxes f none)]
    congr 1
    funext x
    simp only [upd]
    split <;> rfl

/-- Messages heard that the event does not look at make no difference. -/
theorem plan_heard (cfg : AuthConfig) {R R' : Str → List Message} (s : Profile) (ms : List (Str × Message)) {c : Nat} {e : Event}
    (he : OfConn c e) (hm : ∀ f, Heeds c e f → ∀ q ∈ ms, ¬ Matches f q.1)
    (hR : ∀ f, Heeds c e f → ValidFilter f → R' f = R f) :
    plan cfg R' (heard ms s) e = plan cfg R s e := by
  rcases he with ⟨p, rfl⟩ | ⟨f, rfl⟩ | rfl | rfl
  · cases p with
    | subscribe q =>
      have hf : ∀ f ∈ q.payload.map (·.topicFilter), Heeds c (.recv c (.subscribe q)) f := fun f hf => Or.inl ⟨q, rfl, hf⟩
      have ho : opened R' (q.payload.map (·.topicFilter)) = opened R (q.payload.map (·.topicFilter)) := by
        funext x
        simp only [opened]
        congr 1
        funext f
        split
        · rename_i h; rw [hR f (hf f h.1) h.2]
        · rfl
      simp only [plan, packetPlan, ho]
      congr 4
      funext f
      simp only [opened, heard]
      split
      · rfl
      · simp only [ne_eq, Option.map_eq_none_iff]
    | unsubscribe q =>
      simp only [plan, packetPlan, show Plain.codes (heard ms s).boxes q.payload = _ from codes_heard ms q.payload s.boxes]
      congr 4
      funext f
      simp only [closed, heard]
      split
      · rfl
      · simp only [ne_eq, Option.map_eq_none_iff]
    | _ => rfl
  · have : (heard ms s).boxes f = s.boxes f := by
      simp only [heard]
      cases hb : s.boxes f with
      | none => rfl
      | some x => rw [Option.map_some, feed_nil (hm f (Or.inr rfl))]
    simp only [plan, sendPlan, this]
  · rfl
  · rfl

/-- What an event changes in its account commutes with messages it does not look at. -/
theorem plan_commutes (cfg : AuthConfig) (R : Str → List Message) (s : Profile) (ms : List (Str × Message)) {c : Nat} {e : Event}
    (he : OfConn c e) (hm : ∀ f, Heeds c e f → ∀ q ∈ ms, ¬ Matches f q.1) (x : Profile) :
    heard ms ((plan cfg R s e).1.g x) = (plan cfg R s e).1.g (heard ms x) := by
  have hh : ∀ x, heard ms ((hang s).g x) = (hang s).g (heard ms x) := by
    intro x; unfold hang; split <;> rfl
  rcases he with ⟨p, rfl⟩ | ⟨f, rfl⟩ | rfl | rfl
  · cases p with
    | subscribe q =>
      have : (heard ms (opened R (q.payload.map (·.topicFilter)) x)).boxes =
          (opened R (q.payload.map (·.topicFilter)) (heard ms x)).boxes := by
        funext f
        simp only [heard, opened]
        split
        · rename_i h
          rw [Option.map_some, feed_nil (hm f (Or.inl ⟨q, rfl, h.1⟩))]
        · rfl
      show heard ms (opened R _ x) = opened R _ (heard ms x)
      ext1 <;> first | rfl | exact this
    | unsubscribe q =>
      have : (heard ms (closed q.payload x)).boxes = (closed q.payload (heard ms x)).boxes := by
        funext f
        simp only [heard, closed]
        split <;> rfl
      show heard ms (closed _ x) = closed _ (heard ms x)
      ext1 <;> first | rfl | exact this
    | publish p =>
      simp only [plan, packetPlan]
      split
      · cases p.qos <;> cases p.packetId <;> first | rfl | exact hh x
      · exact hh x
    | auth p =>
      simp only [plan, packetPlan]
      cases cfg.manager with
      | none => exact hh x
      | some m =>
        simp only []
        cases (Plain.authStep m s.auth p).2 with
        | none => exact hh _
        | some y => rfl
    | pubAck _ => rfl
    | pubComp _ => rfl
    | pubRec _ => rfl
    | pubRel _ => rfl
    | pingReq => rfl
    | disconnect _ => rfl
    | _ => exact hh x
  · simp only [plan, sendPlan]
    cases s.boxes f with
    | none => rfl
    | some box =>
      simp only []
      generalize box.take = z
      obtain ⟨y, rest⟩ := z
      cases y with
      | none => rfl
      | some m =>
        have : heard ms { x with boxes := upd x.boxes f (some rest) } = { heard ms x with boxes := upd (heard ms x).boxes f (some rest) } := by
          have hb : (heard ms { x with boxes := upd x.boxes f (some rest) }).boxes = upd (heard ms x).boxes f (some rest) := by
            funext f'
            simp only [heard, upd]
            split
            · rename_i h; subst h; rw [Option.map_some, feed_nil (hm f' (Or.inr rfl))]
            · rfl
          ext1 <;> first | rfl | exact hb
        obtain ⟨id, topic, dup, qos, retain, payload⟩ := m
        cases qos <;> cases id <;> exact this
  · exact hh x
  · rfl

/-- What an event publishes. -/
theorem plan_says (cfg : AuthConfig) (R : Str → List Message) (s : Profile) {c : Nat} {e : Event} (he : OfConn c e)
    {q : Str × Message} (hq : q ∈ (plan cfg R s e).1.says) :
    (∃ p, e = .recv c (.publish p) ∧ q.1 = p.topicName) ∨ ((plan cfg R s e).1.ends = true ∧ ∃ w, s.will = some w ∧ q.1 = w.topic) := by
  have hh : ∀ q : Str × Message, q ∈ (hang s).says → (hang s).ends = true ∧ ∃ w, s.will = some w ∧ q.1 = w.topic := by
    intro q hq
    unfold hang at hq ⊢
    cases hw : s.will with
    | none => rw [hw] at hq; cases hq
    | some w =>
      rw [hw] at hq
      simp only [List.mem_cons, List.not_mem_nil, or_false] at hq
      exact ⟨rfl, w, rfl, by rw [hq]⟩
  rcases he with ⟨p, rfl⟩ | ⟨f, rfl⟩ | rfl | rfl
  · cases p with
    | publish p =>
      by_cases ht : q.1 = p.topicName
      · exact Or.inl ⟨p, rfl, ht⟩
      · right
        simp only [plan, packetPlan] at hq ⊢
        split at hq
        · rename_i hv
          rw [if_pos hv]
          have h0 : ∀ m, q ∈ [(p.topicName, m)] → False := by
            intro m hm
            simp only [List.mem_cons, List.not_mem_nil, or_false] at hm
            exact ht (by rw [hm])
          have h1 : ∀ m, q ∈ (p.topicName, m) :: (hang s).says → (hang s).ends = true ∧ ∃ w, s.will = some w ∧ q.1 = w.topic := by
            intro m hm
            rcases List.mem_cons.mp hm with hm | hm
            · exact absurd (by rw [hm]) ht
            · exact hh q hm
          cases hqos : p.qos <;> cases hid : p.packetId <;> rw [hqos, hid] at hq <;>
            first
            | exact (h0 _ hq).elim
            | exact h1 _ hq
        · rename_i hv
          rw [if_neg hv]
          exact hh q hq
    | auth p =>
      right
      simp only [plan, packetPlan] at hq ⊢
      cases hm : cfg.manager with
      | none => rw [hm] at hq; exact hh q hq
      | some m =>
        rw [hm] at hq
        simp only [] at hq ⊢
        cases hr : (Plain.authStep m s.auth p).2 with
        | none => rw [hr] at hq; exact hh q hq
        | some y => rw [hr] at hq; cases hq
    | pubAck _ => cases hq
    | pubComp _ => cases hq
    | pubRec _ => cases hq
    | pubRel _ => cases hq
    | pingReq => cases hq
    | disconnect _ => cases hq
    | subscribe _ => cases hq
    | unsubscribe _ => cases hq
    | _ => exact Or.inr (hh q hq)
  · simp only [plan, sendPlan] at hq
    cases hb : s.boxes f with
    | none => rw [hb] at hq; cases hq
    | some box =>
      rw [hb] at hq
      simp only [] at hq
      generalize box.take = z at hq
      obtain ⟨y, rest⟩ := z
      cases y with
      | none => cases hq
      | some m =>
        obtain ⟨id, topic, dup, qos, retain, payload⟩ := m
        cases qos <;> cases id <;> cases hq
  · exact Or.inr (hh q hq)
  · cases hq

end Mercurio
