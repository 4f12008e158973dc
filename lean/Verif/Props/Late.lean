import Verif.Props.Asked

/-!
# C104: an application that subscribes late
-/

namespace Mercurio

open Spec Server

theorem lastRetained_calls (t : Str) (cs : List Call) : lastRetained t (callsPub cs) =
    (retainedOf t (Call.publications cs)).map fun m => ⟨t, m.payload.getD [], m.qos, m.retain⟩ := by
  induction cs using snoc_induction with
  | h0 => rfl
  | hs l x ih =>
    rw [callsPub_append, Call.publications_append]
    cases x with
    | publish s t' m =>
      have e1 : callsPub [Call.publish s t' m] = [(s, ⟨t', m.payload.getD [], m.qos, m.retain⟩)] := rfl
      have e2 : Call.publications [Call.publish s t' m] = [(t', m)] := rfl
      rw [e1, e2]
      unfold lastRetained retainedOf at ih ⊢
      rw [lastWith_snoc, List.reverse_append, List.reverse_singleton, List.singleton_append, List.find?_cons]
      by_cases h : t' = t ∧ m.retain = true
      · obtain ⟨rfl, hr⟩ := h
        have hp : hasPayload m = !decide (m.payload.getD [] = []) := by
          unfold hasPayload
          split
          · rename_i h; simp [h]
          · rename_i h
            cases hm : m.payload with
            | none => simp
            | some b =>
              cases b with
              | nil => simp
              | cons x xs => exact absurd hm (h x xs)
        simp only [hr, and_self, decide_true, if_true, hp]
        by_cases h0 : m.payload.getD [] = []
        · simp [h0]
        · simp [h0, hr]
      · simp only [h, decide_false, Bool.false_eq_true, if_false]
        exact ih
    | _ =>
      have e : ∀ x, callPub x = none → callsPub [x] = [] := fun x h => by simp [callsPub, h]
      rw [e _ rfl, List.append_nil]
      simpa [Call.publications] using ih

/-! ## Histories in pieces -/

theorem History.append {m : Mode} {cfg : AuthConfig} {σ1 σ2 σ3 : System} {es x1 x2 : List Event}
    {evs1 evs2 : List SysEvent} (h0 : SysInv cfg σ1 es) (h1 : History m cfg σ1 σ2 es x1 evs1) (h2 : History m cfg σ2 σ3 (es ++ x1) x2 evs2)
    (hrun : σ2 = σ1.run m cfg evs1) : History m cfg σ1 σ3 es (x1 ++ x2) (evs1 ++ evs2) := by
  refine ⟨by rw [← List.append_assoc]; exact h2.inv, ?_, ?_, ?_⟩
  · intro c p w hp hw
    obtain ⟨p1, w1, hp1, hw1, e1⟩ := h1.peer c p w hp hw
    obtain ⟨p2, w2, hp2, hw2, e2⟩ := h2.peer c p1 w1 hp1 hw1
    refine ⟨p2, w2, hp2, hw2, e2.opts.trans e1.opts, ?_, fun hb => e2.begun (e1.begun hb)⟩
    obtain ⟨H1, a1, b1⟩ := e1.history
    obtain ⟨H2, a2, b2⟩ := e2.history
    refine ⟨H1 ++ H2, by rw [a2, a1, List.append_assoc], fun x hx => ?_⟩
    rcases List.mem_append.mp hx with hx | hx
    · exact (b1 x hx).imp id (fun h => List.mem_append_left _ h)
    · exact (b2 x hx).imp id (fun h => List.mem_append_right _ h)
  · intro c w hw hb q u b hm
    rcases List.mem_append.mp hm with hm | hm
    · exact h1.first c w hw hb q u b hm
    · have hpe : (σ1.peers.get c).isSome := (h0.ends c).mp (by rw [hw]; rfl)
      obtain ⟨p, hp⟩ := Option.isSome_iff_exists.mp hpe
      obtain ⟨p1, w1, hp1, hw1, e1⟩ := h1.peer c p w hp hw
      exact h2.first c w1 hw1 (e1.begun hb) q u b hm
  · intro c k0 hr hk ht
    obtain ⟨r1, r2⟩ := readsWell_append evs1 hr
    rw [← List.append_assoc]
    rw [← hrun] at r2
    refine h2.track c k0 r2 ?_ (h1.track c k0 r1 hk ht)
    rcases hk with hk | hk
    · exact Or.inl hk
    · right
      obtain ⟨p, hp⟩ := Option.isSome_iff_exists.mp hk
      obtain ⟨w, hw⟩ := Option.isSome_iff_exists.mp ((h0.ends c).mpr hk)
      obtain ⟨p1, _, hp1, _⟩ := h1.peer c p w hp hw
      rw [hp1]; rfl

/-! ## What the client hears -/

/-- What a client hears for `f` since nothing was in transit to it is what it is sent for `f`. -/
theorem heard_delivered {m : Mode} {cfg : AuthConfig} {σ1 σ2 : System} {es ext : List Event} {evs1 evs2 : List SysEvent}
    (h1 : History m cfg System.init σ1 [] es evs1) (h2 : History m cfg σ1 σ2 es ext evs2) (hrun : σ1 = System.init.run m cfg evs1)
    {c : Nat} {f : Str} {p1 p2 : Peer} {w2 : Wire}
    (hreads : ReadsWell m cfg c System.init (evs1 ++ evs2)) (hq1 : σ1.Quiet m cfg c) (hp1 : σ1.peers.get c = some p1)
    (hup2 : σ2.Up c p2 w2) (halone : σ2.Apart c p2) :
    ∃ X, p2.heardOn f = p1.heardOn f ++ X ∧
      X <+: ((Server.run cfg Server.init es).delivered cfg c f ext).filterMap heardOf ∧
      (σ2.QuietDown m cfg c → X = ((Server.run cfg Server.init es).delivered cfg c f ext).filterMap heardOf) := by
  have hi1 : SysInv cfg σ1 es := h1.inv
  obtain ⟨rw1, rw2⟩ := readsWell_append evs1 hreads
  rw [← hrun] at rw2
  obtain ⟨p1', w1, hu1, q1, q2, q3, q4, q5⟩ := hq1.parts
  have := hu1.peer
  rw [hp1] at this
  cases this
  obtain ⟨hall, hbeg, hopen1⟩ := hi1.quiet hp1 hu1.wire hu1.server q1 q2
  obtain ⟨p2', w2', hp2', hw2', hev⟩ := h2.peer c p1 w1 hp1 hu1.wire
  have hp2e : p2 = p2' := by have := hup2.peer; rw [hp2'] at this; exact (Option.some.inj this).symm
  subst hp2e
  have hw2e : w2 = w2' := by have := hup2.wire; rw [hw2'] at this; exact (Option.some.inj this).symm
  subst hw2e
  have hsolo : Solo c p2.clientId p2.opts.protocolVersion (es ++ ext) := h2.inv.solo hp2' halone
  have hid : p2.clientId = p1.clientId := by unfold Peer.clientId; rw [hev.opts]
  have hsolo2 := hsolo
  rw [hid, hev.opts] at hsolo2
  have hsolo1 := hsolo2.init
  have t1 : Tracked cfg c 0 σ1 es := h1.track c 0 rw1 (Or.inl rfl) (by
    intro p w hp; simp [System.init, Map.get] at hp)
  obtain ⟨k1, _, d1⟩ := t1 p1 w1 hp1 hu1.wire hu1.server (up_socket hu1) hsolo1
  have hS1 := hi1.sentTo hsolo1 hu1.wire hu1.server
  have hk1 := quiet_down d1 hS1 q4 q5
  have t1' : Tracked cfg c (Server.init.sentTo cfg c es).length σ1 es := by
    intro p w hp hw hr ho hs
    rw [hp1] at hp
    cases hp
    exact ⟨k1, by omega, d1⟩
  have t2 := h2.track c _ rw2 (Or.inr (by rw [hp1]; rfl)) t1'
  obtain ⟨k2, hk2, d2⟩ := t2 p2 w2 hp2' hw2' hup2.server (up_socket hup2) hsolo
  have hS2 := h2.inv.sentTo hsolo hw2' hup2.server
  have e1 : p1.heard = (Server.init.sentTo cfg c es).filterMap heardOf := by
    rw [d1.heard, hk1, List.take_length, filterMap_receivedBy]
  generalize hT : (Server.run cfg Server.init es).sentTo cfg c ext = T at *
  have e2 : p2.heard = p1.heard ++ (T.take (k2 - (Server.init.sentTo cfg c es).length)).filterMap heardOf := by
    rw [d2.heard, filterMap_receivedBy, sentTo_append, hT, List.take_append, List.take_of_length_le hk2,
      List.filterMap_append, e1]
  have hgood : GoodHist σ2.Wills ext := fun x hx => h2.inv.goodHist x (List.mem_append_right _ hx)
  have e3 := sent_for (cfg := cfg) (es0 := es) f ext hgood (h2.first c w1 hu1.wire hbeg)
  rw [hT] at e3
  rw [← e3]
  refine ⟨((T.take (k2 - (Server.init.sentTo cfg c es).length)).filterMap heardOf).filter (fun x => x.topic = f), ?_, ?_, ?_⟩
  · unfold Peer.heardOn
    rw [e2, List.filter_append]
  · obtain ⟨t, ht⟩ := List.take_prefix (k2 - (Server.init.sentTo cfg c es).length) T
    conv => rhs; rw [← ht, List.filterMap_append, List.filter_append]
    exact List.prefix_append _ _
  · rintro ⟨p2', w2', hu2, r3, r4, r5⟩
    have := hu2.peer; rw [hp2'] at this; cases this
    have := hu2.wire; rw [hw2'] at this; cases this
    have hk := quiet_down d2 hS2 r4 r5
    rw [sentTo_append, hT, List.length_append] at hk
    rw [List.take_of_length_le (by omega)]

/-! ## What the server sends -/

theorem delivered_append (cfg : AuthConfig) (c : Nat) (f : Str) (a b : List Event) : ∀ srv : Server,
    srv.delivered cfg c f (a ++ b) = srv.delivered cfg c f a ++ (srv.run cfg a).delivered cfg c f b := by
  induction a with
  | nil => intro srv; rfl
  | cons e a ih =>
    intro srv
    rw [List.cons_append]
    simp only [Server.delivered]
    rw [ih, List.append_assoc]; rfl

/-- Nothing is sent for `f` while the client is not subscribed to it. -/
theorem delivered_nothing {cfg : AuthConfig} {σ : System} {es ext rest : List Event} (h : SysInv cfg σ (es ++ (ext ++ rest)))
    {c : Nat} {p : Peer} {f : Str} (hp : σ.peers.get c = some p) (hc : p.opts.cleanStart = true)
    (hs : Solo c p.clientId p.opts.protocolVersion (es ++ (ext ++ rest)))
    (hno : ∀ a b, ext = a ++ b → ¬ subscribedBy f (packetsOf c (es ++ a))) :
    (Server.run cfg Server.init es).delivered cfg c f ext = [] := by
  induction ext using snoc_induction generalizing rest with
  | h0 => rfl
  | hs l e ih =>
    have ih := ih (rest := e :: rest) (by simpa using h) (by simpa using hs)
      (fun a b hab => hno a (b ++ [e]) (by rw [hab, List.append_assoc]))
    rw [delivered_snoc, ih, List.nil_append]
    split
    · rename_i he
      subst he
      have er : (Server.run cfg Server.init es).run cfg l = Server.run cfg Server.init (es ++ l) := by simp [Server.run]
      rw [er]
      have hl : es ++ (l ++ [Event.deliver c f] ++ rest) = es ++ l ++ ([Event.deliver c f] ++ rest) := by simp
      rw [hl] at h hs
      rw [deliver_unsubscribed fun s hat => ?_]
      cases hg : s.subscriptions.get f with
      | none => rfl
      | some st =>
        refine absurd (solo_asked cfg (es ++ l) hs.init ?_ ?_ hat f (by rw [hg]; rfl)) (hno l _ rfl)
        · exact fun q u w hm => h.clean hp hc q u w (List.mem_append_left _ hm)
        · intro q hq
          refine h.one_connect hp q ?_
          rw [packetsOf_append]
          exact tail_prefix hq
    · rfl

/-! ## Which packets name the filter -/

/-- The packet changes the subscription `f`. -/
def PacketNames (f : Str) : Packet → Prop
  | .subscribe x => f ∈ x.payload.map (·.topicFilter)
  | .unsubscribe x => f ∈ x.payload
  | _ => False

theorem unnamed_keeps {f : Str} (l : List Packet) (hn : ∀ q ∈ l, ¬ PacketNames f q)
    (hc : ∀ q, Packet.connect q ∉ l) (B : Prop) : l.foldl (subStep f) B ↔ B := by
  induction l generalizing B with
  | nil => exact Iff.rfl
  | cons q l ih =>
    rw [List.foldl_cons, ih (fun y hy => hn y (List.mem_cons_of_mem _ hy)) (fun y hy => hc y (List.mem_cons_of_mem _ hy))]
    have h := hn q (by simp)
    cases q with
    | connect q => exact absurd (by simp) (hc q)
    | subscribe q => exact ⟨fun h' => h'.resolve_right h, Or.inl⟩
    | unsubscribe q => exact ⟨fun h' => h'.1, fun h' => ⟨h', h⟩⟩
    | _ => exact Iff.rfl

/-- The first part of a list of which at most one element is special. -/
theorem prefix_special {α : Type} {P : α → Prop} {M N K L : List α} (h : L <+: M ++ N ++ K) (hM : ∀ x ∈ M, ¬ P x)
    (hN : N.length ≤ 1) (hK : ∀ x ∈ K, ¬ P x) :
    (∀ x ∈ L, ¬ P x) ∨ ∃ s L2, N = [s] ∧ P s ∧ L = M ++ s :: L2 ∧ ∀ x ∈ L2, ¬ P x := by
  classical
  by_cases hp : ∀ x ∈ L, ¬ P x
  · exact Or.inl hp
  right
  have : ∃ x ∈ L, P x := by
    refine Classical.byContradiction fun hc => hp fun x hx hxp => hc ⟨x, hx, hxp⟩
  obtain ⟨x, hx, hxp⟩ := this
  obtain ⟨s, rfl⟩ : ∃ s, N = [s] := by
    match N, hN with
    | [], _ =>
      have := h.subset hx
      simp only [List.append_nil, List.mem_append] at this
      rcases this with h1 | h1
      · exact absurd hxp (hM x h1)
      · exact absurd hxp (hK x h1)
    | [s], _ => exact ⟨s, rfl⟩
  have hxs : x = s := by
    have := h.subset hx
    simp only [List.mem_append, List.mem_singleton] at this
    rcases this with (h1 | h1) | h1
    · exact absurd hxp (hM x h1)
    · exact h1
    · exact absurd hxp (hK x h1)
  subst hxs
  obtain ⟨t, ht⟩ := h
  have hlen : M.length < L.length := by
    refine Classical.byContradiction fun hlt => ?_
    have h1 : L = M.take L.length := by
      have := congrArg (List.take L.length) ht
      rw [List.take_left, List.append_assoc, List.take_append_of_le_length (by omega)] at this
      exact this
    rw [h1] at hx
    exact absurd hxp (hM x (List.mem_of_mem_take hx))
  have h2 : L = M ++ x :: K.take (L.length - (M.length + 1)) := by
    have := congrArg (List.take L.length) ht
    rw [List.take_left, List.take_append, List.take_of_length_le (by simp; omega)] at this
    exact this.trans (by simp)
  exact ⟨x, _, rfl, hxp, h2, fun y hy => hK y (List.mem_of_mem_take hy)⟩

/-- Where the server got a packet. -/
theorem packetsOf_split {c : Nat} (ext : List Event) : ∀ {A B : List Packet} {q : Packet},
    (∀ p u w, Event.first c p u w ∉ ext) → packetsOf c ext = A ++ q :: B →
    ∃ e1 e2, ext = e1 ++ .recv c q :: e2 ∧ packetsOf c e1 = A ∧ packetsOf c e2 = B := by
  induction ext with
  | nil => intro A B q _ h; cases A <;> cases h
  | cons e ext ih =>
    intro A B q hf h
    have hf' : ∀ p u w, Event.first c p u w ∉ ext := fun p u w hm => hf p u w (List.mem_cons_of_mem _ hm)
    have hcons : packetsOf c (e :: ext) = packetsOf c [e] ++ packetsOf c ext := packetsOf_append c [e] ext
    have skip : packetsOf c [e] = [] →
        ∃ e1 e2, e :: ext = e1 ++ .recv c q :: e2 ∧ packetsOf c e1 = A ∧ packetsOf c e2 = B := by
      intro hn
      rw [hcons, hn, List.nil_append] at h
      obtain ⟨e1, e2, r1, r2, r3⟩ := ih hf' h
      refine ⟨e :: e1, e2, by rw [r1]; rfl, ?_, r3⟩
      have : packetsOf c (e :: e1) = packetsOf c [e] ++ packetsOf c e1 := packetsOf_append c [e] e1
      rw [this, hn]; exact r2
    by_cases hx : ∃ x, e = .recv c x
    · obtain ⟨x, rfl⟩ := hx
      have h1 : packetsOf c [Event.recv c x] = [x] := by simp [packetsOf]
      rw [hcons, h1] at h
      cases A with
      | nil =>
        simp only [List.nil_append, List.singleton_append, List.cons.injEq] at h
        obtain ⟨rfl, h⟩ := h
        exact ⟨[], ext, rfl, rfl, h⟩
      | cons a A =>
        simp only [List.cons_append, List.nil_append, List.cons.injEq] at h
        obtain ⟨rfl, h⟩ := h
        obtain ⟨e1, e2, r1, r2, r3⟩ := ih hf' h
        refine ⟨.recv c x :: e1, e2, by rw [r1]; rfl, ?_, r3⟩
        have : packetsOf c (.recv c x :: e1) = packetsOf c [Event.recv c x] ++ packetsOf c e1 := packetsOf_append c [_] e1
        rw [this, h1, r2]; rfl
    · apply skip
      cases e with
      | first d p u w =>
        have : d ≠ c := by rintro rfl; exact hf p u w (by simp)
        simp [packetsOf, this]
      | recv d p =>
        have : d ≠ c := by rintro rfl; exact hx ⟨p, rfl⟩
        simp [packetsOf, this]
      | _ => rfl

/-! ## C104 -/

theorem open_since {cfg : AuthConfig} {es : List Event} {c : Nat} (b : List Event) : ∀ {a : List Event},
    (∀ q u w, Event.first c q u w ∉ b) → (Server.run cfg Server.init (es ++ (a ++ b))).isOpen c →
    (Server.run cfg Server.init (es ++ a)).isOpen c := by
  induction b with
  | nil => intro a _ h; rwa [List.append_nil] at h
  | cons x b ih =>
    intro a hf h
    have := @ih (a ++ [x]) (fun q u w hm => hf q u w (List.mem_cons_of_mem _ hm)) (by simpa using h)
    rw [← List.append_assoc, run_snoc] at this
    exact open_before (e := x) (fun q u w hx => hf q u w (by simp [hx])) this

theorem call_history {m : Mode} {cfg : AuthConfig} {σ : System} {c : Nat} {i : ClientIn} {p p' : Peer}
    (hp : σ.peers.get c = some p) (hp' : (σ.step m cfg (.app c i)).peers.get c = some p') :
    p'.history = p.history ∨ ∃ o, p'.history = p.history ++ [(i, o)] := by
  simp only [System.step, System.onPeer, hp] at hp'
  split at hp'
  · rw [hp] at hp'; cases hp'; exact Or.inl rfl
  · simp only [System.put, Map.get_insert, if_true, Option.some.injEq] at hp'
    subst hp'
    exact Or.inr ⟨_, rfl⟩
  · rw [hp] at hp'; cases hp'; exact Or.inl rfl

theorem subscribedBy_outgoing {p : Peer} (h : PeerInv p) (f : Str) :
    subscribedBy f (p.outgoing.map Packet.received) = p.subscribedTo f := by
  have hfold : ∀ (l : List Packet) (b : Prop),
      (l.map Packet.received).foldl (subStep f) b = l.foldl (subStep f) b := by
    intro l
    induction l with
    | nil => intro b; rfl
    | cons q l ih => intro b; simp only [List.map_cons, List.foldl_cons, subStep_received, ih]
  unfold subscribedBy
  rw [hfold, h.subscribedTo f]
  rfl

theorem mem_packetsOf {c : Nat} {ext : List Event} {q : Packet} (hf : ∀ p u w, Event.first c p u w ∉ ext)
    (h : q ∈ packetsOf c ext) : Event.recv c q ∈ ext := by
  obtain ⟨A, B, e⟩ := List.append_of_mem h
  obtain ⟨e1, e2, r, _, _⟩ := packetsOf_split ext hf e
  rw [r]; simp

/-- Entries of the history that name nothing. -/
theorem unnamed_entries {p : Peer} (h : PeerInv p) {H : List (ClientIn × ClientOut)} (hH : ∀ x ∈ H, x ∈ p.history)
    {f : Str} (hno : ∀ x ∈ H, ¬ x.1.Names f) :
    ∀ q ∈ (H.filterMap (·.2.sent)).map Packet.received, ¬ PacketNames f q := by
  intro q hq hn
  obtain ⟨y, hy, rfl⟩ := List.mem_map.mp hq
  obtain ⟨x, hx, hxy⟩ := List.mem_filterMap.mp hy
  obtain ⟨l, _, e⟩ := h.steps x (hH x hx)
  rw [e] at hxy
  apply hno x hx
  cases hr : y.received with
  | subscribe z => rw [hr] at hn; exact (names_of_sent hxy f).1 z hr hn
  | unsubscribe z => rw [hr] at hn; exact (names_of_sent hxy f).2 z hr hn
  | _ => rw [hr] at hn; exact hn.elim

theorem no_connect_sent {p : Peer} (h : PeerInv p) {N : List Packet} (hN : ∀ q ∈ N, q ∈ p.sents) :
    ∀ q, Packet.connect q ∉ N.map Packet.received := by
  intro q hq
  obtain ⟨y, hy, e⟩ := List.mem_map.mp hq
  have := (h.okFrom y (hN y hy)).notConnect
  cases y <;> first | exact this _ rfl | cases e

/-- What `subscribe` sends is no UNSUBSCRIBE. -/
theorem subscribe_sends {l : Client} {ts : List (Str × QoS)} {ok : Bool} {q : Packet} {f : Str}
    (h : (l.step (.subscribe ts ok)).2.sent = some q) (hn : PacketNames f q.received) :
    ∃ x, q.received = .subscribe x ∧ f ∈ x.payload.map (·.topicFilter) := by
  have h1 := (step_entry l (.subscribe ts ok) f True).2
  rw [h] at h1
  have h2 : entrySub f True (.subscribe ts ok, (l.step (.subscribe ts ok)).2) := by
    unfold entrySub
    simp only
    split
    · exact Or.inl trivial
    · trivial
  rw [h1] at h2
  cases hr : q.received with
  | subscribe x => rw [hr] at hn; exact ⟨x, rfl, hn⟩
  | unsubscribe x =>
    rw [hr] at hn
    have h2 : subStep f True q := h2
    rw [← subStep_received, hr] at h2
    exact absurd hn h2.2
  | _ => rw [hr] at hn; exact hn.elim

theorem retained_heard (f : Str) (cs : List Call) (topics : List Str) :
    ((topics.filterMap fun t => retainedOf t (Call.publications cs)).map (forwarded f)).filterMap heardOf =
      topics.filterMap fun t => (lastRetained t (callsPub cs)).map (asHeard f) := by
  induction topics with
  | nil => rfl
  | cons t l ih =>
    rw [List.filterMap_cons, List.filterMap_cons, lastRetained_calls]
    cases retainedOf t (Call.publications cs) with
    | none => exact ih
    | some m =>
      simp only [Option.map_some, List.map_cons]
      rw [List.filterMap_cons, ih]
      rfl

/-- The messages that the server has sent for `f` after the client subscribed. -/
theorem late_sent {cfg : AuthConfig} {G e2 : List Event} {c : Nat} {f id : Str} {v : ProtocolVersion} {x : SubscribePacket}
    (hvf : ValidFilter f) (hx : f ∈ x.payload.map (·.topicFilter))
    (hfirst : ∀ q u w, Event.first c q u w ∉ Event.recv c (.subscribe x) :: e2)
    (hsolo : Solo c id v (G ++ Event.recv c (.subscribe x) :: e2))
    (hopen : (Server.run cfg Server.init (G ++ Event.recv c (.subscribe x) :: e2)).isOpen c)
    (hno : ∀ q ∈ packetsOf c e2, ¬ PacketNames f q)
    (hv : ∀ q ∈ Call.publications (Server.run cfg Server.init (G ++ Event.recv c (.subscribe x) :: e2)).world.log,
      ValidTopic q.1) :
    ∃ (cs : List Call) (topics : List Str), (Server.run cfg Server.init (G ++ Event.recv c (.subscribe x) :: e2)).world.log =
        (Server.run cfg Server.init G).world.log ++ cs ∧
      topics.Nodup ∧
      (∀ t, t ∈ topics ↔ Matches f t ∧
        (lastRetained t (callsPub (Server.run cfg Server.init G).world.log)).isSome) ∧
      let due := (topics.filterMap fun t => (lastRetained t (callsPub (Server.run cfg Server.init G).world.log)).map
        (asHeard f)) ++ heardFor f (callsPub cs)
      let sent := ((Server.run cfg Server.init G).delivered cfg c f (Event.recv c (.subscribe x) :: e2)).filterMap heardOf
      sent.Sublist due ∧ ((heardFor f (callsPub cs)).length ≤ 16 → sent <+: due ∧
        (((Server.run cfg Server.init (G ++ Event.recv c (.subscribe x) :: e2)).step cfg (.deliver c f)).2 = {} →
          sent = due)) := by
  have hfirst2 : ∀ q u w, Event.first c q u w ∉ e2 := fun q u w hm => hfirst q u w (List.mem_cons_of_mem _ hm)
  have hG : G ++ Event.recv c (.subscribe x) :: e2 = (G ++ [Event.recv c (.subscribe x)]) ++ e2 := by simp
  have hr : Server.Reachable cfg (Server.run cfg Server.init G) := ⟨G, rfl⟩
  have hop0 : (Server.run cfg Server.init G).isOpen c := by
    have := open_since (es := G) (a := []) (cfg := cfg) _ hfirst (by simpa using hopen)
    rwa [List.append_nil] at this
  have hop1 : (Server.run cfg Server.init (G ++ [Event.recv c (.subscribe x)])).isOpen c := by
    refine open_since (es := G) (a := [_]) (cfg := cfg) e2 hfirst2 ?_
    simpa using hopen
  have hsrv1 : ((Server.run cfg Server.init G).step cfg (.recv c (.subscribe x))).1 =
      Server.run cfg Server.init (G ++ [Event.recv c (.subscribe x)]) := by rw [run_snoc]
  have hcalm : CalmRun cfg c f (Server.run cfg Server.init (G ++ [Event.recv c (.subscribe x)])) e2 := by
    rw [hG] at hsolo hopen
    refine calm_since hfirst2 hsolo hopen ?_ ?_
    · intro y hy; exact hno _ (mem_packetsOf_recv hy)
    · intro y hy; exact hno _ (mem_packetsOf_recv hy)
  have erun : (Server.run cfg Server.init (G ++ [Event.recv c (.subscribe x)])).run cfg e2 =
      Server.run cfg Server.init (G ++ Event.recv c (.subscribe x) :: e2) := by rw [hG]; simp [Server.run]
  obtain ⟨k3, hk3⟩ := log_run cfg (Server.run cfg Server.init (G ++ [Event.recv c (.subscribe x)])) e2
  rw [erun] at hk3
  have hlog1 := step_log cfg (Server.run cfg Server.init G) (.recv c (.subscribe x))
  rw [hsrv1] at hlog1
  generalize hk2 : eventCalls cfg (Server.run cfg Server.init G) (.recv c (.subscribe x)) = k2 at hlog1
  have hk2' : callsPub k2 = [] := by
    rw [← hk2]
    obtain ⟨s, hs⟩ := at_of_isOpen hr.inv hop0
    simp only [eventCalls, hs]
    rw [if_pos (Or.inr (by rw [hsrv1]; exact hop1)), List.append_nil]
    simp [packetCalls, callsPub, callPub]
  have hpub : published cfg (Server.run cfg Server.init (G ++ [Event.recv c (.subscribe x)])) e2 = Call.publications k3 := by
    unfold published
    rw [erun, hk3, List.drop_left]
  obtain ⟨topics, t1, t2, t3⟩ := C62_exactly_matching cfg _ hr c hop0 x f hx hvf e2 (by rw [hsrv1]; exact hcalm) (by
    rw [hsrv1, hpub]
    intro q hq
    refine hv q ?_
    rw [hk3, Call.publications_append]
    exact List.mem_append_right _ hq)
  rw [hsrv1] at t3
  simp only [hpub] at t3
  have hcs : (Server.run cfg Server.init (G ++ Event.recv c (.subscribe x) :: e2)).world.log =
      (Server.run cfg Server.init G).world.log ++ (k2 ++ k3) := by
    rw [hk3, hlog1, List.append_assoc]
  have hc3 : callsPub (k2 ++ k3) = callsPub k3 := by rw [callsPub_append, hk2', List.nil_append]
  refine ⟨k2 ++ k3, topics, hcs, t1, ?_, ?_⟩
  · intro t
    rw [t2, lastRetained_calls, Option.isSome_map]
  have hdel : (Server.run cfg Server.init G).delivered cfg c f (Event.recv c (.subscribe x) :: e2) =
      (Server.run cfg Server.init (G ++ [Event.recv c (.subscribe x)])).delivered cfg c f e2 := by
    rw [← hsrv1]; simp [Server.delivered]
  rw [hdel, hc3]
  intro due sent
  obtain ⟨u1, u2⟩ := t3
  have hdue : (((topics.filterMap fun t => retainedOf t (Call.publications (Server.run cfg Server.init G).world.log)) ++
      matching f (Call.publications k3)).map (forwarded f)).filterMap heardOf = due := by
    rw [List.map_append, List.filterMap_append, retained_heard, ← heardFor_calls]
  refine ⟨by rw [← hdue]; exact u1.filterMap _, fun h16 => ?_⟩
  rw [heardFor_calls, heard_forwarded] at h16
  obtain ⟨v1, v2⟩ := u2 (by
    intro k
    have hle : (matching f (published cfg (Server.run cfg Server.init (G ++ [Event.recv c (.subscribe x)])) (e2.take k))).length ≤
        (matching f (Call.publications k3)).length := by
      rw [← hpub]
      apply matching_prefix
      obtain ⟨t, ht⟩ := List.take_prefix k e2
      generalize Server.run cfg Server.init (G ++ [Event.recv c (.subscribe x)]) = S
      obtain ⟨a, ha⟩ := log_run cfg S (e2.take k)
      obtain ⟨b, hb⟩ := log_run cfg (S.run cfg (e2.take k)) t
      have er : S.run cfg e2 = (S.run cfg (e2.take k)).run cfg t := by
        conv => lhs; rw [← ht]
        simp [Server.run]
      unfold published
      rw [er, hb, ha, List.append_assoc, List.drop_left, List.drop_left, Call.publications_append]
      exact List.prefix_append _ _
    omega)
  refine ⟨?_, fun hidle => ?_⟩
  · rw [← hdue]
    obtain ⟨t, ht⟩ := v1
    rw [← ht, List.filterMap_append]
    exact List.prefix_append _ _
  · rw [← hdue, ← v2 (by rw [erun]; exact hidle)]

/-- C104: an application subscribes late.  At one time (after `evs1`) nothing is in transit on the connection of
client `c`, which started clean, and its application is not subscribed to the valid filter `f`.  After some more
events (`a`) it calls `subscribe`, and no other call of it, before or after, names `f`.  `A` is what had been
published when it called, `B` what was published while `b` happened, `D` what was published afterwards, during `d`.
There is a moment (between `B1` and `B2`) after the call, and before the end of `b` if nothing is in transit from
the client then, such that the application is due for `f`: first one message for each topic that `f` matches and
that has a retained message at that moment, then every message published since to a topic `f` matches.  What it
gets for `f` is taken from that in order and without repetition; without a gap if no more than 16 matching messages
were published since; and it has got all of it once nothing is in transit any more, if the call of `subscribe`
succeeded. -/
theorem C104_late_subscriber (m : Mode) (cfg : AuthConfig) (evs1 a b d : List SysEvent) (c : Nat)
    (ts : List (Str × QoS)) (ok : Bool)
    (hord : ∀ e ∈ evs1 ++ (a ++ (.app c (.subscribe ts ok) :: b ++ d)), e.Ordinary) :
    let σ1 := System.init.run m cfg evs1
    let σa := σ1.run m cfg a
    let σb := σa.run m cfg (.app c (.subscribe ts ok) :: b)
    let σ2 := σb.run m cfg d
    ∃ A B D, PublishedBetween System.init σa A ∧ PublishedBetween σa σb B ∧ PublishedBetween σb σ2 D ∧
      ∀ f p1 p2 w2, ReadsWell m cfg c System.init (evs1 ++ (a ++ (.app c (.subscribe ts ok) :: b ++ d))) →
        ValidFilter f → σ1.Quiet m cfg c → σ1.peers.get c = some p1 → p1.opts.cleanStart = true →
        ¬ p1.subscribedTo f → (∀ i, SysEvent.app c i ∈ a ++ (b ++ d) → ¬ i.Names f) → σ2.Up c p2 w2 → σ2.Apart c p2 →
        ∃ (B1 B2 : List (Source × Publication)) (topics : List Str), B ++ D = B1 ++ B2 ∧
          (σb.QuietUp c → B1 <+: B) ∧ topics.Nodup ∧
          (∀ t, t ∈ topics ↔ Matches f t ∧ (lastRetained t (A ++ B1)).isSome) ∧
          let due := (topics.filterMap fun t => (lastRetained t (A ++ B1)).map (asHeard f)) ++ heardFor f B2
          ∃ X, p2.heardOn f = p1.heardOn f ++ X ∧ X.Sublist due ∧
            ((heardFor f B2).length ≤ 16 →
              X <+: due ∧ (σ2.Quiet m cfg c → p2.subscribedTo f → X = due)) := by
  intro σ1 σa σb σ2
  have o1 : ∀ e ∈ evs1, e.Ordinary := fun e he => hord e (List.mem_append_left _ he)
  have oa : ∀ e ∈ a, e.Ordinary := fun e he => hord e (by simp [he])
  have oc : ∀ e ∈ [SysEvent.app c (.subscribe ts ok)], e.Ordinary := fun e he => hord e (by simp at he; simp [he])
  have ob : ∀ e ∈ b, e.Ordinary := fun e he => hord e (by simp [he])
  have od : ∀ e ∈ d, e.Ordinary := fun e he => hord e (by simp [he])
  obtain ⟨es, hx1⟩ := history (m := m) evs1 o1 (sysInv_init cfg)
  have hi1 : SysInv cfg σ1 es := hx1.inv
  obtain ⟨xa, hxa⟩ := history (m := m) a oa hi1
  have hia : SysInv cfg σa (es ++ xa) := hxa.inv
  obtain ⟨xc, hxc⟩ := history (m := m) [.app c (.subscribe ts ok)] oc hia
  obtain ⟨xb', hxb'⟩ := history (m := m) b ob hxc.inv
  have hxb : History m cfg σa σb (es ++ xa) (xc ++ xb') ([.app c (.subscribe ts ok)] ++ b) := hxc.append hia hxb' rfl
  have hib : SysInv cfg σb (es ++ xa ++ (xc ++ xb')) := hxb.inv
  obtain ⟨xd, hxd⟩ := history (m := m) d od hib
  have hxk : History m cfg (σa.run m cfg [.app c (.subscribe ts ok)]) σ2 (es ++ xa ++ xc) (xb' ++ xd) (b ++ d) := by
    refine hxb'.append hxc.inv ?_ rfl
    rw [List.append_assoc (es ++ xa)]
    exact hxd
  generalize hxbe : xc ++ xb' = xb at *
  have hx0a : History m cfg System.init σa [] (es ++ xa) (evs1 ++ a) := hx1.append (sysInv_init cfg) hxa rfl
  have hx2 : History m cfg σ1 σ2 es (xa ++ (xb ++ xd)) (a ++ ([.app c (.subscribe ts ok)] ++ b ++ d)) :=
    hxa.append hi1 (hxb.append hia hxd rfl) rfl
  obtain ⟨csA, hcsA, hpA⟩ := published_between (sysInv_init cfg) hx0a
  obtain ⟨csB, hcsB, hpB⟩ := published_between hia hxb
  obtain ⟨csD, hcsD, hpD⟩ := published_between hib hxd
  have hl : (Server.run cfg Server.init []).world.log = [] := rfl
  rw [hl, List.nil_append, List.nil_append] at hcsA
  refine ⟨callsPub csA, callsPub csB, callsPub csD, hpA, hpB, hpD, ?_⟩
  intro f p1 p2 w2 hreads hvf hq1 hp1 hclean hnsub hno hup2 halone
  obtain ⟨X, hX1, hX2, hX3⟩ := heard_delivered (f := f) hx1 hx2 rfl hreads hq1 hp1 hup2 halone
  obtain ⟨p1', w1, hu1, q1, q2, q3, q4, q5⟩ := hq1.parts
  have := hu1.peer
  rw [hp1] at this
  cases this
  obtain ⟨hall, hbeg, hopen1⟩ := hi1.quiet hp1 hu1.wire hu1.server q1 q2
  -- the client at the four times
  obtain ⟨pa, wa, hpa, hwa, eva⟩ := hxa.peer c p1 w1 hp1 hu1.wire
  obtain ⟨pc, wc, hpc, hwc, evc⟩ := hxc.peer c pa wa hpa hwa
  obtain ⟨pb, wb, hpb, hwb, evb⟩ := hxb'.peer c pc wc hpc hwc
  obtain ⟨pk, wk, hpk, hwk, evk⟩ := hxk.peer c pc wc hpc hwc
  have hpke : pk = p2 := by have := hup2.peer; rw [hpk] at this; exact Option.some.inj this
  subst hpke
  have hwke : w2 = wk := by have := hup2.wire; rw [hwk] at this; exact (Option.some.inj this).symm
  subst hwke
  have hopts : pk.opts = p1.opts := evk.opts.trans (evc.opts.trans eva.opts)
  obtain ⟨Ha, hHa, hHa'⟩ := eva.history
  obtain ⟨Hb, hHb, hHb'⟩ := evb.history
  obtain ⟨Hk, hHk, hHk'⟩ := evk.history
  obtain ⟨Hs, hHs, hHs'⟩ : ∃ Hs, pc.history = pa.history ++ Hs ∧ (Hs = [] ∨ ∃ o, Hs = [(.subscribe ts ok, o)]) := by
    rcases call_history (m := m) (cfg := cfg) hpa hpc with h | ⟨o, h⟩
    · exact ⟨[], by rw [h, List.append_nil], Or.inl rfl⟩
    · exact ⟨_, h, Or.inr ⟨o, rfl⟩⟩
  have hi2 : PeerInv pk := hx2.inv.peer c pk hpk
  have hhist : pk.history = p1.history ++ (Ha ++ (Hs ++ Hk)) := by
    rw [hHk, hHs, hHa]; simp
  have nameda : ∀ x ∈ Ha, ¬ x.1.Names f := by
    intro x hx
    rcases hHa' x hx with ⟨r, ok, e⟩ | e
    · rw [e]; exact id
    · exact hno x.1 (by simp [e])
  have namedk : ∀ x ∈ Hk, ¬ x.1.Names f := by
    intro x hx
    rcases hHk' x hx with ⟨r, ok, e⟩ | e
    · rw [e]; exact id
    · exact hno x.1 (List.mem_append_right _ e)
  have namedb : ∀ x ∈ Hb, ¬ x.1.Names f := by
    intro x hx
    rcases hHb' x hx with ⟨r, ok, e⟩ | e
    · rw [e]; exact id
    · exact hno x.1 (by simp [e])
  -- the packets it sent
  generalize hNa : (Ha.filterMap (·.2.sent)).map Packet.received = Na at *
  generalize hNs : (Hs.filterMap (·.2.sent)).map Packet.received = Ns at *
  generalize hNk : (Hk.filterMap (·.2.sent)).map Packet.received = Nk at *
  have hout : pk.outgoing.map Packet.received = p1.outgoing.map Packet.received ++ (Na ++ Ns ++ Nk) := by
    unfold Peer.outgoing Peer.sents
    rw [hopts, hhist, ← hNa, ← hNs, ← hNk]
    simp
  have hna : ∀ q ∈ Na, ¬ PacketNames f q := by
    rw [← hNa]
    exact unnamed_entries hi2 (fun x hx => by rw [hhist]; simp [hx]) nameda
  have hnk : ∀ q ∈ Nk, ¬ PacketNames f q := by
    rw [← hNk]
    exact unnamed_entries hi2 (fun x hx => by rw [hhist]; simp [hx]) namedk
  have hns : Ns.length ≤ 1 := by
    rw [← hNs, List.length_map]
    refine Nat.le_trans (List.length_filterMap_le _ _) ?_
    rcases hHs' with rfl | ⟨o, rfl⟩ <;> simp
  have hncon : ∀ q, Packet.connect q ∉ Na ++ Ns ++ Nk := by
    intro q hq
    have hs : ((Ha ++ Hs ++ Hk).filterMap (·.2.sent)).map Packet.received = Na ++ Ns ++ Nk := by
      rw [← hNa, ← hNs, ← hNk]; simp
    rw [← hs] at hq
    refine no_connect_sent hi2 ?_ q hq
    intro y hy
    unfold Peer.sents
    rw [hhist, List.filterMap_append]
    exact List.mem_append_right _ (by simpa using hy)
  -- the packets the server got
  obtain ⟨k, hk⟩ := hx2.inv.packets hpk
  rw [packetsOf_append, hall, List.map_take, hout, List.take_append] at hk
  have hlen : (p1.outgoing.map Packet.received).length ≤ k := by
    have := congrArg List.length hk
    simp only [List.length_append, List.length_map, List.length_take] at this
    rw [List.length_map]
    omega
  rw [List.take_of_length_le hlen] at hk
  have hgot := List.append_cancel_left hk
  have hpre : packetsOf c (xa ++ (xb ++ xd)) <+: Na ++ Ns ++ Nk := by rw [hgot]; exact List.take_prefix _ _
  have hfirst := hx2.first c w1 hu1.wire hbeg
  have hsolo : Solo c pk.clientId pk.opts.protocolVersion (es ++ (xa ++ (xb ++ xd))) := hx2.inv.solo hpk halone
  have hopen2 : (Server.run cfg Server.init (es ++ (xa ++ (xb ++ xd)))).isOpen c := by
    rw [← hx2.inv.net.server]
    exact (hx2.inv.net.opened c).mpr ⟨w2, hwk, hup2.server, evk.begun (evc.begun (eva.begun hbeg))⟩
  have unsub : ∀ L : List Packet, (∀ q ∈ L, ¬ PacketNames f q) → (∀ q, Packet.connect q ∉ L) →
      ¬ subscribedBy f (p1.outgoing.map Packet.received ++ L) := by
    intro L h1 h2 h
    unfold subscribedBy at h
    rw [List.foldl_append] at h
    have h := (unnamed_keeps L h1 h2 _).mp h
    exact hnsub ((subscribedBy_outgoing (hi1.peer c p1 hp1) f) ▸ h)
  -- nothing is sent before
  have nothing : ∀ g rest, xa ++ (xb ++ xd) = g ++ rest → (∀ q ∈ packetsOf c g, ¬ PacketNames f q) →
      (Server.run cfg Server.init es).delivered cfg c f g = [] := by
    intro g rest hg hq
    have hinv := hx2.inv
    have hs := hsolo
    rw [hg] at hinv hs
    refine delivered_nothing hinv hpk (by rw [hopts]; exact hclean) hs ?_
    intro a' b' hab
    rw [packetsOf_append, hall]
    have hin : ∀ q ∈ packetsOf c a', q ∈ packetsOf c g := by
      intro q hq; rw [hab, packetsOf_append]; exact List.mem_append_left _ hq
    refine unsub _ (fun q hq' => hq q (hin q hq')) (fun q hq' => hncon q (hpre.subset ?_))
    rw [hg, packetsOf_append]
    exact List.mem_append_left _ (hin _ hq')
  have hbd : (Server.run cfg Server.init (es ++ (xa ++ (xb ++ xd)))).world.log = csA ++ (csB ++ csD) := by
    have e : es ++ (xa ++ (xb ++ xd)) = es ++ xa ++ xb ++ xd := by simp
    rw [e, hcsD, hcsB, hcsA, List.append_assoc]
  rcases prefix_special (P := PacketNames f) hpre hna hns hnk with hnone | ⟨s, L2, hs, hsn, hL, hL2⟩
  · -- the server has not got the SUBSCRIBE
    have hdel := nothing _ [] (by simp) hnone
    rw [hdel, List.filterMap_nil] at hX2 hX3
    have hX0 : X = [] := List.prefix_nil.mp hX2
    subst hX0
    have hr : Server.Reachable cfg (Server.run cfg Server.init (es ++ xa)) := ⟨_, rfl⟩
    obtain ⟨topics, t1, t2, _⟩ := hr.faithful.retained.lookup f hvf
    refine ⟨[], callsPub csB ++ callsPub csD, topics, rfl, fun _ => List.nil_prefix, t1, ?_, [], hX1, List.nil_sublist _,
      fun _ => ⟨List.nil_prefix, fun hq hsub => ?_⟩⟩
    · intro t
      rw [t2, List.append_nil, lastRetained_calls, Option.isSome_map, hcsA]
    · exfalso
      obtain ⟨p2', w2', hu2, r1, r2, _⟩ := hq.parts
      have := hu2.peer; rw [hpk] at this; cases this
      have := hu2.wire; rw [hwk] at this; cases this
      have hall2 := (hx2.inv.quiet hpk hwk hu2.server r1 r2).1
      rw [← subscribedBy_outgoing hi2 f, ← hall2, packetsOf_append, hall] at hsub
      exact unsub _ hnone (fun q hq => hncon q (hpre.subset hq)) hsub
  · -- the server has got it
    obtain ⟨x, rfl, hxf⟩ : ∃ x, s = .subscribe x ∧ f ∈ x.payload.map (·.topicFilter) := by
      rcases hHs' with rfl | ⟨o, rfl⟩
      · rw [← hNs] at hs; cases hs
      · rw [← hNs] at hs
        obtain ⟨l, _, e⟩ := hi2.steps (.subscribe ts ok, o) (by rw [hhist]; simp)
        have e : o = (l.step (.subscribe ts ok)).2 := e
        cases ho : o.sent with
        | none => simp [ho] at hs
        | some y =>
          simp only [List.filterMap_cons, ho, List.filterMap_nil, List.map_cons, List.map_nil, List.cons.injEq,
            and_true] at hs
          subst hs
          exact subscribe_sends (by rw [← e]; exact ho) hsn
    obtain ⟨g1, e2, hg, hg1, hg2⟩ := packetsOf_split _ hfirst hL
    have hxan : ∀ q ∈ packetsOf c xa, ¬ PacketNames f q := by
      have hxf' := fun p u w (hm : Event.first c p u w ∈ xa) => hfirst p u w (List.mem_append_left _ hm)
      obtain ⟨n1, n2⟩ := not_named hxa hp1 hu1.wire hall (f := f) (fun i hi => hno i (List.mem_append_left _ hi))
      intro q hq hn
      have hq := mem_packetsOf hxf' hq
      cases q with
      | subscribe z => exact n1 z hq hn
      | unsubscribe z => exact n2 z hq hn
      | _ => exact hn
    have hin : ∀ q, Event.recv c q ∈ xa → ¬ PacketNames f q := fun q hq => hxan q (mem_packetsOf_recv hq)
    obtain ⟨e1, rfl, hy⟩ : ∃ e1, g1 = xa ++ e1 ∧ xb ++ xd = e1 ++ .recv c (.subscribe x) :: e2 := by
      rcases List.append_eq_append_iff.mp hg with ⟨t, h1, h2⟩ | ⟨t, h1, h2⟩
      · exact ⟨t, h1, h2⟩
      · cases t with
        | nil => exact ⟨[], by rw [h1]; simp, by simpa using h2.symm⟩
        | cons z t =>
          simp only [List.cons_append, List.cons.injEq] at h2
          exact absurd hsn (hin (.subscribe x) (by rw [h1, ← h2.1]; simp))
    have hgn : ∀ q ∈ packetsOf c (xa ++ e1), ¬ PacketNames f q := by rw [hg1]; exact hna
    have hdel0 := nothing (xa ++ e1) (.recv c (.subscribe x) :: e2) (by rw [hg]) hgn
    have hfull : es ++ (xa ++ (xb ++ xd)) = (es ++ (xa ++ e1)) ++ .recv c (.subscribe x) :: e2 := by rw [hg]; simp
    obtain ⟨cs, topics, hcs, t1, t2, t3, t4⟩ := late_sent (cfg := cfg) (G := es ++ (xa ++ e1)) (e2 := e2) (c := c) (x := x) hvf hxf
      (fun q u w hm => hfirst q u w (by rw [hg]; exact List.mem_append_right _ hm))
      (by rw [← hfull]; exact hsolo) (by rw [← hfull]; exact hopen2) (by rw [hg2]; exact hL2)
      (by
        intro q hq
        rw [← hfull, ← hx2.inv.net.server] at hq
        exact (hx2.inv.tame.log q hq).2)
    have er : Server.run cfg Server.init (es ++ (xa ++ e1)) = (Server.run cfg Server.init es).run cfg (xa ++ e1) := by
      simp [Server.run]
    have hdel : (Server.run cfg Server.init es).delivered cfg c f (xa ++ (xb ++ xd)) =
        (Server.run cfg Server.init (es ++ (xa ++ e1))).delivered cfg c f (.recv c (.subscribe x) :: e2) := by
      rw [hg, delivered_append, hdel0, List.nil_append, er]
    rw [hdel] at hX2 hX3
    obtain ⟨k1, hk1⟩ := log_run cfg (Server.run cfg Server.init (es ++ xa)) e1
    have er2 : (Server.run cfg Server.init (es ++ xa)).run cfg e1 = Server.run cfg Server.init (es ++ (xa ++ e1)) := by
      simp [Server.run]
    rw [er2, hcsA] at hk1
    rw [← hfull, hbd, hk1, List.append_assoc] at hcs
    have hsplit := List.append_cancel_left hcs
    simp only [hk1, callsPub_append] at t2 t3 t4
    refine ⟨callsPub k1, callsPub cs, topics, ?_, ?_, t1, t2, X, hX1, hX2.sublist.trans t3, fun h16 => ?_⟩
    · rw [← callsPub_append, hsplit, callsPub_append]
    · rintro ⟨pb', wb', hub, r1, r2⟩
      have := hub.peer; rw [show σb.peers.get c = some pb from hpb] at this; cases this
      have := hub.wire; rw [show σb.net.wires.get c = some wb from hwb] at this; cases this
      have hallb := (hib.quiet hpb hwb hub.server r1 r2).1
      have hib2 : PeerInv pb := hib.peer c pb hpb
      have houtb : pb.outgoing.map Packet.received =
          p1.outgoing.map Packet.received ++ (Na ++ Ns ++ (Hb.filterMap (·.2.sent)).map Packet.received) := by
        unfold Peer.outgoing Peer.sents
        rw [evb.opts, evc.opts, eva.opts, hHb, hHs, hHa, ← hNa, ← hNs]
        simp
      rw [List.append_assoc, packetsOf_append, hall, houtb] at hallb
      have hgotb := List.append_cancel_left hallb
      have hm : Packet.subscribe x ∈ packetsOf c (xa ++ xb) := by rw [hgotb, hs]; simp
      have hm := mem_packetsOf (fun p u w hm => hfirst p u w (by
        rw [← List.append_assoc]; exact List.mem_append_left _ hm)) hm
      have hmb : Event.recv c (.subscribe x) ∈ xb := by
        rcases List.mem_append.mp hm with h | h
        · exact absurd hsn (hin _ h)
        · exact h
      have : ∃ e2', xb = e1 ++ .recv c (.subscribe x) :: e2' := by
        have he1 : Event.recv c (.subscribe x) ∉ e1 := by
          intro h
          refine hgn _ ?_ hsn
          rw [packetsOf_append]
          exact List.mem_append_right _ (mem_packetsOf_recv h)
        rcases List.append_eq_append_iff.mp hy with ⟨t, h1, h2⟩ | ⟨t, h1, h2⟩
        · exact absurd (by rw [h1]; exact List.mem_append_left _ hmb) he1
        · cases t with
          | nil =>
            rw [List.append_nil] at h1
            exact absurd (by rw [← h1]; exact hmb) he1
          | cons z t =>
            simp only [List.cons_append, List.cons.injEq] at h2
            exact ⟨t, by rw [h1, ← h2.1]⟩
      obtain ⟨e2', he2'⟩ := this
      obtain ⟨k4, hk4⟩ := log_run cfg (Server.run cfg Server.init (es ++ (xa ++ e1))) (.recv c (.subscribe x) :: e2')
      have er3 : (Server.run cfg Server.init (es ++ (xa ++ e1))).run cfg (.recv c (.subscribe x) :: e2') =
          Server.run cfg Server.init (es ++ xa ++ xb) := by
        rw [he2']; simp [Server.run]
      rw [er3, hcsB, hcsA, hk1, List.append_assoc] at hk4
      have := List.append_cancel_left hk4
      rw [this, callsPub_append]
      exact List.prefix_append _ _
    · obtain ⟨u1, u2⟩ := t4 h16
      refine ⟨hX2.trans u1, fun hq _ => ?_⟩
      rw [hX3 hq.2]
      apply u2
      obtain ⟨p2', w2', _, r3, _⟩ := hq.2
      have := r3 f
      rw [hx2.inv.net.server, hfull] at this
      exact this

/-! ## An example -/

/-- Two clients, both connected. -/
def exLate1 : List SysEvent := [
  .connect 0 { clientId := some (str "s") }, .serverRead 0 4096, .serverTurn 0 (str "u") true,
  .clientRead 0 4096, .clientTurn 0 true,
  .connect 1 { clientId := some (str "p") }, .serverRead 1 4096, .serverTurn 1 (str "v") true,
  .clientRead 1 4096, .clientTurn 1 true]

/-- The second one publishes to `a/b`, to be retained. -/
def exLateA : List SysEvent := [
  .app 1 (.publish (str "a/b") (str "hi") .atMostOnce true true), .serverRead 1 4096, .serverTurn 1 (str "v") true]

/-- After the first one has subscribed to `a/+` the server acts on that. -/
def exLateB : List SysEvent := [
  .serverRead 0 4096, .serverTurn 0 (str "u") true, .clientRead 0 4096, .clientTurn 0 true]

/-- Then there is a message on `a/c`. -/
def exLateD : List SysEvent := [
  .app 1 (.publish (str "a/c") (str "ho") .atMostOnce false true), .serverRead 1 4096, .serverTurn 1 (str "v") true,
  .deliver 0 (str "a/+"), .deliver 0 (str "a/+"), .clientRead 0 4096, .clientTurn 0 true, .clientTurn 0 true]

def exLate : List SysEvent :=
  exLate1 ++ (exLateA ++ (.app 0 (.subscribe [(str "a/+", .atMostOnce)] true) :: exLateB ++ exLateD))

def exLateσ1 : System := System.init.run .debug {} exLate1

def exLateσb : System := (exLateσ1.run .debug {} exLateA).run .debug {}
  (.app 0 (.subscribe [(str "a/+", .atMostOnce)] true) :: exLateB)

def exLateσ2 : System := exLateσb.run .debug {} exLateD

theorem exLate_ordinary : ∀ e ∈ exLate, e.Ordinary := by
  have adm : ∀ c (t : Str), TextField t → (SysEvent.connect c { clientId := some t }).Ordinary := by
    intro c t ht
    refine ⟨⟨?_, ?_, ?_, ?_⟩, ?_⟩
    · intro s hs; cases hs; exact ht
    all_goals (intro _ h; cases h)
  simp only [exLate, exLate1, exLateA, exLateB, exLateD, List.cons_append, List.nil_append, List.forall_mem_cons]
  refine ⟨adm _ _ (by decide), trivial, (by decide : TextField _), trivial, trivial, adm _ _ (by decide), trivial,
    (by decide : TextField _), trivial, trivial, ⟨by decide, by decide, by decide⟩, trivial, (by decide : TextField _),
    ⟨by decide, by decide, by decide⟩, trivial, (by decide : TextField _), trivial, trivial,
    ⟨by decide, by decide, by decide⟩, trivial, (by decide : TextField _), trivial, trivial, trivial, trivial, trivial,
    by simp⟩

/-- What the server sends to the first client. -/
def exLateSent : List Packet := [
  .connAck { protocolVersion := .v5, sessionPresent := false, reasonCode := .success, properties := none },
  .subAck { protocolVersion := .v5, packetId := 1, properties := none, payload := [.success] },
  .publish { dup := false, qos := .atMostOnce, retain := false, topicName := str "a/+", packetId := none
             properties := none, payload := some (str "hi") },
  .publish { dup := false, qos := .atMostOnce, retain := false, topicName := str "a/+", packetId := none
             properties := none, payload := some (str "ho") }]

theorem exLateSent_to (k : Nat) (b : Buf) (h : writePackets (exLateSent.take k) = (b, true)) :
    SentTo .v5 (exLateSent.take k) b := by
  have hw := writePackets_written (exLateSent.take k)
  rw [h] at hw
  obtain ⟨qs, _, h2, h3⟩ := hw
  rw [h2 rfl] at h3
  refine sentTo_of_ok h3 fun q hq => ?_
  have hq := List.mem_of_mem_take hq
  simp only [exLateSent, List.mem_cons, List.not_mem_nil, or_false] at hq
  rcases hq with rfl | rfl | rfl | rfl
  · refine ⟨⟨by decide, fun _ => ?_⟩, [32, 3, 0, 0, 0], by decide, by unfold FitsMqtt; decide⟩
    intro _ h; cases h
  · refine ⟨⟨by decide, fun _ => ?_⟩, [144, 4, 0, 1, 0, 0], by decide, by unfold FitsMqtt; decide⟩
    exact ⟨(fun _ h => by cases h), by simp⟩
  · refine ⟨⟨?_, by simp, by simp, (fun _ h => by cases h)⟩, [48, 8, 0, 3, 97, 47, 43, 0, 104, 105], by decide, by unfold FitsMqtt; decide⟩
    decide
  · refine ⟨⟨?_, by simp, by simp, (fun _ h => by cases h)⟩, [48, 8, 0, 3, 97, 47, 43, 0, 104, 111], by decide, by unfold FitsMqtt; decide⟩
    decide

theorem exLate_reads : ReadsWell .debug {} 0 System.init exLate := by
  have got : ∀ (σ : System) (k : Nat) (s : Buf), EndsWell .v5 (exLateSent.take k) s.length →
      ((σ.peers.get 0).map (fun p => (p.opts.protocolVersion, p.got)), (σ.net.wires.get 0).map (·.sent)) =
        (some (.v5, s), some s) →
      writePackets (exLateSent.take k) = (s, true) →
      ∀ p w, σ.peers.get 0 = some p → σ.net.wires.get 0 = some w →
        GotWell p.opts.protocolVersion w.sent p.got := by
    intro σ k s h0 h1 h2 p w hp hw
    rw [hp, hw] at h1
    simp only [Option.map_some, Prod.mk.injEq, Option.some.injEq] at h1
    rw [h1.1.1, h1.1.2, h1.2]
    exact ⟨_, s, exLateSent_to k s h2, List.prefix_rfl, List.prefix_rfl, h0⟩
  have e1 : EndsWell .v5 (exLateSent.take 1) 5 := Or.inr ⟨[32, 3, 0, 0, 0], by decide, trivial⟩
  have e2 : EndsWell .v5 (exLateSent.take 2) 11 :=
    Or.inr ⟨[32, 3, 0, 0, 0], by decide, Or.inr ⟨[144, 4, 0, 1, 0, 0], by decide, trivial⟩⟩
  have e4 : EndsWell .v5 (exLateSent.take 4) 31 :=
    Or.inr ⟨[32, 3, 0, 0, 0], by decide, Or.inr ⟨[144, 4, 0, 1, 0, 0], by decide,
      Or.inr ⟨[48, 8, 0, 3, 97, 47, 43, 0, 104, 105], by decide,
        Or.inr ⟨[48, 8, 0, 3, 97, 47, 43, 0, 104, 111], by decide, trivial⟩⟩⟩⟩
  refine ⟨by simp, by decide, by simp, by decide, by simp, by decide,
    fun n _ => got _ 1 [32, 3, 0, 0, 0] e1 (by decide +kernel) (by decide +kernel), by decide,
    by simp, by decide, by simp, by decide, by simp, by decide, by simp, by decide, by simp, by decide, by simp, by decide,
    by simp, by decide, by simp, by decide, by simp, by decide,
    by simp, by decide, by simp, by decide, by simp, by decide,
    fun n _ => got _ 2 [32, 3, 0, 0, 0, 144, 4, 0, 1, 0, 0] e2 (by decide +kernel) (by decide +kernel), by decide,
    by simp, by decide, by simp, by decide, by simp, by decide, by simp, by decide, by simp, by decide, by simp, by decide,
    fun n _ => got _ 4 [32, 3, 0, 0, 0, 144, 4, 0, 1, 0, 0, 48, 8, 0, 3, 97, 47, 43, 0, 104, 105, 48, 8, 0, 3, 97, 47,
      43, 0, 104, 111] e4 (by decide +kernel) (by decide +kernel), by decide,
    by simp, by decide, by simp, by decide, trivial⟩

theorem exLate_quiet1 : exLateσ1.Quiet .debug {} 0 :=
  quiet_check (fs := []) (by decide +kernel) (by decide +kernel) (by decide +kernel)

theorem exLate_quietb : exLateσb.QuietUp 0 := by
  have h : (match exLateσb.peers.get 0, exLateσb.net.wires.get 0 with
    | some p, some w => w.running && p.socketOpen && p.phase != .connecting && w.rcvd == p.wrote &&
        w.buf == []
    | _, _ => false) = true := by decide +kernel
  split at h
  · rename_i p w hp hw
    simp only [Bool.and_eq_true, bne_iff_ne, beq_iff_eq] at h
    obtain ⟨⟨⟨⟨a1, a2⟩, a3⟩, a4⟩, a5⟩ := h
    refine ⟨p, w, ⟨hp, hw, a1, ?_⟩, a4, a5⟩
    unfold Peer.socketOpen at a2
    unfold Peer.loop
    split at a2
    · rename_i hx; exact absurd hx a3
    · rename_i l hx; exact ⟨l, by simp [hx], a2⟩
    · cases a2
  · cases h

theorem exLate_quiet2 : exLateσ2.Quiet .debug {} 0 :=
  quiet_check (fs := [str "a/+"]) (by decide +kernel) (by decide +kernel) (by decide +kernel)

/-- The hypotheses hold: the application gets the retained message that was published before it subscribed, and the
one published afterwards. -/
example : (∀ e ∈ exLate, e.Ordinary) ∧ ReadsWell .debug {} 0 System.init exLate ∧ ValidFilter (str "a/+") ∧
    exLateσ1.Quiet .debug {} 0 ∧ exLateσb.QuietUp 0 ∧ exLateσ2.Quiet .debug {} 0 ∧
    (∀ p, exLateσ1.peers.get 0 = some p → p.opts.cleanStart = true ∧ ¬ p.subscribedTo (str "a/+")) ∧
    (∀ i, SysEvent.app 0 i ∈ exLateA ++ (exLateB ++ exLateD) → ¬ i.Names (str "a/+")) ∧
    (∃ p w, exLateσ2.Up 0 p w ∧ exLateσ2.Apart 0 p ∧ p.subscribedTo (str "a/+")) ∧
    (exLateσ1.peers.get 0).map (·.heardOn (str "a/+")) = some [] ∧
    (exLateσ2.peers.get 0).map (·.heardOn (str "a/+")) =
      some [⟨str "a/+", str "hi", .atMostOnce, false⟩, ⟨str "a/+", str "ho", .atMostOnce, false⟩] := by
  refine ⟨exLate_ordinary, exLate_reads, (C23_filter_iff _).mp (by decide +kernel), exLate_quiet1, exLate_quietb,
    exLate_quiet2, ?_, ?_, ?_, by decide +kernel, by decide +kernel⟩
  · intro p hp
    have h : (exLateσ1.peers.get 0).map (fun p => (p.opts.cleanStart, p.history)) = some (true, []) := by decide +kernel
    rw [hp] at h
    simp only [Option.map_some, Option.some.injEq, Prod.mk.injEq] at h
    exact ⟨h.1, by simp [Peer.subscribedTo, h.2]⟩
  · intro i hi
    simp [exLateA, exLateB, exLateD] at hi
  · obtain ⟨p, w, h, _⟩ := exLate_quiet2.parts
    refine ⟨p, w, h, apart_check h.peer (by decide +kernel), ?_⟩
    have h2 : (exLateσ2.peers.get 0).map (fun p => p.history.map fun e => (e.1, e.2.result)) =
      some [(.subscribe [(str "a/+", .atMostOnce)] true, some (.subscribed [(str "a/+", .atMostOnce, true)])),
        (.read (.packet (.subAck { packetId := 1, properties := some {}, payload := [.success] })) true, none),
        (.read (.packet (.publish ⟨false, .atMostOnce, false, str "a/+", none, some {}, some (str "hi")⟩)) true, none),
        (.read (.packet (.publish ⟨false, .atMostOnce, false, str "a/+", none, some {}, some (str "ho")⟩)) true, none)] := by
      decide +kernel
    rw [h.peer] at h2
    simp only [Option.map_some, Option.some.injEq] at h2
    have hf : ∀ (l : List (ClientIn × ClientOut)) (b : Prop), l.foldl (entrySub (str "a/+")) b =
        (l.map fun e => (e.1, e.2.result)).foldl (fun b e => entrySub (str "a/+") b (e.1, { result := e.2 })) b := by
      intro l
      induction l with
      | nil => intro b; rfl
      | cons x l ih =>
        intro b
        rw [List.foldl_cons, List.map_cons, List.foldl_cons, ih]
        rcases x with ⟨i, o⟩
        cases i <;> rfl
    rw [subscribedTo_entries, hf, h2]
    simp [entrySub]

end Mercurio
