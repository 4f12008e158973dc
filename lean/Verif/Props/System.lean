import Verif.Lemmas.Track

/-!
# C74: what applications see of each other
-/

namespace Mercurio

open Spec Server

/-! ## Quiet clients -/

theorem System.Quiet.parts {m : Mode} {cfg : AuthConfig} {σ : System} {c : Nat} (h : σ.Quiet m cfg c) :
    ∃ p w, σ.Up c p w ∧ w.rcvd = p.wrote ∧ w.buf = [] ∧ (∀ f, (σ.net.server.step cfg (.deliver c f)).2 = {}) ∧
      p.got = w.sent ∧ clientParse m p.opts.protocolVersion p.buf = .needMore := by
  obtain ⟨⟨p, w, hu, h1, h2⟩, p', w', hu', h3⟩ := h
  have := hu.peer
  rw [hu'.peer] at this
  cases this
  have := hu.wire
  rw [hu'.wire] at this
  cases this
  exact ⟨p, w, hu, h1, h2, h3⟩

/-- Of a client with nothing in transit the server has read everything. -/
theorem SysInv.quiet_sent {cfg : AuthConfig} {σ : System} {es : List Event} (h : SysInv cfg σ es) {d : Nat}
    {p : Peer} {w : Wire} (hp : σ.peers.get d = some p) (hw : σ.net.wires.get d = some w) (hr : w.running = true)
    (hq : w.rcvd = p.wrote) (hn : w.buf = []) :
    packetsOf d es = p.outgoing.map Packet.received ∧ Sent p.outgoing p.wrote := by
  have hs := (h.peer d p hp).sent
  obtain ⟨k, hk, hrest⟩ := h.net.read d w hw _ _ [] hs (by rw [List.append_nil]; exact hq)
  rcases hrest hr with ⟨done, h1, h2, h3⟩ | ⟨_, t, ht⟩
  · rw [hn, List.append_nil, hq] at h2
    subst h2
    obtain ⟨r, s3, s2⟩ := SentOn.rest h1 (rs := p.outgoing.drop k) (by rw [List.take_append_drop]; exact hs)
    have hr0 : r = [] := by
      have := congrArg List.length s3
      rw [List.length_append] at this
      exact List.length_eq_zero_iff.mp (by omega)
    subst hr0
    have hdrop : p.outgoing.drop k = [] := by
      generalize p.outgoing.drop k = qs at s2
      generalize hb0 : ([] : Buf) = b0 at s2
      cases s2 with
      | nil => rfl
      | @cons q b _ bs hsv he hft _ =>
        exfalso
        obtain ⟨rfl, rfl⟩ := List.append_eq_nil_iff.mp hb0.symm
        have := parsePacket_encode .debug hsv he hft (rest := []) (by decide)
        cases this
      | ping => cases hb0
    rw [List.take_of_length_le (List.drop_eq_nil_iff.mp hdrop)] at hk h1
    exact ⟨hk, h1⟩
  · rw [hn] at ht; cases ht

/-- Of a client with nothing in transit the server has acted on everything. -/
theorem SysInv.quiet {cfg : AuthConfig} {σ : System} {es : List Event} (h : SysInv cfg σ es) {d : Nat}
    {p : Peer} {w : Wire} (hp : σ.peers.get d = some p) (hw : σ.net.wires.get d = some w) (hr : w.running = true)
    (hq : w.rcvd = p.wrote) (hn : w.buf = []) :
    packetsOf d es = p.outgoing.map Packet.received ∧ w.begun = true ∧
      (Server.run cfg Server.init es).isOpen d := by
  obtain ⟨hk, _⟩ := h.quiet_sent hp hw hr hq hn
  have hb : w.begun = true := by
    cases hb : w.begun with
    | true => rfl
    | false =>
      have := h.net.begun d w hw hb
      rw [hk] at this
      simp [Peer.outgoing] at this
  refine ⟨hk, hb, ?_⟩
  rw [← h.net.server]
  exact (h.net.opened d).mpr ⟨w, hw, hr, hb⟩

theorem filterMap_pubOf (ps : List Packet) :
    (ps.map Packet.received).filterMap pubOf = ps.filterMap pubOf := by
  rw [List.filterMap_map]
  exact List.filterMap_congr fun q _ => pubOf_received q

theorem outgoing_published {p : Peer} (h : PeerInv p) : p.outgoing.filterMap pubOf = p.published := by
  rw [h.published]; rfl

/-- What the broker has of a client is a first part of what its application published. -/
theorem SysInv.logged {cfg : AuthConfig} {σ : System} {es : List Event} (h : SysInv cfg σ es) {d : Nat} {p : Peer}
    (hp : σ.peers.get d = some p) :
    byClient d (callsPub (Server.run cfg Server.init es).world.log) <+: p.published := by
  obtain ⟨k, hk⟩ := h.packets hp
  refine (h.log d).1.trans ?_
  rw [hk, filterMap_pubOf, ← outgoing_published (h.peer d p hp)]
  obtain ⟨t, ht⟩ := List.take_prefix k p.outgoing
  conv => rhs; rw [← ht, List.filterMap_append]
  exact List.prefix_append _ _

/-- ... and all of it if nothing is in transit. -/
theorem SysInv.logged_all {cfg : AuthConfig} {σ : System} {es : List Event} (h : SysInv cfg σ es) {d : Nat}
    (hq : σ.QuietUp d) {p : Peer} (hp : σ.peers.get d = some p) :
    byClient d (callsPub (Server.run cfg Server.init es).world.log) = p.published := by
  obtain ⟨p', w, hu, h1, h2⟩ := hq
  have := hu.peer
  rw [hp] at this
  cases this
  obtain ⟨a, _, b⟩ := h.quiet hp hu.wire hu.server h1 h2
  rw [(h.log d).2 b, a, filterMap_pubOf, outgoing_published (h.peer d p hp)]

/-! ## What the subscriber is sent -/

theorem heardOf_receivedBy (v : ProtocolVersion) (q : Packet) : heardOf (q.receivedBy v) = heardOf q := by
  cases q <;> simp only [Packet.receivedBy] <;> (try split) <;> rfl

/-- A connection that is open was open before, unless it was just made. -/
theorem open_before {cfg : AuthConfig} {srv : Server} {e : Event} {c : Nat} (he : ∀ q u b, e ≠ .first c q u b)
    (h : (srv.step cfg e).1.isOpen c) : srv.isOpen c := by
  obtain ⟨k, hk⟩ := h
  have other : ∀ d, e.conn = some d → d ≠ c → srv.isOpen c := by
    intro d hd hdc
    rw [conns_other cfg srv hd (Ne.symm hdc)] at hk
    exact ⟨k, hk⟩
  have loc : LocalTo c e → srv.isOpen c := by
    intro hl
    rcases (step_local cfg srv hl).conns with e1 | e1
    · rw [e1] at hk; exact ⟨k, hk⟩
    · rw [e1, Map.get_erase, if_pos rfl] at hk; cases hk
  cases e with
  | first d p u w =>
    by_cases hd : d = c
    · subst hd; exact absurd rfl (he p u w)
    · exact other d rfl hd
  | recv d p =>
    by_cases hd : d = c
    · subst hd; exact loc (.recv p)
    · exact other d rfl hd
  | deliver d f =>
    by_cases hd : d = c
    · subst hd; exact loc (.deliver f)
    · exact other d rfl hd
  | close d =>
    by_cases hd : d = c
    · subst hd; exact loc .close
    · exact other d rfl hd
  | abort d =>
    by_cases hd : d = c
    · subst hd
      simp [Server.step, Map.get_erase] at hk
    · exact other d rfl hd
  | restart => simp [Server.step, Map.get] at hk

/-- The messages with topic `f` among the packets sent on a connection are those sent for the
subscription `f`. -/
theorem sent_for {W : StoredWill → Prop} {cfg : AuthConfig} {es0 : List Event} {c : Nat} (f : Str) (ext : List Event)
    (hg : GoodHist W ext) (hf : ∀ q u b, Event.first c q u b ∉ ext) :
    (((Server.run cfg Server.init es0).sentTo cfg c ext).filterMap heardOf).filter (fun x => x.topic = f) =
      ((Server.run cfg Server.init es0).delivered cfg c f ext).filterMap heardOf := by
  induction ext using snoc_induction with
  | h0 => rfl
  | hs l e ih =>
    have ih := ih (fun x hx => hg x (List.mem_append_left _ hx)) (fun q u b hm => hf q u b (List.mem_append_left _ hm))
    have he := hg e (by simp)
    have hfe : ∀ q u b, e ≠ .first c q u b := fun q u b hm => hf q u b (by simp [hm])
    rw [sentTo_snoc, delivered_snoc, List.filterMap_append, List.filter_append, List.filterMap_append, ih]
    congr 1
    have hr : Server.Reachable cfg ((Server.run cfg Server.init es0).run cfg l) := by
      refine ⟨es0 ++ l, ?_⟩
      simp [Server.run]
    generalize (Server.run cfg Server.init es0).run cfg l = srv at *
    by_cases hc : e.conn = some c
    · rw [if_pos hc]
      have none_ : (srv.step cfg e).2.sent.filterMap heardOf = [] → e ≠ .deliver c f →
          ((srv.step cfg e).2.sent.filterMap heardOf).filter (fun x => x.topic = f) =
            (if e = .deliver c f then (srv.step cfg e).2.sent else []).filterMap heardOf := by
        intro h1 h2
        rw [h1, if_neg h2]; rfl
      cases e with
      | first d q u b => cases hc; exact absurd rfl (hfe q u b)
      | recv d q =>
        cases hc
        refine none_ ?_ (by simp)
        cases ha : srv.at c with
        | none =>
          have : srv.step cfg (.recv c q) = (srv, {}) := by simp only [Server.step]; exact onConn_none ha _
          rw [this]; rfl
        | some s =>
          refine List.filterMap_eq_nil_iff.mpr fun x hx => ?_
          have := (recv_out cfg ha he x hx).2
          cases x <;> first | rfl | exact absurd rfl (this _)
      | deliver d g =>
        cases hc
        have hsent := deliver_sent (cfg := cfg) hr c g
        by_cases hfg : g = f
        · subst hfg
          rw [if_pos rfl]
          refine List.filter_eq_self.mpr fun x hx => ?_
          obtain ⟨q, hq, hqx⟩ := List.mem_filterMap.mp hx
          obtain ⟨_, mm, _, _, _, rfl⟩ := hsent q hq
          simp only [forwarded, heardOf, Option.some.injEq] at hqx
          rw [← hqx]; simp
        · rw [if_neg (by intro h; cases h; exact hfg rfl)]
          refine List.filter_eq_nil_iff.mpr fun x hx => ?_
          obtain ⟨q, hq, hqx⟩ := List.mem_filterMap.mp hx
          obtain ⟨_, mm, _, _, _, rfl⟩ := hsent q hq
          simp only [forwarded, heardOf, Option.some.injEq] at hqx
          rw [← hqx]; simpa using hfg
      | close d =>
        refine none_ ?_ (by simp)
        simp only [Server.step]
        cases ha : srv.at d with
        | none => rw [onConn_none ha]; rfl
        | some s =>
          obtain ⟨k, _, _, e⟩ := onConn_at ha (fun r s => (srv.finish d r s, {}))
          rw [e]; rfl
      | abort d => exact none_ rfl (by simp)
      | restart => cases hc
    · rw [if_neg hc, if_neg (by rintro rfl; exact hc rfl)]; rfl

/-- Messages of the log as a subscriber gets them. -/
theorem heardFor_calls (f : Str) (cs : List Call) :
    heardFor f (callsPub cs) = ((matching f (Call.publications cs)).map (forwarded f)).filterMap heardOf := by
  classical
  induction cs with
  | nil => simp [heardFor, callsPub, Call.publications, matching]
  | cons x cs ih =>
    cases x with
    | publish s t mm =>
      have e1 : callsPub (Call.publish s t mm :: cs) =
          (s, ⟨t, mm.payload.getD [], mm.qos, mm.retain⟩) :: callsPub cs := rfl
      have e2 : Call.publications (Call.publish s t mm :: cs) = (t, mm) :: Call.publications cs := rfl
      rw [e1, e2]
      unfold heardFor matching at ih ⊢
      by_cases hm : Matches f t
      · simp only [List.filter_cons, hm, decide_true, if_true, List.map_cons]
        rw [ih]
        rfl
      · simp only [List.filter_cons, hm, decide_false, Bool.false_eq_true, if_false]
        exact ih
    | _ => exact ih

theorem matching_prefix {f : Str} {a b : List (Str × Message)} (h : a <+: b) :
    (matching f a).length ≤ (matching f b).length := by
  obtain ⟨t, rfl⟩ := h
  rw [matching_append, List.length_append]; omega

/-! ## From application to application -/

/-- What was published between two states. -/
theorem published_between {m : Mode} {cfg : AuthConfig} {σ1 σ2 : System} {es ext : List Event} {evs : List SysEvent}
    (h1 : SysInv cfg σ1 es) (h2 : History m cfg σ1 σ2 es ext evs) :
    ∃ cs, (Server.run cfg Server.init (es ++ ext)).world.log = (Server.run cfg Server.init es).world.log ++ cs ∧
      PublishedBetween σ1 σ2 (callsPub cs) := by
  have erun : Server.run cfg Server.init (es ++ ext) = (Server.run cfg Server.init es).run cfg ext := by
    simp [Server.run]
  obtain ⟨cs, hcs⟩ := log_run cfg (Server.run cfg Server.init es) ext
  rw [← erun] at hcs
  refine ⟨cs, hcs, ?_, ?_, ?_, ?_⟩
  · intro d q2 hq2
    obtain ⟨t, ht⟩ := h2.inv.logged hq2
    rw [hcs, callsPub_append, byClient_append] at ht
    exact ⟨_, t, ht⟩
  · intro d q1 q2 hq1 hq2 hqu
    have e1 := h1.logged_all hqu hq1
    obtain ⟨w1, hw1⟩ := Option.isSome_iff_exists.mp ((h1.ends d).mpr (by rw [hq1]; rfl))
    obtain ⟨p', w', hp', _, hev⟩ := h2.peer d q1 w1 hq1 hw1
    rw [hq2] at hp'
    cases hp'
    obtain ⟨H, hH, _⟩ := hev.history
    have e2 : q2.published = q1.published ++ H.filterMap entryPub := by
      rw [published_entries, hH, List.filterMap_append]; rfl
    refine ⟨_, e2, ?_, fun hq => ?_⟩
    · have := h2.inv.logged hq2
      rw [hcs, callsPub_append, byClient_append, e1, e2] at this
      exact (List.prefix_append_right_inj _).mp this
    · have := h2.inv.logged_all hq hq2
      rw [hcs, callsPub_append, byClient_append, e1, e2] at this
      exact List.append_cancel_left this
  · intro d q2 hq1 hq2
    have hnil : byClient d (callsPub (Server.run cfg Server.init es).world.log) = [] := by
      have hw : σ1.net.wires.get d = none := by
        cases hw : σ1.net.wires.get d with
        | none => rfl
        | some w => have := (h1.ends d).mp (by rw [hw]; rfl); rw [hq1] at this; cases this
      have := (h1.log d).1
      rw [(h1.net.unused d hw).1] at this
      exact List.prefix_nil.mp this
    refine ⟨?_, fun hq => ?_⟩
    · have := h2.inv.logged hq2
      rwa [hcs, callsPub_append, byClient_append, hnil] at this
    · have := h2.inv.logged_all hq hq2
      rwa [hcs, callsPub_append, byClient_append, hnil] at this
  · rintro ⟨s, pb⟩ hq
    obtain ⟨x, hx, hxe⟩ := List.mem_filterMap.mp hq
    have hlog : x ∈ (Server.run cfg Server.init (es ++ ext)).world.log := by
      rw [hcs]; exact List.mem_append_right _ hx
    cases x with
    | publish s' t mm =>
      simp only [callPub, Option.some.injEq, Prod.mk.injEq] at hxe
      obtain ⟨rfl, rfl⟩ := hxe
      cases s' with
      | client d =>
        have hne : packetsOf d (es ++ ext) ≠ [] := by
          intro hn
          have := (h2.inv.log d).1
          rw [hn] at this
          have h0 := List.prefix_nil.mp this
          have hmem : (⟨t, mm.payload.getD [], mm.qos, mm.retain⟩ : Publication) ∈
              byClient d (callsPub (Server.run cfg Server.init (es ++ ext)).world.log) := by
            unfold byClient callsPub
            refine List.mem_map.mpr ⟨(.client d, _), List.mem_filter.mpr ⟨List.mem_filterMap.mpr ⟨_, hlog, rfl⟩, by simp⟩, rfl⟩
          rw [h0] at hmem
          cases hmem
        obtain ⟨p, hp⟩ := h2.inv.peer_of_packet hne
        exact Or.inl ⟨d, p, rfl, hp⟩
      | will d =>
        rw [← h2.inv.net.server] at hlog
        obtain ⟨w, ⟨d', p, cw, hp, hcw, rfl⟩, rfl, rfl⟩ := h2.inv.tame.wills d t mm hlog
        exact Or.inr ⟨d', d, p, cw, rfl, hp, hcw, by simp [willMessage]⟩
    | _ => simp [callPub] at hxe

theorem calmRun_of {cfg : AuthConfig} {c : Nat} {f : Str} (ext : List Event) : ∀ {srv : Server},
    (∀ a e b, ext = a ++ e :: b → Calm cfg (srv.run cfg a) c f e) → CalmRun cfg c f srv ext := by
  induction ext with
  | nil => intro srv _; exact trivial
  | cons x ext ih =>
    intro srv h
    exact ⟨h [] x ext rfl, ih fun a e b hab => h (x :: a) e b (by rw [hab]; rfl)⟩

theorem readsWell_append {m : Mode} {cfg : AuthConfig} {c : Nat} (a : List SysEvent) : ∀ {σ : System} {b : List SysEvent},
    ReadsWell m cfg c σ (a ++ b) → ReadsWell m cfg c σ a ∧ ReadsWell m cfg c (σ.run m cfg a) b := by
  induction a with
  | nil => intro σ b h; exact ⟨trivial, h⟩
  | cons e a ih =>
    intro σ b h
    obtain ⟨h1, h2, h3⟩ := h
    exact ⟨⟨h1, h2, (ih h3).1⟩, (ih h3).2⟩

/-- A packet the client sends about `f` was asked for by a call that names `f`. -/
theorem names_of_sent {l : Client} {i : ClientIn} {q : Packet} (h : (l.step i).2.sent = some q) (f : Str) :
    (∀ x, q.received = .subscribe x → f ∈ x.payload.map (·.topicFilter) → i.Names f) ∧
    (∀ x, q.received = .unsubscribe x → f ∈ x.payload → i.Names f) := by
  unfold Client.step at h
  split at h
  · unfold Client.take at h; split at h <;> cases h
  split at h
  · cases h
  split at h
  · cases i with
    | recv => cases h
    | read r ok =>
      cases r with
      | packet p =>
        simp only [Client.turn, Client.incoming] at h
        cases p with
        | publish p =>
          simp only at h
          split at h
          · split at h
            · cases h; exact ⟨fun x hx => (by cases hx), fun x hx => (by cases hx)⟩
            · cases h
            · cases h
            · cases h
          · cases h
        | _ => cases h
      | closed => cases h
      | error e => cases h
      | panicked => cases h
    | publish t pl qs r ok =>
      have := call_sent h
      subst this
      exact ⟨fun x hx => (by cases hx), fun x hx => (by cases hx)⟩
    | subscribe ts ok =>
      have := call_sent h
      subst this
      refine ⟨fun x hx hf => ?_, fun x hx => (by cases hx)⟩
      cases hx
      simpa [SubscribePacket.received, ClientIn.Names, List.map_map, Function.comp_def] using hf
    | unsubscribe ts ok =>
      have := call_sent h
      subst this
      refine ⟨fun x hx => (by cases hx), fun x hx hf => ?_⟩
      cases hx
      exact hf
    | disconnect ok =>
      have := call_sent h
      subst this
      exact ⟨fun x hx => (by cases hx), fun x hx => (by cases hx)⟩
    | tick ok =>
      cases ok with
      | true => cases h; exact ⟨fun x hx => (by cases hx), fun x hx => (by cases hx)⟩
      | false => cases h
  · cases i <;> cases h

/-- The packets the server got from a client since nothing was in transit from it: none names `f` if
no call did. -/
theorem not_named {m : Mode} {cfg : AuthConfig} {σ1 σ2 : System} {es ext : List Event} {evs : List SysEvent}
    (h2 : History m cfg σ1 σ2 es ext evs) {c : Nat} {p1 : Peer} {w1 : Wire} {f : Str}
    (hp : σ1.peers.get c = some p1) (hw : σ1.net.wires.get c = some w1)
    (hall : packetsOf c es = p1.outgoing.map Packet.received)
    (hno : ∀ i, SysEvent.app c i ∈ evs → ¬ i.Names f) :
    (∀ x, Event.recv c (.subscribe x) ∈ ext → f ∉ x.payload.map (·.topicFilter)) ∧
    (∀ x, Event.recv c (.unsubscribe x) ∈ ext → f ∉ x.payload) := by
  obtain ⟨p2, w2, hp2, hw2, hev⟩ := h2.peer c p1 w1 hp hw
  obtain ⟨H, hH, hHe⟩ := hev.history
  have hi2 := h2.inv.peer c p2 hp2
  have hout : p2.outgoing = p1.outgoing ++ H.filterMap (·.2.sent) := by
    unfold Peer.outgoing Peer.sents
    rw [hev.opts, hH, List.filterMap_append]; rfl
  obtain ⟨k, hk⟩ := h2.inv.packets hp2
  rw [packetsOf_append, hall, hout] at hk
  have key : ∀ q, Event.recv c q ∈ ext → ∃ x ∈ H, ∃ y, x.2.sent = some y ∧ q = y.received := by
    intro q hq
    have hq := mem_packetsOf_recv hq
    have hlen : p1.outgoing.length ≤ k := by
      have := congrArg List.length hk
      simp only [List.length_append, List.length_map, List.length_take] at this
      omega
    rw [List.take_append, List.take_of_length_le hlen, List.map_append] at hk
    rw [List.append_cancel_left hk] at hq
    obtain ⟨y, hy, rfl⟩ := List.mem_map.mp hq
    obtain ⟨x, hx, hxy⟩ := List.mem_filterMap.mp (List.mem_of_mem_take hy)
    exact ⟨x, hx, y, hxy, rfl⟩
  have named : ∀ x ∈ H, ¬ x.1.Names f := by
    intro x hx
    rcases hHe x hx with ⟨r, ok, e⟩ | e
    · rw [e]; exact id
    · exact hno x.1 e
  have stp : ∀ x ∈ H, ∃ l : Client, x.2 = (l.step x.1).2 := by
    intro x hx
    obtain ⟨l, _, e⟩ := hi2.steps x (by rw [hH]; exact List.mem_append_right _ hx)
    exact ⟨l, e⟩
  constructor
  · intro q hq hf
    obtain ⟨x, hx, y, hy, e⟩ := key _ hq
    obtain ⟨l, hl⟩ := stp x hx
    rw [hl] at hy
    exact named x hx ((names_of_sent hy f).1 q e.symm hf)
  · intro q hq hf
    obtain ⟨x, hx, y, hy, e⟩ := key _ hq
    obtain ⟨l, hl⟩ := stp x hx
    rw [hl] at hy
    exact named x hx ((names_of_sent hy f).2 q e.symm hf)

/-- The subscription is left in place throughout. -/
theorem calm_since {cfg : AuthConfig} {es ext : List Event} {c : Nat} {f : Str} {id : Str} {v : ProtocolVersion}
    (hf : ∀ q u b, Event.first c q u b ∉ ext) (hs : Solo c id v (es ++ ext)) (ho : (Server.run cfg Server.init (es ++ ext)).isOpen c)
    (hsub : ∀ x, Event.recv c (.subscribe x) ∈ ext → f ∉ x.payload.map (·.topicFilter))
    (huns : ∀ x, Event.recv c (.unsubscribe x) ∈ ext → f ∉ x.payload) :
    CalmRun cfg c f (Server.run cfg Server.init es) ext := by
  have opn : ∀ b a, ext = a ++ b → (Server.run cfg Server.init (es ++ a)).isOpen c := by
    intro b
    induction b with
    | nil => intro a hab; rw [List.append_nil] at hab; rw [← hab]; exact ho
    | cons x b ih =>
      intro a hab
      have := ih (a ++ [x]) (by rw [hab, List.append_assoc]; rfl)
      rw [← List.append_assoc, run_snoc] at this
      refine open_before (e := x) ?_ this
      intro q u w hx
      exact hf q u w (by rw [hab, ← hx]; simp)
  refine calmRun_of ext fun a e b hab => ?_
  have er : (Server.run cfg Server.init es).run cfg a = Server.run cfg Server.init (es ++ a) := by
    simp [Server.run]
  rw [er]
  have hsa : Solo c id v (es ++ a) := by
    rw [hab, ← List.append_assoc] at hs
    exact hs.init
  refine ⟨?_, ?_, ?_, ?_⟩
  · rw [← run_snoc, List.append_assoc]
    exact opn b (a ++ [e]) (by rw [hab, List.append_assoc]; rfl)
  · intro d hd
    exact hsa.apart _ hd
  · rintro x rfl
    exact hsub x (by rw [hab]; simp)
  · rintro x rfl
    exact huns x (by rw [hab]; simp)

theorem calm_history {m : Mode} {cfg : AuthConfig} {σ1 σ2 : System} {es ext : List Event} {evs : List SysEvent}
    (h2 : History m cfg σ1 σ2 es ext evs) {c : Nat} {w1 : Wire} {f : Str} {id : Str} {v : ProtocolVersion}
    (hw : σ1.net.wires.get c = some w1) (hb : w1.begun = true)
    (hs : Solo c id v (es ++ ext)) (ho : (Server.run cfg Server.init (es ++ ext)).isOpen c)
    (hsub : ∀ x, Event.recv c (.subscribe x) ∈ ext → f ∉ x.payload.map (·.topicFilter))
    (huns : ∀ x, Event.recv c (.unsubscribe x) ∈ ext → f ∉ x.payload) :
    CalmRun cfg c f (Server.run cfg Server.init es) ext :=
  calm_since (h2.first c w1 hw hb) hs ho hsub huns

theorem quiet_down {m : Mode} {v : ProtocolVersion} {S : List Packet} {p : Peer} {k : Nat} (h : Down v S p k)
    {sent : Buf} (hS : SentTo v S sent) (hg : p.got = sent) (hn : clientParse m v p.buf = .needMore) :
    k = S.length := by
  obtain ⟨d, rs, whole, tail, h1, h2, hbuf, h3, h4, h5⟩ := h.parts
  have hsm := h.small
  rw [hbuf] at hn hsm h4
  obtain ⟨rfl, rfl⟩ : rs = [] ∧ whole = [] := by
    rcases clientParse_whole m h2 h5 (by omega) with ⟨e1, e2, _⟩ | ⟨q, qs, rest, _, _, e, _⟩
    · exact ⟨e1, e2⟩
    · rw [e] at hn; cases hn
  rw [List.nil_append, hg] at h4
  obtain ⟨d', r, s1, s2, s3⟩ := hS.split k
  have := s1.unique h1
  subst this
  have hr : r = [] := by
    rw [s3] at h4
    have h4 := List.append_cancel_left h4
    subst h4
    rcases h5 with h5 | ⟨q, T', bytes, e1, e2, e3, _⟩
    · exact h5
    · exfalso
      rw [List.length_nil, Nat.add_zero] at e1
      rw [e1] at s2
      cases s2 with
      | cons hs he hf hr =>
        cases e2 with
        | cons hs' he' hf' hr' =>
          rw [he] at he'; cases he'; cases hr'
          simp only [List.length_append, List.length_nil] at e3
          omega
  subst hr
  have := List.drop_eq_nil_iff.mp s2.nil_inv
  have := h.le
  omega

theorem up_socket {σ : System} {c : Nat} {p : Peer} {w : Wire} (h : σ.Up c p w) : p.socketOpen = true := by
  obtain ⟨l, hl, hr⟩ := h.client
  unfold Peer.loop at hl
  unfold Peer.socketOpen
  split at hl
  · rename_i l' hp; cases hl; simp [hp, hr]
  · cases hl

/-- If there is nothing to send for a subscription, nothing is ahead of its reader. -/
theorem idle_ahead {cfg : AuthConfig} {srv : Server} {c : Nat} {f : Str} {s : Session} {st : SubStream}
    {sent : List Message} (hs : srv.at c = some s) (hst : s.subscriptions.get f = some st)
    (hp : st.rx.path = splitLevels f) (hsent : TopicNode.sentAt srv.world.broker.tree (splitLevels f) = some sent)
    (hn : st.rx.next ≤ sent.length) (hidle : (srv.step cfg (.deliver c f)).2 = {}) : st.ahead sent = [] := by
  rw [← poll_none (t := srv.world.broker.tree) (by rw [hp]; exact hsent) hn]
  obtain ⟨k', hk', hh', e'⟩ := onConn_at hs (fun r s => srv.deliver c r s f)
  have e2 : srv.step cfg (.deliver c f) = srv.deliver c k'.session s f := e'
  rw [e2] at hidle
  unfold Server.deliver at hidle
  rcases processOutgoing_cases s srv.world.broker.tree f with
    ⟨z1, z2⟩ | ⟨sta, mm, stb, z1, z2, ⟨u, _, z3⟩ | ⟨_, z3⟩⟩
  · rcases z2 with z2 | ⟨sta, z2, z3⟩
    · rw [hst] at z2; simp at z2
    · rw [hst] at z2; simp only [Option.some.injEq] at z2; rw [z2]; exact z3
  · rw [z3] at hidle; simp at hidle
  · rw [z3] at hidle; simp at hidle

theorem heard_forwarded (f : Str) (l : List Message) :
    ((l.map (forwarded f)).filterMap heardOf).length = l.length := by
  induction l with
  | nil => rfl
  | cons a l ih =>
    have : ((forwarded f a :: l.map (forwarded f)).filterMap heardOf) =
        ⟨f, a.payload.getD [], a.qos, false⟩ :: (l.map (forwarded f)).filterMap heardOf := rfl
    rw [List.map_cons, this, List.length_cons, List.length_cons, ih]

theorem filterMap_receivedBy (v : ProtocolVersion) (ps : List Packet) :
    (ps.map (Packet.receivedBy v)).filterMap heardOf = ps.filterMap heardOf := by
  rw [List.filterMap_map]
  exact List.filterMap_congr fun q _ => heardOf_receivedBy v q

/-- C74 for the calls `cs` the broker got between the two states. -/
theorem heard_since (m : Mode) (cfg : AuthConfig) (evs1 evs2 : List SysEvent)
    (hord : ∀ e ∈ evs1 ++ evs2, e.Ordinary) (cs : List Call) :
    let σ1 := System.init.run m cfg evs1
    let σ2 := σ1.run m cfg evs2
    σ2.net.server.world.log = σ1.net.server.world.log ++ cs →
    PublishedBetween σ1 σ2 (callsPub cs) ∧
      ∀ c f p1 p2 w2, ReadsWell m cfg c System.init (evs1 ++ evs2) → ValidFilter f →
        σ1.Quiet m cfg c → σ1.peers.get c = some p1 → p1.subscribedTo f →
        (∀ i, SysEvent.app c i ∈ evs2 → ¬ i.Names f) → σ2.Up c p2 w2 →
        σ2.Apart c p2 →
        ∃ X, p2.heardOn f = p1.heardOn f ++ X ∧ X.Sublist (heardFor f (callsPub cs)) ∧
          ((heardFor f (callsPub cs)).length ≤ 16 →
            X <+: heardFor f (callsPub cs) ∧ (σ2.QuietDown m cfg c → X = heardFor f (callsPub cs))) := by
  intro σ1 σ2 hlog
  obtain ⟨es, hx1⟩ := history (m := m) evs1 (fun e he => hord e (List.mem_append_left _ he)) (sysInv_init cfg)
  obtain ⟨ext, hx2⟩ := history (m := m) evs2 (fun e he => hord e (List.mem_append_right _ he)) hx1.inv
  rw [List.nil_append] at hx2
  have hi1 : SysInv cfg σ1 es := hx1.inv
  obtain ⟨cs0, hcs, hpb⟩ := published_between hi1 hx2
  have hcse : cs0 = cs := by
    have h2 := hlog
    rw [hi1.net.server, hx2.inv.net.server, hcs] at h2
    exact List.append_cancel_left h2
  rw [hcse] at hcs hpb
  refine ⟨hpb, ?_⟩
  intro c f p1 p2 w2 hreads hf hq1 hp1 hsub hno hup2 halone
  obtain ⟨rw1, rw2⟩ := readsWell_append evs1 hreads
  obtain ⟨p1', w1, hu1, q1, q2, q3, q4, q5⟩ := hq1.parts
  have := hu1.peer
  rw [hp1] at this
  cases this
  obtain ⟨hall, hbeg, hopen1⟩ := hi1.quiet hp1 hu1.wire hu1.server q1 q2
  obtain ⟨p2', w2', hp2', hw2', hev⟩ := hx2.peer c p1 w1 hp1 hu1.wire
  have hp2e : p2 = p2' := by have := hup2.peer; rw [hp2'] at this; exact (Option.some.inj this).symm
  subst hp2e
  have hw2e : w2 = w2' := by have := hup2.wire; rw [hw2'] at this; exact (Option.some.inj this).symm
  subst hw2e
  have hsolo2 : Solo c p2.clientId p2.opts.protocolVersion (es ++ ext) := hx2.inv.solo hp2' halone
  have hid : p2.clientId = p1.clientId := by unfold Peer.clientId; rw [hev.opts]
  rw [hid, hev.opts] at hsolo2
  have hsolo1 := hsolo2.init
  -- what the client had acted on
  have t1 : Tracked cfg c 0 σ1 es := hx1.track c 0 rw1 (Or.inl rfl) (by
    intro p w hp; simp [System.init, Map.get] at hp)
  obtain ⟨k1, _, d1⟩ := t1 p1 w1 hp1 hu1.wire hu1.server (up_socket hu1) hsolo1
  have hS1 := hi1.sentTo hsolo1 hu1.wire hu1.server
  have hk1 := quiet_down d1 hS1 q4 q5
  have t1' : Tracked cfg c (Server.init.sentTo cfg c es).length σ1 es := by
    intro p w hp hw hr ho hs
    rw [hp1] at hp
    cases hp
    exact ⟨k1, by omega, d1⟩
  have t2 := hx2.track c _ rw2 (Or.inr (by rw [show (System.run m cfg System.init evs1).peers.get c = some p1 from hp1]; rfl)) t1'
  obtain ⟨k2, hk2, d2⟩ := t2 p2 w2 hp2' hw2' hup2.server (up_socket hup2) (by rw [hid, hev.opts]; exact hsolo2)
  have hS2 := hx2.inv.sentTo hsolo2 hw2' hup2.server
  rw [← hev.opts] at hS2
  have e1 : p1.heard = (Server.init.sentTo cfg c es).filterMap heardOf := by
    rw [d1.heard, hk1, List.take_length, filterMap_receivedBy]
  generalize hT : (Server.run cfg Server.init es).sentTo cfg c ext = T at *
  have e2 : p2.heard = p1.heard ++ (T.take (k2 - (Server.init.sentTo cfg c es).length)).filterMap heardOf := by
    rw [d2.heard, filterMap_receivedBy, sentTo_append, hT, List.take_append, List.take_of_length_le hk2,
      List.filterMap_append, e1]
  -- what the server sent for the subscription
  have hgood : GoodHist σ2.Wills ext := fun x hx => hx2.inv.goodHist x (List.mem_append_right _ hx)
  have hfirst := hx2.first c w1 hu1.wire hbeg
  have e3 := sent_for (cfg := cfg) (es0 := es) f ext hgood hfirst
  rw [hT] at e3
  -- the subscription at the server
  have hr1 : Server.Reachable cfg (Server.run cfg Server.init es) := ⟨es, rfl⟩
  obtain ⟨s, hs⟩ := at_of_isOpen hr1.inv hopen1
  have hsubs : (s.subscriptions.get f).isSome := by
    refine (solo_session cfg es hsolo1 hs).2 f hf ?_
    rw [hall]
    unfold subscribedBy
    have hfold : ∀ (l : List Packet) (b : Prop),
        (l.map Packet.received).foldl (subStep f) b = l.foldl (subStep f) b := by
      intro l
      induction l with
      | nil => intro b; rfl
      | cons q l ih => intro b; simp only [List.map_cons, List.foldl_cons, subStep_received, ih]
    rw [hfold]
    rw [(hi1.peer c p1 hp1).subscribedTo f] at hsub
    exact hsub
  obtain ⟨st, hst⟩ := Option.isSome_iff_exists.mp hsubs
  obtain ⟨ks, hks, hks2⟩ := at_eq_some.mp hs
  have hgst := hr1.sound.streams _ _ hks2 f st hst
  obtain ⟨sent, g1, g2⟩ := hgst.channel
  have hah : st.ahead sent = [] := by
    refine idle_ahead (cfg := cfg) hs hst hgst.path g1 g2 ?_
    have := q3 f
    rwa [hi1.net.server] at this
  unfold SubStream.ahead at hah
  obtain ⟨hret, hdr⟩ := List.append_eq_nil_iff.mp hah
  have hnext : st.rx.next = sent.length := by
    have := List.drop_eq_nil_iff.mp hdr
    omega
  obtain ⟨n1, n2⟩ := not_named hx2 hp1 hu1.wire hall hno
  have hopen2 : (Server.run cfg Server.init (es ++ ext)).isOpen c := by
    rw [← hx2.inv.net.server]
    exact (hx2.inv.net.opened c).mpr ⟨w2, hw2', hup2.server, hev.begun hbeg⟩
  have hcalm := calm_history hx2 (f := f) hu1.wire hbeg hsolo2 hopen2 n1 n2
  have erun : (Server.run cfg Server.init es).run cfg ext = Server.run cfg Server.init (es ++ ext) := by
    simp [Server.run]
  have hpub : published cfg (Server.run cfg Server.init es) ext = Call.publications cs := by
    unfold published
    rw [erun, hcs, List.drop_left]
  have hv : ∀ q ∈ published cfg (Server.run cfg Server.init es) ext, ValidTopic q.1 := by
    intro q hq
    refine (hx2.inv.tame.log q ?_).2
    rw [hx2.inv.net.server, hcs, Call.publications_append]
    exact List.mem_append_right _ (by rw [← hpub]; exact hq)
  obtain ⟨s', st', sent', D, i1, i2, i3, i4, i5, i6, i7, i8, i9, i10⟩ :=
    follow hr1.inv hr1.faithful hs hst hgst.path g1 hnext ext hcalm hv
  rw [hret, List.nil_append, hpub] at i9
  have eh : heardFor f (callsPub cs) = ((matching f (Call.publications cs)).map (forwarded f)).filterMap heardOf :=
    heardFor_calls f cs
  refine ⟨((T.take (k2 - (Server.init.sentTo cfg c es).length)).filterMap heardOf).filter (fun x => x.topic = f), ?_, ?_, ?_⟩
  · unfold Peer.heardOn
    rw [e2, List.filter_append]
  · have hpre : ((T.take (k2 - (Server.init.sentTo cfg c es).length)).filterMap heardOf).filter
        (fun x => x.topic = f) |>.Sublist ((D.map (forwarded f)).filterMap heardOf) := by
      rw [← i8, ← e3]
      exact ((List.take_sublist _ _).filterMap _).filter _
    rw [eh]
    exact hpre.trans ((((List.sublist_append_left _ _).trans i9).map _).filterMap _)
  · intro h16
    rw [eh, heard_forwarded] at h16
    have hkeep : KeepsUp cfg (Server.run cfg Server.init es) c f st.retained.length ext := by
      intro k
      have hle : (matching f (published cfg (Server.run cfg Server.init es) (ext.take k))).length ≤
          (matching f (Call.publications cs)).length := by
        rw [← hpub]
        apply matching_prefix
        obtain ⟨t, ht⟩ := List.take_prefix k ext
        obtain ⟨a, ha⟩ := log_run cfg (Server.run cfg Server.init es) (ext.take k)
        obtain ⟨b, hb⟩ := log_run cfg ((Server.run cfg Server.init es).run cfg (ext.take k)) t
        have er : (Server.run cfg Server.init es).run cfg ext =
            ((Server.run cfg Server.init es).run cfg (ext.take k)).run cfg t := by
          conv => lhs; rw [← ht]
          simp [Server.run]
        unfold published
        rw [er, hb, ha, List.append_assoc, List.drop_left, List.drop_left, Call.publications_append]
        exact List.prefix_append _ _
      omega
    obtain ⟨j1, _⟩ := i10 hkeep
    rw [hret, List.nil_append, hpub] at j1
    constructor
    · have hpre : ((T.take (k2 - (Server.init.sentTo cfg c es).length)).filterMap heardOf).filter
          (fun x => x.topic = f) <+: (D.map (forwarded f)).filterMap heardOf := by
        rw [← i8, ← e3]
        obtain ⟨t, ht⟩ := List.take_prefix (k2 - (Server.init.sentTo cfg c es).length) T
        conv => rhs; rw [← ht, List.filterMap_append, List.filter_append]
        exact List.prefix_append _ _
      refine hpre.trans ?_
      rw [eh, ← j1, List.map_append, List.filterMap_append]
      exact List.prefix_append _ _
    · rintro ⟨p2', w2', hu2, r3, r4, r5⟩
      have := hu2.peer; rw [hp2'] at this; cases this
      have := hu2.wire; rw [hw2'] at this; cases this
      have hk := quiet_down d2 hS2 r4 r5
      have hah2 : st'.ahead sent' = [] := by
        rw [erun] at i3 i6
        refine idle_ahead (cfg := cfg) i3 i4 i5 i6 i7 ?_
        have := r3 f
        rwa [hx2.inv.net.server] at this
      rw [hah2, List.append_nil] at j1
      rw [eh, ← j1, ← i8, ← e3]
      rw [sentTo_append, hT, List.length_append] at hk
      rw [List.take_of_length_le (by omega)]

/-- C74: any number of built-in clients, connected to the server by byte streams.  At one time (after
`evs1`) nothing is in transit on the connection of client `c`, whose application has subscribed to the
valid filter `f`.  Later (after `evs2`) the connection is still up, the application has not changed
that subscription, and no other client shares its session: clients with the same client identifier, which all
clients that give none have, start clean.  Then what the application
of `c` got for `f` in between is, in order and without repetition, taken from the messages that
applications published in between on topics `f` matches: with their payload and QoS, in an order `L`
that is the same for all subscribers and contains the messages of each application in the order of its
calls.  If no more than 16 matching messages were published, they arrive without a gap, and all of them
have arrived once nothing is in transit to the client any more. -/
theorem C74_application_to_application (m : Mode) (cfg : AuthConfig) (evs1 evs2 : List SysEvent)
    (hord : ∀ e ∈ evs1 ++ evs2, e.Ordinary) :
    let σ1 := System.init.run m cfg evs1
    let σ2 := σ1.run m cfg evs2
    ∃ L, PublishedBetween σ1 σ2 L ∧
      ∀ c f p1 p2 w2, ReadsWell m cfg c System.init (evs1 ++ evs2) → ValidFilter f →
        σ1.Quiet m cfg c → σ1.peers.get c = some p1 → p1.subscribedTo f →
        (∀ i, SysEvent.app c i ∈ evs2 → ¬ i.Names f) → σ2.Up c p2 w2 →
        σ2.Apart c p2 →
        ∃ X, p2.heardOn f = p1.heardOn f ++ X ∧ X.Sublist (heardFor f L) ∧
          ((heardFor f L).length ≤ 16 →
            X <+: heardFor f L ∧ (σ2.QuietDown m cfg c → X = heardFor f L)) := by
  intro σ1 σ2
  obtain ⟨es, hx1⟩ := history (m := m) evs1 (fun e he => hord e (List.mem_append_left _ he)) (sysInv_init cfg)
  obtain ⟨ext, hx2⟩ := history (m := m) evs2 (fun e he => hord e (List.mem_append_right _ he)) hx1.inv
  rw [List.nil_append] at hx2
  have hi1 : SysInv cfg σ1 es := hx1.inv
  obtain ⟨cs, hcs, _⟩ := published_between hi1 hx2
  exact ⟨callsPub cs, heard_since m cfg evs1 evs2 hord cs (by rw [hx2.inv.net.server, hi1.net.server]; exact hcs)⟩

/-! ## An example -/

/-- Nothing is sent for a filter that is not subscribed to. -/
theorem deliver_unsubscribed {cfg : AuthConfig} {srv : Server} {c : Nat} {f : Str}
    (h : ∀ s, srv.at c = some s → s.subscriptions.get f = none) : (srv.step cfg (.deliver c f)).2 = {} := by
  cases ha : srv.at c with
  | none =>
    have : srv.step cfg (.deliver c f) = (srv, {}) := by simp only [Server.step]; exact onConn_none ha _
    rw [this]
  | some s =>
    obtain ⟨k, hk, hs, e⟩ := onConn_at ha (fun r s => srv.deliver c r s f)
    have e' : srv.step cfg (.deliver c f) = srv.deliver c k.session s f := e
    rw [e']
    unfold Server.deliver
    rcases processOutgoing_cases s srv.world.broker.tree f with ⟨h1, _⟩ | ⟨st, mm, st', hst, _⟩
    · rw [h1]
    · rw [h s ha] at hst; cases hst

/-- A client that subscribes to `a/+`, and another one, both connected. -/
def exSysSub : List SysEvent := [
  .connect 0 { clientId := some (str "s") }, .serverRead 0 4096, .serverTurn 0 (str "u") true,
  .clientRead 0 4096, .clientTurn 0 true,
  .app 0 (.subscribe [(str "a/+", .atLeastOnce)] true), .serverRead 0 4096, .serverTurn 0 (str "u") true,
  .clientRead 0 4096, .clientTurn 0 true,
  .connect 1 { clientId := some (str "p") }, .serverRead 1 4096, .serverTurn 1 (str "v") true,
  .clientRead 1 4096, .clientTurn 1 true]

/-- The other one publishes to `a/b`. The subscriber's first read cuts the packet. -/
def exSysPub : List SysEvent := [
  .app 1 (.publish (str "a/b") (str "hi") .atLeastOnce false true),
  .serverRead 1 4096, .serverTurn 1 (str "v") true, .deliver 0 (str "a/+"),
  .clientRead 0 3, .clientTurn 0 true, .clientRead 0 4096, .clientTurn 0 true,
  .serverRead 0 4096, .serverTurn 0 (str "u") true]

/-- The system after `exSysSub`, and after `exSysPub`. -/
def exSys1 : System := System.init.run .debug {} exSysSub
def exSys2 : System := exSys1.run .debug {} exSysPub

/-- What the server sends to the subscriber. -/
def exSysSent : List Packet := [
  .connAck { protocolVersion := .v5, sessionPresent := false, reasonCode := .success, properties := none },
  .subAck { protocolVersion := .v5, packetId := 1, properties := none, payload := [.success] },
  .publish { dup := false, qos := .atLeastOnce, retain := false, topicName := str "a/+", packetId := some 1
             properties := none, payload := some (str "hi") }]

theorem exSysSent_to (k : Nat) (b : Buf) (h : writePackets (exSysSent.take k) = (b, true)) :
    SentTo .v5 (exSysSent.take k) b := by
  have hw := writePackets_written (exSysSent.take k)
  rw [h] at hw
  obtain ⟨qs, _, h2, h3⟩ := hw
  rw [h2 rfl] at h3
  refine sentTo_of_ok h3 fun q hq => ?_
  have hq := List.mem_of_mem_take hq
  simp only [exSysSent, List.mem_cons, List.not_mem_nil, or_false] at hq
  rcases hq with rfl | rfl | rfl
  · refine ⟨⟨by decide, fun _ => ?_⟩, [32, 3, 0, 0, 0], by decide, by unfold FitsMqtt; decide⟩
    intro _ h; cases h
  · refine ⟨⟨by decide, fun _ => ?_⟩, [144, 4, 0, 1, 0, 0], by decide, by unfold FitsMqtt; decide⟩
    exact ⟨(fun _ h => by cases h), by simp⟩
  · refine ⟨⟨?_, by simp, by simp, (fun _ h => by cases h)⟩, [50, 10, 0, 3, 97, 47, 43, 0, 1, 0, 104, 105], by decide, by unfold FitsMqtt; decide⟩
    decide


theorem exSys_ordinary : ∀ e ∈ exSysSub ++ exSysPub, e.Ordinary := by
  have adm : ∀ t : Str, TextField t → (SysEvent.connect 0 { clientId := some t }).Ordinary := by
    intro t ht
    refine ⟨⟨?_, ?_, ?_, ?_⟩, ?_⟩
    · intro s hs; cases hs; exact ht
    · intro s hs; cases hs
    · intro s hs; cases hs
    · intro s hs; cases hs
    · intro s hs; cases hs
  simp only [exSysSub, exSysPub, List.cons_append, List.nil_append, List.forall_mem_cons]
  refine ⟨adm _ (by decide), trivial, (by decide : TextField _), trivial, trivial,
    ⟨by simp, by simp; decide, by decide⟩, trivial, (by decide : TextField _), trivial, trivial,
    adm _ (by decide), trivial, (by decide : TextField _), trivial, trivial,
    ⟨by decide, by simp, by decide⟩, trivial, (by decide : TextField _), trivial, trivial, trivial,
    trivial, trivial, trivial, (by decide : TextField _), by simp⟩

theorem exSys_reads : ReadsWell .debug {} 0 System.init (exSysSub ++ exSysPub) := by
  have got : ∀ (σ : System) (k : Nat) (g s : Buf), EndsWell .v5 (exSysSent.take k) g.length →
      ((σ.peers.get 0).map (fun p => (p.opts.protocolVersion, p.got)), (σ.net.wires.get 0).map (·.sent)) =
        (some (.v5, g), some s) →
      writePackets (exSysSent.take k) = (s, true) → g <+: s →
      ∀ p w, σ.peers.get 0 = some p → σ.net.wires.get 0 = some w →
        GotWell p.opts.protocolVersion w.sent p.got := by
    intro σ k g s h0 h1 h2 h3 p w hp hw
    rw [hp, hw] at h1
    simp only [Option.map_some, Prod.mk.injEq, Option.some.injEq] at h1
    rw [h1.1.1, h1.1.2, h1.2]
    exact ⟨_, s, exSysSent_to k s h2, List.prefix_rfl, h3, h0⟩
  have e1 : EndsWell .v5 (exSysSent.take 1) 5 := Or.inr ⟨[32, 3, 0, 0, 0], by decide, trivial⟩
  have e2 : EndsWell .v5 (exSysSent.take 2) 11 :=
    Or.inr ⟨[32, 3, 0, 0, 0], by decide, Or.inr ⟨[144, 4, 0, 1, 0, 0], by decide, trivial⟩⟩
  have e3 : EndsWell .v5 (exSysSent.take 3) 14 :=
    Or.inr ⟨[32, 3, 0, 0, 0], by decide, Or.inr ⟨[144, 4, 0, 1, 0, 0], by decide,
      Or.inr ⟨[50, 10, 0, 3, 97, 47, 43, 0, 1, 0, 104, 105], by decide, by decide, Or.inl (by decide)⟩⟩⟩
  have e4 : EndsWell .v5 (exSysSent.take 3) 23 :=
    Or.inr ⟨[32, 3, 0, 0, 0], by decide, Or.inr ⟨[144, 4, 0, 1, 0, 0], by decide,
      Or.inr ⟨[50, 10, 0, 3, 97, 47, 43, 0, 1, 0, 104, 105], by decide, trivial⟩⟩⟩
  refine ⟨by simp, by decide, by simp, by decide, by simp, by decide,
    fun n _ => got _ 1 [32, 3, 0, 0, 0] [32, 3, 0, 0, 0] e1 (by decide +kernel) (by decide +kernel) (by decide),
    by decide,
    by simp, by decide, by simp, by decide, by simp, by decide, by simp, by decide,
    fun n _ => got _ 2 [32, 3, 0, 0, 0, 144, 4, 0, 1, 0, 0] [32, 3, 0, 0, 0, 144, 4, 0, 1, 0, 0] e2
      (by decide +kernel) (by decide +kernel) (by decide), by decide,
    by simp, by decide, by simp, by decide, by simp, by decide, by simp, by decide, by simp, by decide,
    by simp, by decide, by simp, by decide, by simp, by decide, by simp, by decide, by simp, by decide,
    fun n _ => got _ 3 [32, 3, 0, 0, 0, 144, 4, 0, 1, 0, 0, 50, 10, 0]
      [32, 3, 0, 0, 0, 144, 4, 0, 1, 0, 0, 50, 10, 0, 3, 97, 47, 43, 0, 1, 0, 104, 105] e3
      (by decide +kernel) (by decide +kernel) (by decide), by decide, by simp, by decide,
    fun n _ => got _ 3 [32, 3, 0, 0, 0, 144, 4, 0, 1, 0, 0, 50, 10, 0, 3, 97, 47, 43, 0, 1, 0, 104, 105]
      [32, 3, 0, 0, 0, 144, 4, 0, 1, 0, 0, 50, 10, 0, 3, 97, 47, 43, 0, 1, 0, 104, 105] e4
      (by decide +kernel) (by decide +kernel) (by decide), by decide,
    by simp, by decide, by simp, by decide, by simp, by decide, trivial⟩

/-- Nothing is in transit to a client, checked on a concrete system. -/
theorem quietDown_check {m : Mode} {cfg : AuthConfig} {σ : System} {c : Nat} {fs : List Str}
    (h1 : (match σ.peers.get c, σ.net.wires.get c with
      | some p, some w => w.running && p.socketOpen && p.phase != .connecting && p.got == w.sent &&
          clientParse m p.opts.protocolVersion p.buf == .needMore
      | _, _ => false) = true)
    (h2 : ((σ.net.server.at c).map fun s => s.subscriptions.keys) = some fs)
    (h3 : ∀ f ∈ fs, (σ.net.server.step cfg (.deliver c f)).2 = {}) : σ.QuietDown m cfg c := by
  split at h1
  · rename_i p w hp hw
    simp only [Bool.and_eq_true, bne_iff_ne, beq_iff_eq] at h1
    obtain ⟨⟨⟨⟨a1, a2⟩, a3⟩, a6⟩, a7⟩ := h1
    refine ⟨p, w, ⟨hp, hw, a1, ?_⟩, fun f => ?_, a6, a7⟩
    · unfold Peer.socketOpen at a2
      unfold Peer.loop
      split at a2
      · rename_i hx; exact absurd hx a3
      · rename_i l hx; exact ⟨l, by simp [hx], a2⟩
      · cases a2
    · by_cases hf : f ∈ fs
      · exact h3 f hf
      · apply deliver_unsubscribed
        intro s hs
        rw [hs] at h2
        simp only [Option.map_some, Option.some.injEq] at h2
        cases hg : s.subscriptions.get f with
        | none => rfl
        | some x =>
          have := (Map.get_isSome s.subscriptions f).mp (by rw [hg]; rfl)
          rw [h2] at this
          exact absurd this hf
  · cases h1

theorem timed_check {σ : System} {c : Nat} (h : ((σ.peers.get c).map fun p => p.opts.keepAlive != 0) = some true) :
    σ.Timed c := by
  intro p hp
  rw [hp] at h
  simpa using h

/-- Nothing is in transit, checked on a concrete system. -/
theorem quiet_check {m : Mode} {cfg : AuthConfig} {σ : System} {c : Nat} {fs : List Str}
    (h1 : (match σ.peers.get c, σ.net.wires.get c with
      | some p, some w => w.running && p.socketOpen && p.phase != .connecting && w.rcvd == p.wrote &&
          w.buf == [] && p.got == w.sent &&
          clientParse m p.opts.protocolVersion p.buf == .needMore
      | _, _ => false) = true)
    (h2 : ((σ.net.server.at c).map fun s => s.subscriptions.keys) = some fs)
    (h3 : ∀ f ∈ fs, (σ.net.server.step cfg (.deliver c f)).2 = {}) : σ.Quiet m cfg c := by
  have hd : σ.QuietDown m cfg c := by
    refine quietDown_check (fs := fs) ?_ h2 h3
    split at h1
    · simp only [Bool.and_eq_true] at h1 ⊢
      tauto
    · cases h1
  refine ⟨?_, hd⟩
  obtain ⟨p, w, hu, _⟩ := hd
  rw [hu.peer, hu.wire] at h1
  simp only [Bool.and_eq_true, beq_iff_eq] at h1
  exact ⟨p, w, hu, h1.1.1.1.2, h1.1.1.2⟩

theorem exSys1_quiet : exSys1.Quiet .debug {} 0 :=
  quiet_check (fs := [str "a/+"]) (by decide +kernel) (by decide +kernel) (by decide +kernel)

theorem exSys2_quiet : exSys2.Quiet .debug {} 0 :=
  quiet_check (fs := [str "a/+"]) (by decide +kernel) (by decide +kernel) (by decide +kernel)

/-- No other client shares the session, checked on a concrete system. -/
theorem apart_check {σ : System} {c : Nat} {p : Peer} (hp : σ.peers.get c = some p)
    (h : σ.peers.keys.all (fun d => d == c ||
      match σ.peers.get c, σ.peers.get d with
      | some p, some q => q.clientId != p.clientId || (q.opts.cleanStart && p.opts.cleanStart)
      | _, _ => true) = true) : σ.Apart c p := by
  intro d q hd hq hid
  have hk := (Map.get_isSome _ _).mp (show (σ.peers.get d).isSome by rw [hq]; rfl)
  have := List.all_eq_true.mp h d hk
  rw [hp, hq] at this
  simpa [hd, hid] using this

example : ValidFilter (str "a/+") ∧ (∀ p, exSys1.peers.get 0 = some p → p.subscribedTo (str "a/+")) ∧
    (∀ i, SysEvent.app 0 i ∈ exSysPub → ¬ i.Names (str "a/+")) ∧
    (∀ p, exSys2.peers.get 0 = some p → exSys2.Apart 0 p) ∧
    (exSys1.peers.get 0).map (·.heard) = some [] ∧
    (exSys2.peers.get 0).map (·.heard) = some [⟨str "a/+", str "hi", .atLeastOnce, false⟩] ∧
    (exSys1.peers.get 1).map (·.published) = some [] ∧
    (exSys2.peers.get 1).map (·.published) = some [⟨str "a/b", str "hi", .atLeastOnce, false⟩] := by
  refine ⟨(C23_filter_iff _).mp (by decide +kernel), ?_, ?_, ?_, by decide +kernel, by decide +kernel, by decide +kernel, by decide +kernel⟩
  · intro p hp
    have h : (exSys1.peers.get 0).map (·.history) =
      some [(.subscribe [(str "a/+", .atLeastOnce)] true,
          { sent := some (.subscribe ⟨1, none, [⟨str "a/+", { qos := .atLeastOnce }⟩]⟩)
            result := some (.subscribed [(str "a/+", .atLeastOnce, true)]) }),
        (.read (.packet (.subAck { packetId := 1, properties := some {}, payload := [.success] })) true, {})] := by
      decide +kernel
    rw [hp] at h
    simp only [Option.map_some, Option.some.injEq] at h
    simp [Peer.subscribedTo, h]
  · intro i hi
    simp [exSysPub] at hi
  · exact fun p hp => apart_check hp (by decide +kernel)

/-- A subscriber whose ping timer has ticked still hears the others, although the server does not listen to it any
more (C75). -/
def exSysPinged : List SysEvent := [
  .app 0 (.tick true), .serverRead 0 4096, .serverTurn 0 (str "u") true,
  .app 1 (.publish (str "a/b") (str "hi") .atLeastOnce false true),
  .serverRead 1 4096, .serverTurn 1 (str "v") true, .deliver 0 (str "a/+"),
  .clientRead 0 4096, .clientTurn 0 true, .clientTurn 0 true]

/-- What the server sends to the subscriber. -/
def exSysPingedSent : List Packet := [
  .connAck { protocolVersion := .v5, sessionPresent := false, reasonCode := .success, properties := none },
  .subAck { protocolVersion := .v5, packetId := 1, properties := none, payload := [.success] },
  .pingResp,
  .publish { dup := false, qos := .atLeastOnce, retain := false, topicName := str "a/+", packetId := some 1
             properties := none, payload := some (str "hi") }]

theorem exSysPingedSent_to (k : Nat) (b : Buf) (h : writePackets (exSysPingedSent.take k) = (b, true)) :
    SentTo .v5 (exSysPingedSent.take k) b := by
  have hw := writePackets_written (exSysPingedSent.take k)
  rw [h] at hw
  obtain ⟨qs, _, h2, h3⟩ := hw
  rw [h2 rfl] at h3
  refine sentTo_of_ok h3 fun q hq => ?_
  have hq := List.mem_of_mem_take hq
  simp only [exSysPingedSent, List.mem_cons, List.not_mem_nil, or_false] at hq
  rcases hq with rfl | rfl | rfl | rfl
  · refine ⟨⟨by decide, fun _ => ?_⟩, [32, 3, 0, 0, 0], by decide, by unfold FitsMqtt; decide⟩
    intro _ h; cases h
  · refine ⟨⟨by decide, fun _ => ?_⟩, [144, 4, 0, 1, 0, 0], by decide, by unfold FitsMqtt; decide⟩
    exact ⟨(fun _ h => by cases h), by simp⟩
  · exact ⟨trivial, [0xd0, 0], by decide, by unfold FitsMqtt; decide⟩
  · refine ⟨⟨?_, by simp, by simp, (fun _ h => by cases h)⟩, [50, 10, 0, 3, 97, 47, 43, 0, 1, 0, 104, 105], by decide, by unfold FitsMqtt; decide⟩
    decide

theorem exSysPinged_reads : ReadsWell .debug {} 0 System.init (exSysSub ++ exSysPinged) := by
  have got : ∀ (σ : System) (k : Nat) (g : Buf), EndsWell .v5 (exSysPingedSent.take k) g.length →
      ((σ.peers.get 0).map (fun p => (p.opts.protocolVersion, p.got)), (σ.net.wires.get 0).map (·.sent)) =
        (some (.v5, g), some g) →
      writePackets (exSysPingedSent.take k) = (g, true) →
      ∀ p w, σ.peers.get 0 = some p → σ.net.wires.get 0 = some w →
        GotWell p.opts.protocolVersion w.sent p.got := by
    intro σ k g h0 h1 h2 p w hp hw
    rw [hp, hw] at h1
    simp only [Option.map_some, Prod.mk.injEq, Option.some.injEq] at h1
    rw [h1.1.1, h1.1.2, h1.2]
    exact ⟨_, g, exSysPingedSent_to k g h2, List.prefix_rfl, List.prefix_rfl, h0⟩
  have e1 : EndsWell .v5 (exSysPingedSent.take 1) 5 := Or.inr ⟨[32, 3, 0, 0, 0], by decide, trivial⟩
  have e2 : EndsWell .v5 (exSysPingedSent.take 2) 11 :=
    Or.inr ⟨[32, 3, 0, 0, 0], by decide, Or.inr ⟨[144, 4, 0, 1, 0, 0], by decide, trivial⟩⟩
  have e4 : EndsWell .v5 (exSysPingedSent.take 4) 25 :=
    Or.inr ⟨[32, 3, 0, 0, 0], by decide, Or.inr ⟨[144, 4, 0, 1, 0, 0], by decide, Or.inr ⟨[0xd0, 0], by decide,
      Or.inr ⟨[50, 10, 0, 3, 97, 47, 43, 0, 1, 0, 104, 105], by decide, trivial⟩⟩⟩⟩
  refine ⟨by simp, by decide, by simp, by decide, by simp, by decide,
    fun n _ => got _ 1 [32, 3, 0, 0, 0] e1 (by decide +kernel) (by decide +kernel),
    by decide,
    by simp, by decide, by simp, by decide, by simp, by decide, by simp, by decide,
    fun n _ => got _ 2 [32, 3, 0, 0, 0, 144, 4, 0, 1, 0, 0] e2 (by decide +kernel) (by decide +kernel), by decide,
    by simp, by decide, by simp, by decide, by simp, by decide, by simp, by decide, by simp, by decide,
    by simp, by decide, by simp, by decide, by simp, by decide, by simp, by decide, by simp, by decide,
    by simp, by decide, by simp, by decide, by simp, by decide,
    fun n _ => got _ 4 [32, 3, 0, 0, 0, 144, 4, 0, 1, 0, 0, 0xd0, 0, 50, 10, 0, 3, 97, 47, 43, 0, 1, 0, 104, 105] e4
      (by decide +kernel) (by decide +kernel), by decide, by simp, by decide, by simp, by decide, trivial⟩

example : (exSys1.run .debug {} exSysPinged).QuietDown .debug {} 0 ∧
    ¬ (exSys1.run .debug {} exSysPinged).QuietUp 0 ∧
    ((exSys1.run .debug {} exSysPinged).peers.get 0).map (·.heard) =
      some [⟨str "a/+", str "hi", .atLeastOnce, false⟩] := by
  refine ⟨quietDown_check (fs := [str "a/+"]) (by decide +kernel) (by decide +kernel) (by decide +kernel), ?_,
    by decide +kernel⟩
  rintro ⟨p, w, hu, _, hb⟩
  have h : ((exSys1.run .debug {} exSysPinged).net.wires.get 0).map (·.buf) = some [0] := by decide +kernel
  rw [hu.wire] at h
  simp only [Option.map_some, Option.some.injEq] at h
  rw [hb] at h
  cases h

/-- Clients that give no identifier and start clean, as they do by default, do not share sessions. -/
example : ∃ p, (System.init.run .debug {} [.connect 0 {}, .connect 1 {}]).peers.get 0 = some p ∧ p.clientId = [] ∧
    (System.init.run .debug {} [.connect 0 {}, .connect 1 {}]).Apart 0 p := by
  refine ⟨_, rfl, rfl, apart_check rfl (by decide +kernel)⟩

end Mercurio
