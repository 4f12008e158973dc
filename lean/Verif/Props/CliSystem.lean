import Verif.Props.Asked
import Verif.Props.Cli
import Verif.Props.Gone

/-!
# C101: the command line tools end to end
-/

namespace Mercurio

open Spec Server

/-! ## Specification -/

/-- Client `p` is that of a run of `mercurio pub` that ended with exit status 0: after packets that were read, the
two calls of the tool, with what came of them. -/
def Peer.RanPub (p : Peer) (a : PubArgs) (stdin : Option Str) (payload : Str) (q : QoS) : Prop :=
  a.payload stdin = some payload ∧ NamesQos a.qos q ∧
  ∃ before between ok1 ok2, (∀ i ∈ before ++ between, ∃ r ok, i = .read r ok) ∧
    let b := ({} : Client).run before
    let run := runPublish a stdin (some b.1) ok1 between ok2
    run.success = true ∧ run.options = some p.opts ∧
    p.history = (before ++ ClientIn.publish a.topic payload q a.retain ok1 :: between ++ [ClientIn.disconnect ok2]).zip
      (b.2 ++ run.outs)

/-- Client `p` is that of a run of `mercurio sub` that has subscribed: among packets that were read, events that
were taken and ticks of the ping timer, the one call of the tool, which succeeded. -/
def Peer.RunsSub (p : Peer) (a : SubArgs) : Prop :=
  a.options = some p.opts ∧
  ∃ i ok o rs H1 H2, a.call ok = some i ∧ o.result = some (.subscribed rs) ∧ p.history = H1 ++ (i, o) :: H2 ∧
    ∀ x ∈ H1 ++ H2, x.1 = .recv ∨ (∃ ok, x.1 = .tick ok) ∨ ∃ r ok, x.1 = .read r ok

/-- The lines that the tool has printed: those for the events it has taken. -/
def Peer.printed (p : Peer) (lossy : Buf → Str) (a : SubArgs) : List Str :=
  cliPrint lossy a.printTopic (p.history.filterMap (·.2.event))

/-- The application has taken all events. -/
def Peer.idle (p : Peer) : Prop := ∀ l, p.loop = some l → l.pending = []

/-- The line for a message: its payload as text, after the filter it came for if topics are asked for. -/
def Spec.lineOf (lossy : Buf → Str) (withTopic : Bool) (x : Heard) : Str :=
  (if withTopic then x.topic ++ str ": " else []) ++ lossy x.payload ++ str "\n"

/-! ## Lemmas -/

theorem process_no_disconnect (s : Session) (w : World) (mgr : Option AuthManager) (c : Nat) (p : Packet)
    (hp : ∀ d, p ≠ .disconnect d) {q : Packet} (h : (s.processIncoming w mgr c p).result = .ok (some q)) :
    ∀ d, q ≠ .disconnect d := by
  rintro d rfl
  cases p with
  | disconnect d => exact hp d rfl
  | publish x =>
    simp only [Session.processIncoming, Session.handlePublish] at h
    split at h
    · cases h
    · simp only [Session.publishResponse] at h
      repeat' split at h
      all_goals cases h
  | auth x =>
    simp only [Session.processIncoming, Session.handleAuth] at h
    split at h
    · cases h
    · simp only [Session.authStart, Session.authContinue] at h
      repeat' split at h
      all_goals cases h
  | _ => cases h

/-- The server never sends a DISCONNECT. -/
theorem no_disconnect (cfg : AuthConfig) (srv : Server) (e : Event) :
    ∀ q ∈ (srv.step cfg e).2.sent, ∀ d, q ≠ .disconnect d := by
  intro q hq
  have onConn_sent : ∀ (c : Nat) (f : Nat → Session → Server × Out), q ∈ (srv.onConn c f).2.sent →
      ∃ r s, q ∈ (f r s).2.sent := by
    intro c f h
    unfold onConn at h
    split at h
    · cases h
    · split at h
      · cases h
      · exact ⟨_, _, h⟩
  cases e with
  | first c p u w =>
    simp only [Server.step] at hq
    split at hq
    · cases hq
    · split at hq
      · unfold Server.connect at hq
        split at hq
        · simp only [List.mem_singleton] at hq
          subst hq
          intro d h; cases h
        · unfold Server.start at hq
          cases w with
          | false => simp at hq
          | true =>
            simp only [if_true, List.mem_cons, List.mem_map] at hq
            rcases hq with rfl | ⟨i, _, rfl⟩
            · intro d h; cases h
            · intro d h; cases h
      · cases hq
  | recv c p =>
    obtain ⟨r, s, h⟩ := onConn_sent _ _ hq
    by_cases hd : ∃ d, p = .disconnect d
    · obtain ⟨d, rfl⟩ := hd; cases h
    · have hd : ∀ d, p ≠ .disconnect d := fun d h => hd ⟨d, h⟩
      have e : srv.recv cfg c r s p = (let h := s.processIncoming srv.world cfg.manager c p
          let srv := { srv with world := h.world }
          match h.result with
          | .error _ => (srv.finish c r h.session, {})
          | .ok res =>
            ((srv.mapStore (saveAfter h.session p)).put r h.session, { sent := res.toList })) := by
        unfold Server.recv
        cases p <;> first | rfl | exact absurd rfl (hd _)
      rw [e] at h
      simp only at h
      cases hres : (s.processIncoming srv.world cfg.manager c p).result with
      | error _ => rw [hres] at h; cases h
      | ok res =>
        rw [hres] at h
        cases res with
        | none => cases h
        | some x =>
          simp only [Option.toList_some, List.mem_singleton] at h
          subst h
          exact process_no_disconnect _ _ _ _ _ hd hres
  | deliver c f =>
    obtain ⟨r, s, h⟩ := onConn_sent _ _ hq
    unfold Server.deliver at h
    split at h
    · cases h
    · simp only [List.mem_singleton] at h
      subst h
      intro d h; cases h
    · cases h
  | close c =>
    obtain ⟨r, s, h⟩ := onConn_sent _ _ hq
    cases h
  | abort c => cases hq
  | restart => cases hq

theorem sentTo_no_disconnect (cfg : AuthConfig) (c : Nat) (es : List Event) : ∀ srv : Server,
    ∀ q ∈ srv.sentTo cfg c es, ∀ d, q ≠ .disconnect d := by
  induction es with
  | nil => intro srv q hq; cases hq
  | cons e es ih =>
    intro srv q hq
    simp only [Server.sentTo] at hq
    rcases List.mem_append.mp hq with hq | hq
    · split at hq
      · exact no_disconnect cfg srv e q hq
      · cases hq
    · exact ih _ q hq

theorem eventOf_receivedBy (v : ProtocolVersion) (q : Packet) : eventOf (q.receivedBy v) = eventOf q := by
  cases v <;> cases q <;> rfl

/-- While its connection is up a client has nothing but messages for its application. -/
theorem only_messages (m : Mode) (cfg : AuthConfig) (evs : List SysEvent) (hord : ∀ e ∈ evs, e.Ordinary) (c : Nat)
    (hreads : ReadsWell m cfg c System.init evs) :
    let σ := System.init.run m cfg evs
    ∀ p w, σ.Up c p w → σ.Apart c p → ∀ e ∈ p.events, ∃ t pl q r, e = .message t pl q r := by
  intro σ p w hup halone e he
  obtain ⟨es, hx1⟩ := history (m := m) evs hord (sysInv_init cfg)
  have hi : SysInv cfg σ ([] ++ es) := hx1.inv
  have hsolo := hi.solo hup.peer halone
  have t1 : Tracked cfg c 0 σ ([] ++ es) := hx1.track c 0 hreads (Or.inl rfl) (by
    intro p w hp; simp [System.init, Map.get] at hp)
  obtain ⟨k, _, d1⟩ := t1 p w hup.peer hup.wire hup.server (up_socket hup) hsolo
  rw [d1.events (up_socket hup)] at he
  obtain ⟨q, hq, hqe⟩ := List.mem_filterMap.mp he
  obtain ⟨q0, hq0, rfl⟩ := List.mem_map.mp hq
  have hd := sentTo_no_disconnect cfg c _ _ q0 (List.mem_of_mem_take hq0)
  rw [eventOf_receivedBy] at hqe
  cases q0 with
  | publish x => cases hqe; exact ⟨_, _, _, _, rfl⟩
  | disconnect x => exact absurd rfl (hd x)
  | _ => cases hqe

theorem cliPrint_messages (lossy : Buf → Str) (b : Bool) (es fs : List ClientEvent)
    (h : ∀ e ∈ es ++ fs, ∃ t pl q r, e = .message t pl q r) :
    cliPrint lossy b (es ++ fs) = cliPrint lossy b es ++ (fs.filterMap eventHeard).map (lineOf lossy b) := by
  induction es with
  | nil =>
    induction fs with
    | nil => rfl
    | cons e fs ih =>
      obtain ⟨t, pl, q, r, rfl⟩ := h e (by simp)
      have := ih (fun e he => h e (by simp at he; simp [he]))
      simp only [List.nil_append] at this
      simp only [cliPrint, List.nil_append, List.filterMap_cons, eventHeard, List.map_cons] at this ⊢
      rw [this, List.cons.injEq]
      refine ⟨?_, rfl⟩
      unfold cliLine lineOf
      cases b <;> simp
  | cons e es ih =>
    obtain ⟨t, pl, q, r, rfl⟩ := h e (by simp)
    rw [List.cons_append, cliPrint, cliPrint, ih (fun e he => h e (by simp at he ⊢; exact Or.inr he))]
    rfl

theorem run_length (l : Client) (is : List ClientIn) : (l.run is).2.length = is.length := by
  induction is generalizing l with
  | nil => rfl
  | cons i is ih => simp only [Client.run, List.length_cons]; rw [ih]

/-- The tool publishes its message, and only that. -/
theorem Peer.RanPub.published {p : Peer} {a : PubArgs} {stdin : Option Str} {payload : Str} {q : QoS}
    (h : p.RanPub a stdin payload q) : p.published = [⟨a.topic, payload, q, a.retain⟩] := by
  obtain ⟨hpl, hq, before, between, ok1, ok2, hreads, hsuc, _, hhist⟩ := h
  have hret : (if a.retain = true then true else false) = a.retain := by cases a.retain <;> rfl
  have silent : ∀ (g : ClientIn × ClientOut → Option Publication), (∀ r ok o, g (.read r ok, o) = none) →
      ∀ (is : List ClientIn) (os : List ClientOut), (∀ i ∈ is, ∃ r ok, i = .read r ok) →
      (is.zip os).filterMap g = [] := by
    intro g hg is os hr
    rw [List.filterMap_eq_nil_iff]
    rintro ⟨i, o⟩ hx
    obtain ⟨r, ok, rfl⟩ := hr i (List.of_mem_zip hx).1
    exact hg r ok o
  simp only [runPublish, hpl, cliQos_some.mpr hq, hret] at hsuc hhist
  generalize hb : ({} : Client).run before = b at hsuc hhist
  have hlb : b.2.length = before.length := by rw [← hb]; exact run_length _ _
  cases hres : (b.1.step (.publish a.topic payload q a.retain ok1)).2.result with
  | none => rw [hres] at hsuc; cases hsuc
  | some r =>
    cases r with
    | published id =>
      rw [hres] at hhist
      simp only at hhist
      have hlm := run_length (b.1.step (.publish a.topic payload q a.retain ok1)).1 between
      unfold Peer.published
      rw [hhist, List.append_assoc, List.zip_append hlb.symm, List.filterMap_append, silent _ (fun _ _ _ => rfl) _ _
        (fun i hi => hreads i (List.mem_append_left _ hi)), List.nil_append]
      rw [List.cons_append, List.cons_append, List.zip_cons_cons, List.filterMap_cons]
      simp only [hres]
      rw [List.zip_append hlm.symm, List.filterMap_append, silent _ (fun _ _ _ => rfl) _ _
        (fun i hi => hreads i (List.mem_append_right _ hi))]
      rfl
    | _ => rw [hres] at hsuc; cases hsuc

/-- The tool is subscribed to the topics of its command line, and only those. -/
theorem Peer.RunsSub.subscribed {p : Peer} {a : SubArgs} (h : p.RunsSub a) (f : Str) :
    p.subscribedTo f ↔ f ∈ a.topics := by
  obtain ⟨_, i, ok, o, rs, H1, H2, hi, ho, hh, hr⟩ := h
  unfold SubArgs.call at hi
  cases hq : cliQos a.qos with
  | none => rw [hq] at hi; cases hi
  | some q =>
    rw [hq] at hi
    simp only [Option.map_some, Option.some.injEq] at hi
    subst hi
    have key : ∀ g : Prop → ClientIn × ClientOut → Prop,
        (∀ b x, (x.1 = .recv ∨ (∃ ok, x.1 = .tick ok) ∨ ∃ r ok, x.1 = .read r ok) → g b x = b) →
        (∀ b, g b (.subscribe (a.topics.map fun t => (t, q)) ok, o) = (b ∨ f ∈ (a.topics.map fun t => (t, q)).map (·.1))) →
        (p.history.foldl g False ↔ f ∈ a.topics) := by
      intro g h1 h2
      have idle : ∀ (H : List (ClientIn × ClientOut)) (b : Prop),
          (∀ x ∈ H, x.1 = .recv ∨ (∃ ok, x.1 = .tick ok) ∨ ∃ r ok, x.1 = .read r ok) → H.foldl g b = b := by
        intro H
        induction H with
        | nil => intro b _; rfl
        | cons x H ih =>
          intro b hx
          rw [List.foldl_cons, h1 b x (hx x (by simp))]
          exact ih b (fun x h => hx x (by simp [h]))
      rw [hh, List.foldl_append, idle H1 _ (fun x hx => hr x (List.mem_append_left _ hx)), List.foldl_cons, h2,
        idle H2 _ (fun x hx => hr x (List.mem_append_right _ hx))]
      simp
    refine key _ ?_ ?_
    · rintro b ⟨i, o⟩ (rfl | ⟨ok, rfl⟩ | ⟨r, ok, rfl⟩) <;> rfl
    · intro b
      simp only [ho]

theorem asked_sub {p : Peer} {a : SubArgs} {i : ClientIn} {ok : Bool} {o : ClientOut} {H1 H2 : List (ClientIn × ClientOut)}
    (hi : a.call ok = some i) (hh : p.history = H1 ++ (i, o) :: H2)
    (hr : ∀ x ∈ H1 ++ H2, x.1 = .recv ∨ (∃ ok, x.1 = .tick ok) ∨ ∃ r ok, x.1 = .read r ok) {f : Str} (h : p.askedFor f) : f ∈ a.topics := by
  obtain ⟨l, ok', o', fs, hm, _, hf⟩ := h
  unfold SubArgs.call at hi
  cases hq : cliQos a.qos with
  | none => rw [hq] at hi; cases hi
  | some q =>
    rw [hq] at hi
    simp only [Option.map_some, Option.some.injEq] at hi
    subst hi
    rw [hh] at hm
    rcases List.mem_append.mp hm with hm | hm
    · rcases hr _ (List.mem_append_left _ hm) with h | ⟨_, h⟩ | ⟨_, _, h⟩ <;> cases h
    · rcases List.mem_cons.mp hm with hm | hm
      · cases hm
        simpa using hf
      · rcases hr _ (List.mem_append_right _ hm) with h | ⟨_, h⟩ | ⟨_, _, h⟩ <;> cases h

theorem idle_events {p : Peer} (h : p.idle) : p.events = p.history.filterMap (·.2.event) := by
  unfold Peer.events
  cases hl : p.loop with
  | none => simp
  | some l => simp [h l hl]

/-! ## C101 -/

/-- C101: any number of built-in clients, among them command line tools, connected to a server by byte streams.  `L` is,
in an order common to all subscribers, what was published between two moments (after `evs1`, after `evs2`).

A run of `mercurio pub` that is started in between and ends with exit status 0 has published its message, with the
payload of the command line or of standard input, the topic, the QoS and the retain flag of the command line (if it asked for a keep-alive
other than 0, see `C75_keep_alive_zero_false`): it is in `L` exactly once, and `L` has nothing else of this client.

A run of `mercurio sub` that has subscribed before, and whose ping timer may tick, prints in between only lines for messages of `L` whose topic a filter
of the command line matches, for each filter in the order of `L`; and if these are at most 16, all of them, once nothing
is in transit and the tool has taken all events. -/
theorem C101_tools (m : Mode) (cfg : AuthConfig) (evs1 evs2 : List SysEvent)
    (hord : ∀ e ∈ evs1 ++ evs2, e.Ordinary) (lossy : Buf → Str) :
    let σ1 := System.init.run m cfg evs1
    let σ2 := σ1.run m cfg evs2
    ∃ L, PublishedBetween σ1 σ2 L ∧
      (∀ d p a stdin payload q x y, σ1.peers.get d = none → σ2.peers.get d = some p → p.RanPub a stdin payload q →
        evs2 = x ++ y → (σ1.run m cfg x).QuietUp d → (σ1.run m cfg x).Timed d → (∀ e ∈ y, e.Kept d) → σ2.Settled d →
        byClient d L = [⟨a.topic, payload, q, a.retain⟩]) ∧
      ∀ c a p1 p2 w2, ReadsWell m cfg c System.init (evs1 ++ evs2) →
        σ1.Quiet m cfg c → σ1.peers.get c = some p1 → p1.RunsSub a → p1.idle →
        (∀ i, SysEvent.app c i ∈ evs2 → i = .recv ∨ ∃ ok, i = .tick ok) →
        σ2.Up c p2 w2 → σ2.Apart c p2 → p2.idle →
        ∃ H : List Heard, p2.printed lossy a = p1.printed lossy a ++ H.map (lineOf lossy a.printTopic) ∧
          (∀ x ∈ H, x.topic ∈ a.topics) ∧
          ∀ f ∈ a.topics, ValidFilter f →
            (H.filter fun x => x.topic = f).Sublist (heardFor f L) ∧
            ((heardFor f L).length ≤ 16 → σ2.QuietDown m cfg c → (H.filter fun x => x.topic = f) = heardFor f L) := by
  intro σ1 σ2
  obtain ⟨L, hL, hgone, hheard⟩ := C99_published_then_disconnected_partial m cfg evs1 evs2 hord
  refine ⟨L, hL, ?_, ?_⟩
  · intro d p a stdin payload q x y h1 h2 hran hxy hq hka hk hs
    have := hgone d x y hxy (Or.inl h1) hq hka hk hs
    have e1 : σ1.published d = [] := by unfold System.published; rw [h1]; rfl
    have e2 : σ2.published d = p.published := by unfold System.published; rw [h2]; rfl
    rw [e1, e2, hran.published, List.nil_append] at this
    exact this.symm
  · intro c a p1 p2 w2 hreads hq1 hp1 hsub hidle1 honly hup2 hap hidle2
    have erun : σ2 = System.init.run m cfg (evs1 ++ evs2) := by
      show (System.init.run m cfg evs1).run m cfg evs2 = _
      simp only [System.run, List.foldl_append]
    obtain ⟨es, hx1⟩ := history (m := m) evs1 (fun e he => hord e (List.mem_append_left _ he)) (sysInv_init cfg)
    obtain ⟨ext, hx2⟩ := history (m := m) evs2 (fun e he => hord e (List.mem_append_right _ he)) hx1.inv
    have hq1' := hq1
    obtain ⟨p1', w1, hu1, _⟩ := hq1'.parts
    have := hu1.peer; rw [hp1] at this; cases this
    obtain ⟨p2', w2', hp2, _, hev⟩ := hx2.peer c p1 w1 hp1 hu1.wire
    have := hup2.peer
    rw [show σ2.peers.get c = some p2' from hp2] at this; cases this
    obtain ⟨H2, hH2, hH2r⟩ := hev.history
    have hcalls := hsub.2
    obtain ⟨i, ok, o, rs, A, B, hi, ho, hh, hr⟩ := hcalls
    have hh2 : p2.history = A ++ (i, o) :: (B ++ H2) := by rw [hH2, hh]; simp
    have hr2 : ∀ x ∈ A ++ (B ++ H2), x.1 = .recv ∨ (∃ ok, x.1 = .tick ok) ∨ ∃ r ok, x.1 = .read r ok := by
      intro x hx
      rw [← List.append_assoc] at hx
      rcases List.mem_append.mp hx with hx | hx
      · exact hr x hx
      · rcases hH2r x hx with h | h
        · exact Or.inr (Or.inr h)
        · rcases honly _ h with h | h
          · exact Or.inl h
          · exact Or.inr (Or.inl h)
    have hclean : p2.opts.cleanStart = true := by
      rw [hev.opts]
      have := hsub.1
      unfold SubArgs.options SubArgs.connectOptions at this
      cases hqq : cliQos a.qos with
      | none => rw [hqq] at this; cases this
      | some q =>
        rw [hqq] at this
        cases hw : a.willTopic with
        | none =>
          rw [hw] at this
          simp only [Option.map_some, Option.some.injEq, cli_connectOptions] at this
          rw [← this]
        | some t =>
          rw [hw] at this
          cases hwq : cliQos a.willQos with
          | none => rw [hwq] at this; cases this
          | some wq =>
            rw [hwq] at this
            simp only [Option.map_some, Option.some.injEq, cli_connectOptions] at this
            rw [← this]
            rfl
    have hmsg := only_messages m cfg (evs1 ++ evs2) hord c hreads p2 w2 (by rw [← erun]; exact hup2)
      (by rw [← erun]; exact hap)
    have hmade := C100_nothing_made_up m cfg (evs1 ++ evs2) hord c hreads p2 w2 (by rw [← erun]; exact hup2) hclean
      (by rw [← erun]; exact hap)
    rw [idle_events hidle2, hH2, List.filterMap_append] at hmsg
    have hheard2 : p2.heard = p1.heard ++ (H2.filterMap (·.2.event)).filterMap eventHeard := by
      have e1 : p1.heard = p1.events.filterMap eventHeard := rfl
      have e2 : p2.heard = p2.events.filterMap eventHeard := rfl
      rw [e1, e2, idle_events hidle1, idle_events hidle2, hH2, List.filterMap_append, List.filterMap_append]
    refine ⟨(H2.filterMap (·.2.event)).filterMap eventHeard, ?_, ?_, ?_⟩
    · unfold Peer.printed
      rw [hH2, List.filterMap_append]
      exact cliPrint_messages lossy a.printTopic _ _ hmsg
    · intro x hx
      exact asked_sub hi hh2 hr2 (hmade x (by rw [hheard2]; exact List.mem_append_right _ hx)).1
    · intro f hf hvf
      obtain ⟨X, hX1, hX2, hX3⟩ := hheard c f p1 p2 w2 hreads hvf hq1 hp1 ((hsub.subscribed f).mpr hf)
        (by intro i hi; rcases honly i hi with rfl | ⟨_, rfl⟩ <;> exact id) hup2 hap
      have hX : (((H2.filterMap (·.2.event)).filterMap eventHeard).filter fun x => x.topic = f) = X := by
        unfold Peer.heardOn at hX1
        rw [hheard2, List.filter_append] at hX1
        exact List.append_cancel_left hX1
      rw [hX]
      exact ⟨hX2, fun h16 hq => (hX3 h16).2 hq⟩

/-- C101 for one filter, which is valid: if at most 16 messages it matches were published, the tool prints a line for
each of them, in the order in which they were published, and nothing else. -/
theorem C101_one_filter (m : Mode) (cfg : AuthConfig) (evs1 evs2 : List SysEvent)
    (hord : ∀ e ∈ evs1 ++ evs2, e.Ordinary) (lossy : Buf → Str) :
    let σ1 := System.init.run m cfg evs1
    let σ2 := σ1.run m cfg evs2
    ∃ L, PublishedBetween σ1 σ2 L ∧
      (∀ d p a stdin payload q x y, σ1.peers.get d = none → σ2.peers.get d = some p → p.RanPub a stdin payload q →
        evs2 = x ++ y → (σ1.run m cfg x).QuietUp d → (σ1.run m cfg x).Timed d → (∀ e ∈ y, e.Kept d) → σ2.Settled d →
        byClient d L = [⟨a.topic, payload, q, a.retain⟩]) ∧
      ∀ c a f p1 p2, a.topics = [f] → ValidFilter f → (heardFor f L).length ≤ 16 →
        ReadsWell m cfg c System.init (evs1 ++ evs2) →
        σ1.Quiet m cfg c → σ1.peers.get c = some p1 → p1.RunsSub a → p1.idle →
        (∀ i, SysEvent.app c i ∈ evs2 → i = .recv ∨ ∃ ok, i = .tick ok) →
        σ2.QuietDown m cfg c → σ2.peers.get c = some p2 → σ2.Apart c p2 → p2.idle →
        p2.printed lossy a = p1.printed lossy a ++ (heardFor f L).map (lineOf lossy a.printTopic) := by
  intro σ1 σ2
  obtain ⟨L, h1, h2, h3⟩ := C101_tools m cfg evs1 evs2 hord lossy
  refine ⟨L, h1, h2, ?_⟩
  intro c a f p1 p2 hf hvf h16 hr hq1 hp1 hs hi1 honly hq2 hp2 hap hi2
  have hq2' := hq2
  obtain ⟨p, w, hup, _⟩ := hq2'
  have := hup.peer; rw [hp2] at this; cases this
  obtain ⟨H, e1, e2, e3⟩ := h3 c a p1 p2 w hr hq1 hp1 hs hi1 honly hup hap hi2
  have e4 := (e3 f (by rw [hf]; simp) hvf).2 h16 hq2
  have e5 : (H.filter fun x => x.topic = f) = H := by
    rw [List.filter_eq_self]
    intro x hx
    have := e2 x hx
    rw [hf, List.mem_singleton] at this
    simpa using this
  rw [e1, ← e4, e5]

/-! ## An example -/

/-- `mercurio sub -i s -t a/+ -q 1 --print-topic` -/
def exToolSubArgs : SubArgs :=
  { connection := { clientId := some (str "s") }, topics := [str "a/+"], qos := 1, printTopic := true }

/-- `mercurio pub -t a/b -m hi -q 1` -/
def exToolPubArgs : PubArgs := { topic := str "a/b", message := some (str "hi"), qos := 1 }

/-- The subscriber connects and subscribes. -/
def exToolSub : List SysEvent := [
  .connect 0 { clientId := some (str "s") }, .serverRead 0 4096, .serverTurn 0 (str "u") true,
  .clientRead 0 4096, .clientTurn 0 true,
  .app 0 (.subscribe [(str "a/+", .atLeastOnce)] true), .serverRead 0 4096, .serverTurn 0 (str "u") true,
  .clientRead 0 4096, .clientTurn 0 true]

/-- The publisher connects. -/
def exToolCon : List SysEvent := [
  .connect 1 {}, .serverRead 1 4096, .serverTurn 1 (str "v") true, .clientRead 1 4096, .clientTurn 1 true]

/-- It publishes and disconnects at once; the message reaches the subscriber, which takes it. -/
def exToolPub : List SysEvent := [
  .app 1 (.publish (str "a/b") (str "hi") .atLeastOnce false true), .app 1 (.disconnect true),
  .serverRead 1 4096, .serverTurn 1 (str "v") true, .serverTurn 1 (str "v") true,
  .deliver 0 (str "a/+"), .clientRead 0 4096, .clientTurn 0 true, .app 0 .recv,
  .serverRead 0 4096, .serverTurn 0 (str "u") true]

def exTool1 : System := System.init.run .debug {} exToolSub
def exTool2 : System := exTool1.run .debug {} exToolCon
def exTool3 : System := exTool1.run .debug {} (exToolCon ++ exToolPub)

theorem exTool_ordinary : ∀ e ∈ exToolSub ++ (exToolCon ++ exToolPub), e.Ordinary := by
  have adm : ∀ t : Option Str, (∀ s, t = some s → TextField s) → (SysEvent.connect 0 { clientId := t }).Ordinary := by
    intro t ht
    refine ⟨⟨ht, ?_, ?_, ?_⟩, ?_⟩
    · intro s hs; cases hs
    · intro s hs; cases hs
    · intro s hs; cases hs
    · intro s hs; cases hs
  simp only [exToolSub, exToolCon, exToolPub, List.cons_append, List.nil_append, List.forall_mem_cons]
  refine ⟨adm _ (by intro s hs; cases hs; decide), trivial, (by decide : TextField _), trivial, trivial,
    ⟨by simp, by simp; decide, by decide⟩, trivial, (by decide : TextField _), trivial, trivial,
    adm none (by intro s hs; cases hs), trivial, (by decide : TextField _), trivial, trivial,
    ⟨by decide, by simp, by decide⟩, trivial, trivial, (by decide : TextField _), (by decide : TextField _), trivial,
    trivial, trivial, trivial, trivial, (by decide : TextField _), by simp⟩

theorem exTool_reads : ReadsWell .debug {} 0 System.init (exToolSub ++ (exToolCon ++ exToolPub)) := by
  have got : ∀ (σ : System) (k : Nat) (g s : Buf), EndsWell .v5 (exSysSent.take k) g.length →
      ((σ.peers.get 0).map (fun p => (p.opts.protocolVersion, p.got)), (σ.net.wires.get 0).map (·.sent)) =
        (some (.v5, g), some s) →
      writePackets (exSysSent.take k) = (s, true) → g <+: s →
      ∀ p w, σ.peers.get 0 = some p → σ.net.wires.get 0 = some w →
        GotWell p.opts.protocolVersion w.sent p.got := by
    intro σ k g s h0 h1 h2 h3 p w hp hw
    rw [hp, hw] at h1
    simp only [Option.map_some, Prod.mk.injEq, Option.some.injEq] at h1
    rw [h1.1.1, h1.1.2, h1.2]
    exact ⟨_, s, exSysSent_to k s h2, List.prefix_rfl, h3, h0⟩
  have e1 : EndsWell .v5 (exSysSent.take 1) 5 := Or.inr ⟨[32, 3, 0, 0, 0], by decide, trivial⟩
  have e2 : EndsWell .v5 (exSysSent.take 2) 11 :=
    Or.inr ⟨[32, 3, 0, 0, 0], by decide, Or.inr ⟨[144, 4, 0, 1, 0, 0], by decide, trivial⟩⟩
  have e4 : EndsWell .v5 (exSysSent.take 3) 23 :=
    Or.inr ⟨[32, 3, 0, 0, 0], by decide, Or.inr ⟨[144, 4, 0, 1, 0, 0], by decide,
      Or.inr ⟨[50, 10, 0, 3, 97, 47, 43, 0, 1, 0, 104, 105], by decide, trivial⟩⟩⟩
  refine ⟨by simp, by decide, by simp, by decide, by simp, by decide,
    fun n _ => got _ 1 [32, 3, 0, 0, 0] [32, 3, 0, 0, 0] e1 (by decide +kernel) (by decide +kernel) (by decide),
    by decide,
    by simp, by decide, by simp, by decide, by simp, by decide, by simp, by decide,
    fun n _ => got _ 2 [32, 3, 0, 0, 0, 144, 4, 0, 1, 0, 0] [32, 3, 0, 0, 0, 144, 4, 0, 1, 0, 0] e2
      (by decide +kernel) (by decide +kernel) (by decide), by decide,
    by simp, by decide, by simp, by decide, by simp, by decide, by simp, by decide, by simp, by decide,
    by simp, by decide, by simp, by decide, by simp, by decide, by simp, by decide, by simp, by decide,
    by simp, by decide, by simp, by decide,
    fun n _ => got _ 3 [32, 3, 0, 0, 0, 144, 4, 0, 1, 0, 0, 50, 10, 0, 3, 97, 47, 43, 0, 1, 0, 104, 105]
      [32, 3, 0, 0, 0, 144, 4, 0, 1, 0, 0, 50, 10, 0, 3, 97, 47, 43, 0, 1, 0, 104, 105] e4
      (by decide +kernel) (by decide +kernel) (by decide), by decide,
    by simp, by decide, by simp, by decide, by simp, by decide, by simp, by decide, trivial⟩

theorem exTool1_quiet : exTool1.Quiet .debug {} 0 :=
  quiet_check (fs := [str "a/+"]) (by decide +kernel) (by decide +kernel) (by decide +kernel)

theorem exTool3_quiet : exTool3.Quiet .debug {} 0 :=
  quiet_check (fs := [str "a/+"]) (by decide +kernel) (by decide +kernel) (by decide +kernel)

theorem exTool2_quiet : exTool2.QuietUp 1 := by
  have hq : exTool2.Quiet .debug {} 1 :=
    quiet_check (fs := []) (by decide +kernel) (by decide +kernel) (by decide +kernel)
  exact hq.1

theorem exTool3_settled : exTool3.Settled 1 := by
  have h : (match exTool3.peers.get 1, exTool3.net.wires.get 1 with
    | some p, some w => p.wrote == w.rcvd && !w.running
    | _, _ => false) = true := by decide +kernel
  split at h
  · rename_i p w hp hw
    simp only [Bool.and_eq_true, Bool.not_eq_true'] at h
    exact ⟨p, w, hp, hw, Or.inl h.2⟩
  · cases h

/-- The publisher's client is that of the tool. -/
theorem exTool_pub {p : Peer} (hp : exTool3.peers.get 1 = some p) :
    p.RanPub exToolPubArgs none (str "hi") .atLeastOnce := by
  have h : (exTool3.peers.get 1).map (fun p => (p.opts, p.history)) = some (exToolPubArgs.connection.options,
      [ClientIn.publish (str "a/b") (str "hi") .atLeastOnce false true, .disconnect true].zip
        (runPublish exToolPubArgs none (some {}) true [] true).outs) := by decide +kernel
  rw [hp] at h
  simp only [Option.map_some, Option.some.injEq, Prod.mk.injEq] at h
  refine ⟨rfl, Or.inr (Or.inl ⟨rfl, rfl⟩), [], [], true, true, by simp, ?_, ?_, ?_⟩
  · decide +kernel
  · rw [h.1]; rfl
  · exact h.2

/-- The subscriber's client is that of the tool. -/
theorem exTool_sub {p : Peer} (hp : exTool1.peers.get 0 = some p) : p.RunsSub exToolSubArgs ∧ p.idle := by
  have h : (exTool1.peers.get 0).map (fun p => (some p.opts, p.history, p.loop.map (·.pending))) =
      some (exToolSubArgs.options, [(.subscribe [(str "a/+", .atLeastOnce)] true,
          { sent := some (.subscribe ⟨1, none, [⟨str "a/+", { qos := .atLeastOnce }⟩]⟩)
            result := some (.subscribed [(str "a/+", .atLeastOnce, true)]) }),
        (.read (.packet (.subAck { packetId := 1, properties := some {}, payload := [.success] })) true, {})],
        some []) := by decide +kernel
  rw [hp] at h
  simp only [Option.map_some, Option.some.injEq, Prod.mk.injEq] at h
  refine ⟨⟨h.1.symm, _, true, _, [(str "a/+", .atLeastOnce, true)], [], _, ?_, ?_, h.2.1, ?_⟩, ?_⟩
  · rfl
  · rfl
  · intro x hx
    simp only [List.nil_append, List.mem_singleton] at hx
    subst hx
    exact Or.inr (Or.inr ⟨_, _, rfl⟩)
  · intro l hl
    rw [hl] at h
    exact Option.some.inj h.2.2

/-- The hypotheses of C101 hold, and the line is printed. -/
example : exTool1.peers.get 1 = none ∧ exTool2.Timed 1 ∧ (∀ e ∈ exToolPub, e.Kept 1) ∧
    (∀ i, SysEvent.app 0 i ∈ exToolCon ++ exToolPub → i = .recv ∨ ∃ ok, i = .tick ok) ∧
    (∃ p, exTool3.peers.get 0 = some p ∧ exTool3.Apart 0 p ∧ p.idle ∧
      p.printed id exToolSubArgs = [str "a/+: hi\n"]) ∧
    (exTool1.peers.get 0).map (·.printed id exToolSubArgs) = some [] := by
  refine ⟨by decide +kernel, timed_check (by decide +kernel), ?_, ?_, ?_, by decide +kernel⟩
  · intro e he
    simp only [exToolPub, List.mem_cons, List.not_mem_nil, or_false] at he
    rcases he with rfl | rfl | rfl | rfl | rfl | rfl | rfl | rfl | rfl | rfl | rfl <;>
      first
      | trivial
      | exact fun _ => (C22_publish_topic_iff _).mp (by decide +kernel)
  · intro i hi
    left
    simpa [exToolCon, exToolPub] using hi
  · obtain ⟨p, w, hup, _⟩ := exTool3_quiet.parts
    have h : (exTool3.peers.get 0).map (fun p => (p.loop.map (·.pending), p.printed id exToolSubArgs)) =
      some (some [], [str "a/+: hi\n"]) := by decide +kernel
    rw [hup.peer] at h
    simp only [Option.map_some, Option.some.injEq, Prod.mk.injEq] at h
    refine ⟨p, hup.peer, apart_check hup.peer (by decide +kernel), ?_, h.2⟩
    intro l hl
    rw [hl] at h
    exact Option.some.inj h.1

end Mercurio
