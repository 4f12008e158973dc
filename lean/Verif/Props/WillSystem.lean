import Verif.Lemmas.WillSystem

/-!
# C103: the will of a client that is cut off reaches the subscribers
-/

namespace Mercurio

open Spec Server

/-! ## Specification -/

/-- The messages among `L` that are the will of client `d`. -/
def willsOf (d : Nat) (L : List (Source × Publication)) : List Publication :=
  (L.filter fun q => q.1 = .will d).map (·.2)

/-- The will a client connected with, if it did. -/
def Peer.will (p : Peer) : List Publication :=
  match p.opts.will with
  | none => []
  | some w => [⟨w.topic, w.payload, w.qos, w.retain⟩]

/-- The application called `disconnect`, and the call returned normally. -/
def Peer.left (p : Peer) : Prop :=
  ∃ ok o, (ClientIn.disconnect ok, o) ∈ p.history ∧ o.result = some .done

/-! ## Lemmas -/

theorem willsOf_calls (d : Nat) (cs : List Call) :
    willsOf d (callsPub cs) = (willPublications d cs).filterMap fun x => (callPub x).map (·.2) := by
  induction cs with
  | nil => rfl
  | cons x cs ih =>
    cases x with
    | publish s t m =>
      have e : callsPub (.publish s t m :: cs) = (s, ⟨t, m.payload.getD [], m.qos, m.retain⟩) :: callsPub cs := rfl
      rw [e]
      cases s with
      | client c => simpa [willsOf, willPublications] using ih
      | will c =>
        by_cases h : c = d
        · subst h
          simp only [willsOf, willPublications] at ih ⊢
          simp [ih, callPub]
        · simp only [willsOf, willPublications] at ih ⊢
          simp [ih, h]
    | _ => exact ih

theorem willsOf_will (d : Nat) (p : Peer) :
    (callsOfWill d (p.opts.will.map fun w => ⟨w.topic, w.payload, w.qos, w.retain⟩)).filterMap
      (fun x => (callPub x).map (·.2)) = p.will := by
  unfold Peer.will
  cases p.opts.will <;> rfl

/-- C103 for the calls `cs` the broker got. -/
theorem wills_since (m : Mode) (cfg : AuthConfig) (evs1 a b : List SysEvent)
    (hord : ∀ e ∈ evs1 ++ a ++ b, e.Ordinary) (cs : List Call) :
    let σ1 := System.init.run m cfg evs1
    let σa := σ1.run m cfg a
    let σ2 := σa.run m cfg b
    σ2.net.server.world.log = σ1.net.server.world.log ++ cs →
    ∀ d p2 w2, σa.QuietUp d → σ2.peers.get d = some p2 → σ2.net.wires.get d = some w2 → σ2.Apart d p2 →
      p2.opts.cleanStart = true →
      (w2.running = true → willsOf d (callsPub cs) = []) ∧
      (w2.running = false → ¬ p2.left → p2.opts.keepAlive ≠ 0 → (m = .release ∨ ∀ ok, SysEvent.app d (.tick ok) ∉ b) → willsOf d (callsPub cs) = p2.will) ∧
      (w2.running = false → p2.left → p2.opts.keepAlive ≠ 0 → (∀ e ∈ b, e.Kept d) → willsOf d (callsPub cs) = []) := by
  intro σ1 σa σ2 hlog d p2 w2 hq hp2 hw2 hap hcl
  obtain ⟨es1, hx1⟩ := history (m := m) evs1 (fun e he => hord e (by simp [he])) (sysInv_init cfg)
  obtain ⟨es2, hx2⟩ := history (m := m) a (fun e he => hord e (by simp [he])) hx1.inv
  rw [List.nil_append] at hx2
  obtain ⟨pa, wa, hup, q1, q2⟩ := hq
  have hia : SysInv cfg σa (es1 ++ es2) := hx2.inv
  have hordb : ∀ e ∈ b, e.Ordinary := fun e he => hord e (by simp [he])
  obtain ⟨extb, hxb⟩ := history (m := m) b hordb hia
  obtain ⟨p', w', hp', hw', hev⟩ := hxb.peer d pa wa hup.peer hup.wire
  have e1 : p2 = p' := Option.some.inj (hp2.symm.trans hp')
  have e2 : w2 = w' := Option.some.inj (hw2.symm.trans hw')
  subst e1; subst e2
  obtain ⟨hall, hb, _⟩ := hia.quiet hup.peer hup.wire hup.server q1 q2
  have hcla : pa.opts.cleanStart = true := by rw [← hev.opts]; exact hcl
  have hapb : (σa.run m cfg b).Apart d pa := by
    intro x q hx hqx hid
    unfold Peer.clientId at hid
    rw [← hev.opts] at hid ⊢
    exact hap x q hx hqx hid
  have hapa : σa.Apart d pa := apart_before hia b hordb rfl hapb
  have h0 := (hia.running_wills hup.peer hup.wire hup.server hb hapa hcla).1
  have hsent := (hia.quiet_sent hup.peer hup.wire hup.server q1 q2).2
  have hwill : Willed m cfg d (pa.opts.will.map fun w => ⟨w.topic, w.payload, w.qos, w.retain⟩) σa (es1 ++ es2) :=
    ⟨pa, wa, hup.peer, hup.wire, hb, Or.inr hsent.noPing, fun _ => h0, fun h => by rw [hup.server] at h; cases h⟩
  have hpart : p2.opts.keepAlive ≠ 0 → Parted cfg d σa (es1 ++ es2) := by
    intro hka
    refine ⟨pa, wa, hup.peer, hup.wire, hb, Or.inl ⟨hup.server, hsent.noPing, by rw [← hev.opts]; exact hka, [], [], ?_, by simp, Or.inl rfl⟩⟩
    rw [hall, List.length_map, List.drop_length]; rfl
  have hi2 : SysInv cfg σ2 (es1 ++ es2 ++ extb) := hxb.inv
  -- no will before
  have hbefore : willPublications d σ1.net.server.world.log = [] := by
    unfold willsNow at h0
    have hr1 : Server.run cfg Server.init (es1 ++ es2) = (Server.run cfg Server.init es1).run cfg es2 := by
      simp [Server.run]
    obtain ⟨x, hx⟩ := log_run cfg (Server.run cfg Server.init es1) es2
    rw [hr1, hx, willPublications_append] at h0
    have hs1 : σ1.net.server = Server.run cfg Server.init es1 := by
      have := hx1.inv.net.server
      rwa [List.nil_append] at this
    rw [hs1]
    exact (List.append_eq_nil_iff.mp h0).1
  have hnow : ∀ xs, SysInv cfg σ2 xs → willsNow cfg d xs = willPublications d cs := by
    intro xs hi
    unfold willsNow
    rw [← hi.net.server, hlog, willPublications_append, hbefore, List.nil_append]
  have hleft := (hi2.peer d p2 hp2).disconnects
  have hwl : p2.will = pa.will := by unfold Peer.will; rw [hev.opts]
  rw [willsOf_calls]
  refine ⟨fun hr => ?_, fun hr hl hka hno => ?_, fun hr hl hka hk => ?_⟩
  · rw [← hnow _ hi2, (hi2.running_wills hp2 hw2 hr (hev.begun hb) hap hcl).1]; rfl
  · obtain ⟨ext, hi3, ⟨p3, w3, hp3, hw3, _, _, d1, d2⟩, _⟩ :=
      willed_run (m := m) b hordb hno hia hup.peer hcla (by rw [← hev.opts]; exact hka) hapb hwill
    have e3 := Option.some.inj (hp3.symm.trans hp2)
    have e4 := Option.some.inj (hw3.symm.trans hw2)
    subst e3; subst e4
    rw [hnow _ hi3] at d2
    rcases d2 hr with h | ⟨_, hx⟩
    · rw [h, willsOf_will, hwl]
    · exact absurd (hleft.mp hx) hl
  · obtain ⟨ext, hi3, _, c2⟩ := willed_run (m := m) b hordb
      (Or.inr fun ok h => hk _ h rfl) hia hup.peer hcla (by rw [← hev.opts]; exact hka) hapb hwill
    obtain ⟨p4, w4, hp4, hw4, _, h4⟩ := c2 hk (hpart hka)
    have e3 := Option.some.inj (hp4.symm.trans hp2)
    have e4 := Option.some.inj (hw4.symm.trans hw2)
    subst e3; subst e4
    rcases h4 with ⟨h4, _⟩ | ⟨_, _, h4⟩
    · rw [hr] at h4; cases h4
    · rw [← hnow _ hi3, h4 (hleft.mpr hl)]; rfl

/-! ## The theorem -/

/-- C103: any number of built-in clients, connected to the server by byte streams.  A client `d` that starts clean
and does not share its session is connected at some time (after `a`) and nothing is in transit from it then.
Later (after `b`): as long as the server has not closed the connection, the will of `d` has not been published.  When
the server has closed the connection, for whatever reason, and the application has not disconnected (it did not call
`disconnect`, or the call failed), the will has been published, once, as the client gave it; in a debug build only if
the client has not pinged, as the server may then abort on what follows (C03, C18).  If the application has
disconnected, and the server did not give the connection up itself (keep-alive timeout, shutdown, I/O error, an
invalid topic), it has not been published.  "Published" means: it is in the list `L` that all subscribers get their
messages from (the last part says how, see C74).  Missing: in the last case the ticks of the client's own ping timer
(`Kept` excludes them; with them the claim is false, see `C103_after_ping_false`), and clients with keep-alive 0: the
server drops them at their second packet (`C75_keep_alive_zero_false`), without their will
(`C103_keep_alive_zero_false`). -/
theorem C103_will_partial (m : Mode) (cfg : AuthConfig) (evs1 evs2 : List SysEvent)
    (hord : ∀ e ∈ evs1 ++ evs2, e.Ordinary) :
    let σ1 := System.init.run m cfg evs1
    let σ2 := σ1.run m cfg evs2
    ∃ L, PublishedBetween σ1 σ2 L ∧
      (∀ d a b p2 w2, evs2 = a ++ b → (σ1.run m cfg a).QuietUp d → σ2.peers.get d = some p2 →
        σ2.net.wires.get d = some w2 → σ2.Apart d p2 → p2.opts.cleanStart = true →
        (w2.running = true → willsOf d L = []) ∧
        (w2.running = false → ¬ p2.left → p2.opts.keepAlive ≠ 0 → (m = .release ∨ ∀ ok, SysEvent.app d (.tick ok) ∉ b) → willsOf d L = p2.will) ∧
        (w2.running = false → p2.left → p2.opts.keepAlive ≠ 0 → (∀ e ∈ b, e.Kept d) → willsOf d L = [])) ∧
      ∀ c f p1 p2 w2, ReadsWell m cfg c System.init (evs1 ++ evs2) → ValidFilter f →
        σ1.Quiet m cfg c → σ1.peers.get c = some p1 → p1.subscribedTo f →
        (∀ i, SysEvent.app c i ∈ evs2 → ¬ i.Names f) → σ2.Up c p2 w2 →
        σ2.Apart c p2 →
        ∃ X, p2.heardOn f = p1.heardOn f ++ X ∧ X.Sublist (heardFor f L) ∧
          ((heardFor f L).length ≤ 16 →
            X <+: heardFor f L ∧ (σ2.QuietDown m cfg c → X = heardFor f L)) := by
  intro σ1 σ2
  obtain ⟨es, hx1⟩ := history (m := m) evs1 (fun e he => hord e (List.mem_append_left _ he)) (sysInv_init cfg)
  obtain ⟨ext, hx2⟩ := history (m := m) evs2 (fun e he => hord e (List.mem_append_right _ he)) hx1.inv
  rw [List.nil_append] at hx2
  have hi1 : SysInv cfg σ1 es := hx1.inv
  obtain ⟨cs, hcs, _⟩ := published_between hi1 hx2
  have hlog : σ2.net.server.world.log = σ1.net.server.world.log ++ cs := by
    rw [hx2.inv.net.server, hi1.net.server]; exact hcs
  have hs := heard_since m cfg evs1 evs2 hord cs hlog
  refine ⟨callsPub cs, hs.1, ?_, hs.2⟩
  rintro d a b p2 w2 rfl h2 hp2 hw2 hap hcl
  have erun : σ2 = (σ1.run m cfg a).run m cfg b := by
    show σ1.run m cfg (a ++ b) = _
    simp only [System.run, List.foldl_append]
  rw [erun] at hlog hp2 hw2 hap
  exact wills_since m cfg evs1 a b (by rw [List.append_assoc]; exact hord) cs hlog d p2 w2 h2 hp2 hw2 hap hcl

/-! ## Examples -/

/-- A subscriber of `a/+` and a client with a will, both connected. -/
def exWilled : List SysEvent := [
  .connect 0 { clientId := some (str "s") }, .serverRead 0 4096, .serverTurn 0 (str "u") true,
  .clientRead 0 4096, .clientTurn 0 true,
  .app 0 (.subscribe [(str "a/+", .atLeastOnce)] true), .serverRead 0 4096, .serverTurn 0 (str "u") true,
  .clientRead 0 4096, .clientTurn 0 true,
  .connect 1 { clientId := some (str "p"), will := some ⟨str "a/w", str "gone", .atMostOnce, false⟩ },
  .serverRead 1 4096, .serverTurn 1 (str "v") true,
  .clientRead 1 4096, .clientTurn 1 true]

/-- Its connection breaks: the server reads the end of the stream. -/
def exBreaks : List SysEvent := [
  .clientError 1, .serverRead 1 4096, .deliver 0 (str "a/+"), .clientRead 0 4096, .clientTurn 0 true]

/-- It disconnects. -/
def exLeaves : List SysEvent := [
  .app 1 (.disconnect true), .serverRead 1 4096, .serverTurn 1 (str "v") true, .deliver 0 (str "a/+"),
  .clientRead 0 4096, .clientTurn 0 true]

def exWilled1 : System := System.init.run .debug {} exWilled
def exBroken2 : System := exWilled1.run .debug {} exBreaks
def exGone2 : System := exWilled1.run .debug {} exLeaves

theorem exWilled_ordinary : ∀ e ∈ exWilled ++ (exBreaks ++ exLeaves), e.Ordinary := by
  simp only [exWilled, exBreaks, exLeaves, List.cons_append, List.nil_append, List.forall_mem_cons]
  refine ⟨⟨⟨?_, ?_, ?_, ?_⟩, ?_⟩, trivial, (by decide : TextField _), trivial, trivial,
    ⟨by simp, by simp; decide, by decide⟩, trivial, (by decide : TextField _), trivial, trivial,
    ⟨⟨?_, ?_, ?_, ?_⟩, ?_⟩, trivial, (by decide : TextField _), trivial, trivial,
    trivial, trivial, trivial, trivial, trivial, trivial, trivial, (by decide : TextField _), trivial, trivial, trivial, by simp⟩
  · intro s hs; cases hs; decide
  · intro s hs; cases hs
  · intro s hs; cases hs
  · intro s hs; cases hs
  · intro s hs; cases hs
  · intro s hs; cases hs; decide
  · intro s hs; cases hs
  · intro s hs; cases hs
  · intro s hs; cases hs; decide
  · intro s hs; cases hs; exact ⟨(C22_publish_topic_iff _).mp (by decide +kernel), rfl⟩

theorem exWilled_up : exWilled1.QuietUp 1 := by
  have hq : exWilled1.Quiet .debug {} 1 :=
    quiet_check (fs := []) (by decide +kernel) (by decide +kernel) (by decide +kernel)
  exact hq.1

/-- The connection breaks and the subscriber gets the will. -/
example : exWilled1.QuietUp 1 ∧
    (∃ p w, exBroken2.peers.get 1 = some p ∧ exBroken2.net.wires.get 1 = some w ∧ w.running = false ∧ ¬ p.left ∧
      exBroken2.Apart 1 p ∧ p.opts.cleanStart = true ∧ p.opts.keepAlive ≠ 0 ∧ p.will = [⟨str "a/w", str "gone", .atMostOnce, false⟩]) ∧
    (exBroken2.peers.get 0).map (·.heard) = some [⟨str "a/+", str "gone", .atMostOnce, false⟩] := by
  refine ⟨exWilled_up, ?_, by decide +kernel⟩
  have h : (match exBroken2.peers.get 1, exBroken2.net.wires.get 1 with
    | some p, some w => !w.running && p.opts.cleanStart && p.opts.keepAlive != 0 && p.will == [⟨str "a/w", str "gone", .atMostOnce, false⟩] &&
        p.history.all fun x => match x.1 with
          | .disconnect _ => false
          | _ => true
    | _, _ => false) = true := by decide +kernel
  split at h
  · rename_i p w hp hw
    simp only [Bool.and_eq_true, Bool.not_eq_true', beq_iff_eq, bne_iff_ne] at h
    obtain ⟨⟨⟨⟨h1, h2⟩, h2'⟩, h3⟩, h4⟩ := h
    refine ⟨p, w, hp, hw, h1, ?_, apart_check hp (by decide +kernel), h2, h2', h3⟩
    rintro ⟨ok, o, ho, _⟩
    have := List.all_eq_true.mp h4 _ ho
    cases this
  · cases h

/-- The client disconnects and nobody gets the will. -/
example : exWilled1.QuietUp 1 ∧ (∀ e ∈ exLeaves, e.Kept 1) ∧
    (∃ p w, exGone2.peers.get 1 = some p ∧ exGone2.net.wires.get 1 = some w ∧ w.running = false ∧ p.left ∧
      exGone2.Apart 1 p ∧ p.opts.cleanStart = true ∧ p.opts.keepAlive ≠ 0 ∧ p.will = [⟨str "a/w", str "gone", .atMostOnce, false⟩]) ∧
    (exGone2.peers.get 0).map (·.heard) = some [] := by
  refine ⟨exWilled_up, ?_, ?_, by decide +kernel⟩
  · intro e he
    simp only [exLeaves, List.mem_cons, List.not_mem_nil, or_false] at he
    rcases he with rfl | rfl | rfl | rfl | rfl | rfl <;> trivial
  have h : (match exGone2.peers.get 1, exGone2.net.wires.get 1 with
    | some p, some w => !w.running && p.opts.cleanStart && p.opts.keepAlive != 0 && p.will == [⟨str "a/w", str "gone", .atMostOnce, false⟩] &&
        p.history.any fun x => match x.1 with
          | .disconnect _ => x.2.result == some .done
          | _ => false
    | _, _ => false) = true := by decide +kernel
  split at h
  · rename_i p w hp hw
    simp only [Bool.and_eq_true, Bool.not_eq_true', beq_iff_eq, bne_iff_ne] at h
    obtain ⟨⟨⟨⟨h1, h2⟩, h2'⟩, h3⟩, h4⟩ := h
    refine ⟨p, w, hp, hw, h1, ?_, apart_check hp (by decide +kernel), h2, h2', h3⟩
    obtain ⟨⟨i, o⟩, hx, hy⟩ := List.any_eq_true.mp h4
    cases i with
    | disconnect ok => exact ⟨ok, o, hx, by simpa using hy⟩
    | _ => cases hy
  · cases h

end Mercurio
