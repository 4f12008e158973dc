import Verif.Lemmas.Gone

/-!
# C99: what an application publishes before it disconnects is not lost
-/

namespace Mercurio

open Spec Server

theorem quietUp_heeded {cfg : AuthConfig} {σ : System} {es : List Event} (h : SysInv cfg σ es) {c : Nat}
    (hq : σ.QuietUp c) (hka : σ.Timed c) : Heeded cfg c σ es := by
  obtain ⟨p, w, hup, q1, q2⟩ := hq
  obtain ⟨hall, hb, _⟩ := h.quiet hup.peer hup.wire hup.server q1 q2
  refine ⟨p, w, hup.peer, hup.wire, hb, Or.inl ⟨hup.server,
    (h.quiet_sent hup.peer hup.wire hup.server q1 q2).2.noPing, hka p hup.peer, [], [], ?_, by simp, Or.inl rfl⟩⟩
  rw [hall, List.length_map, List.drop_length]; rfl

/-- Before a client connects, and while nothing is in transit, the broker has what its application published. -/
theorem SysInv.before {cfg : AuthConfig} {σ : System} {es : List Event} (h : SysInv cfg σ es) {d : Nat}
    (hd : σ.peers.get d = none ∨ σ.QuietUp d) :
    byClient d (callsPub (Server.run cfg Server.init es).world.log) = σ.published d := by
  rcases hd with hd | hd
  · have hw : σ.net.wires.get d = none := by
      cases hw : σ.net.wires.get d with
      | none => rfl
      | some w => have := (h.ends d).mp (by rw [hw]; rfl); rw [hd] at this; cases this
    have := (h.log d).1
    rw [(h.net.unused d hw).1] at this
    rw [System.published, hd]
    exact List.prefix_nil.mp this
  · have hq := hd
    obtain ⟨p, w, hup, _⟩ := hd
    rw [System.published, hup.peer]
    exact h.logged_all hq hup.peer

/-- C99 for the calls `cs` the broker got. -/
theorem gone_since (m : Mode) (cfg : AuthConfig) (evs1 evs2 evs3 : List SysEvent)
    (hord : ∀ e ∈ evs1 ++ evs2 ++ evs3, e.Ordinary) (cs : List Call) :
    let σ1 := System.init.run m cfg evs1
    let σ2 := σ1.run m cfg evs2
    let σ3 := σ2.run m cfg evs3
    σ3.net.server.world.log = σ1.net.server.world.log ++ cs →
    ∀ d, (σ1.peers.get d = none ∨ σ1.QuietUp d) → σ2.QuietUp d → σ2.Timed d → (∀ e ∈ evs3, e.Kept d) → σ3.Settled d →
      σ3.published d = σ1.published d ++ byClient d (callsPub cs) := by
  intro σ1 σ2 σ3 hlog d h1 h2 hka hk hset
  obtain ⟨es1, hx1⟩ := history (m := m) evs1 (fun e he => hord e (by simp [he])) (sysInv_init cfg)
  obtain ⟨es2, hx2⟩ := history (m := m) evs2 (fun e he => hord e (by simp [he])) hx1.inv
  obtain ⟨es3, hi3, hh3⟩ := heeded_run (m := m) evs3 (fun e he => hord e (by simp [he])) hk hx2.inv
    (quietUp_heeded hx2.inv h2 hka)
  obtain ⟨p, w, hp, hw, hq⟩ := hset
  have e3 := hh3.all hi3 hp hw hq
  have e1 := hx1.inv.before h1
  rw [← hi3.net.server] at e3
  rw [← hx1.inv.net.server] at e1
  have hlog' : (System.run m cfg (System.run m cfg (System.run m cfg System.init evs1) evs2) evs3).net.server.world.log =
    (System.run m cfg System.init evs1).net.server.world.log ++ cs := hlog
  rw [hlog', callsPub_append, byClient_append, e1] at e3
  have : σ3.published d = p.published := by
    show ((σ3.peers.get d).map Peer.published).getD [] = _
    rw [hp]; rfl
  rw [this, ← e3]

/-- C99: any number of built-in clients, connected to the server by byte streams.  A client `d` is new since some
time (after `evs1`), or nothing was in transit from it then; later (after `a`, a time that may differ from client to
client) it is connected and nothing is in transit from it.  From then on (`b`) its application makes any calls,
publishing to valid topics, and may disconnect; its own socket and its reads may fail; and the server does not give
the connection up (keep-alive timeout, shutdown, I/O error).  As soon as the server has closed the connection, or has
acted on everything the client wrote, every message for which `publish` returned normally has been published, once, in
the order of the calls: it is in the list `L` that all subscribers get their messages from (the third part says how,
see C74).  So a client may publish and disconnect at once.  Missing: the ticks of the client's own ping timer (`Kept`
excludes them; with them the claim is false, see `C99_after_ping_false`), and clients with keep-alive 0
(see `C75_keep_alive_zero_false`). -/
theorem C99_published_then_disconnected_partial (m : Mode) (cfg : AuthConfig) (evs1 evs2 : List SysEvent)
    (hord : ∀ e ∈ evs1 ++ evs2, e.Ordinary) :
    let σ1 := System.init.run m cfg evs1
    let σ2 := σ1.run m cfg evs2
    ∃ L, PublishedBetween σ1 σ2 L ∧
      (∀ d a b, evs2 = a ++ b → (σ1.peers.get d = none ∨ σ1.QuietUp d) → (σ1.run m cfg a).QuietUp d → (σ1.run m cfg a).Timed d →
        (∀ e ∈ b, e.Kept d) → σ2.Settled d → σ2.published d = σ1.published d ++ byClient d L) ∧
      ∀ c f p1 p2 w2, ReadsWell m cfg c System.init (evs1 ++ evs2) → ValidFilter f →
        σ1.Quiet m cfg c → σ1.peers.get c = some p1 → p1.subscribedTo f →
        (∀ i, SysEvent.app c i ∈ evs2 → ¬ i.Names f) → σ2.Up c p2 w2 →
        σ2.Apart c p2 →
        ∃ X, p2.heardOn f = p1.heardOn f ++ X ∧ X.Sublist (heardFor f L) ∧
          ((heardFor f L).length ≤ 16 →
            X <+: heardFor f L ∧ (σ2.QuietDown m cfg c → X = heardFor f L)) := by
  intro σ1 σ2
  obtain ⟨es, hx1⟩ := history (m := m) evs1 (fun e he => hord e (List.mem_append_left _ he)) (sysInv_init cfg)
  obtain ⟨ext, hx2⟩ := history (m := m) evs2 (fun e he => hord e (List.mem_append_right _ he)) hx1.inv
  rw [List.nil_append] at hx2
  have hi1 : SysInv cfg σ1 es := hx1.inv
  obtain ⟨cs, hcs, _⟩ := published_between hi1 hx2
  have hlog : σ2.net.server.world.log = σ1.net.server.world.log ++ cs := by
    rw [hx2.inv.net.server, hi1.net.server]; exact hcs
  have hs := heard_since m cfg evs1 evs2 hord cs hlog
  refine ⟨callsPub cs, hs.1, ?_, hs.2⟩
  rintro d a b rfl h1 h2 hka hk hset
  have erun : σ2 = (σ1.run m cfg a).run m cfg b := by
    show σ1.run m cfg (a ++ b) = _
    simp only [System.run, List.foldl_append]
  rw [erun] at hlog hset ⊢
  exact gone_since m cfg evs1 a b (by rw [List.append_assoc]; exact hord) cs hlog d h1 h2 hka hk hset

/-! ## An example -/

/-- The client that is not subscribed publishes and disconnects at once; the server reads both packets in one
piece. -/
def exLeft : List SysEvent := [
  .app 1 (.publish (str "a/b") (str "hi") .atLeastOnce false true), .app 1 (.disconnect true),
  .serverRead 1 4096, .serverTurn 1 (str "v") true, .serverTurn 1 (str "v") true,
  .deliver 0 (str "a/+"), .clientRead 0 4096, .clientTurn 0 true, .serverRead 0 4096, .serverTurn 0 (str "u") true]

def exLeft2 : System := exSys1.run .debug {} exLeft

theorem exLeft_settled : exLeft2.Settled 1 := by
  have h : (match exLeft2.peers.get 1, exLeft2.net.wires.get 1 with
    | some p, some w => p.wrote == w.rcvd && !w.running
    | _, _ => false) = true := by decide +kernel
  split at h
  · rename_i p w hp hw
    simp only [Bool.and_eq_true, Bool.not_eq_true'] at h
    exact ⟨p, w, hp, hw, Or.inl h.2⟩
  · cases h

example : (∀ e ∈ exSysSub ++ exLeft, e.Ordinary) ∧ exSys1.run .debug {} [] = exSys1 ∧ exSys1.QuietUp 1 ∧ exSys1.Timed 1 ∧
    (∀ e ∈ exLeft, e.Kept 1) ∧ exLeft2.Settled 1 ∧
    exSys1.published 1 = [] ∧ exLeft2.published 1 = [⟨str "a/b", str "hi", .atLeastOnce, false⟩] ∧
    (exLeft2.peers.get 1).map (·.socketOpen) = some false ∧
    (exLeft2.peers.get 0).map (·.heard) = some [⟨str "a/+", str "hi", .atLeastOnce, false⟩] := by
  refine ⟨?_, by simp only [System.run, List.foldl_nil], ?_, timed_check (by decide +kernel), ?_, exLeft_settled, by decide +kernel, by decide +kernel, by decide +kernel, by decide +kernel⟩
  · intro e he
    rcases List.mem_append.mp he with he | he
    · exact exSys_ordinary e (List.mem_append_left _ he)
    · simp only [exLeft, List.mem_cons, List.not_mem_nil, or_false] at he
      rcases he with rfl | rfl | rfl | rfl | rfl | rfl | rfl | rfl | rfl | rfl <;>
        first
        | trivial
        | exact (by decide : TextField _)
        | exact ⟨by decide, by simp, by decide⟩
  · have hq : exSys1.Quiet .debug {} 1 :=
      quiet_check (fs := []) (by decide +kernel) (by decide +kernel) (by decide +kernel)
    exact hq.1
  · intro e he
    simp only [exLeft, List.mem_cons, List.not_mem_nil, or_false] at he
    rcases he with rfl | rfl | rfl | rfl | rfl | rfl | rfl | rfl | rfl | rfl <;>
      first
      | trivial
      | exact fun _ => (C22_publish_topic_iff _).mp (by decide +kernel)

end Mercurio
