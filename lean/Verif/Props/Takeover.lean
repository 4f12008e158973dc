import Verif.Props.Will

/-!
# C86: a client that connects again
-/

namespace Mercurio

open Spec Server

/-- C86 is false, always: when a client is let in under the identifier of a client that is connected, the
older connection stays open, whether the new one asks for a clean start or not. -/
theorem C86_both_open_false (cfg : AuthConfig) (srv : Server) (c c' : Nat) (p : ConnectPacket) (uuid : Str)
    (ha : Admitted cfg srv c' p) (ho : srv.isOpen c) (_hid : srv.clientOf c = some p.payload.clientId) :
    (srv.step cfg (.first c' (.connect p) uuid true)).1.isOpen c ∧
    (srv.step cfg (.first c' (.connect p) uuid true)).1.isOpen c' := by
  obtain ⟨r, hS⟩ := start_effect srv c' p uuid true
  rw [step_first ha]
  obtain ⟨k, hk⟩ := ho
  have hne : c' ≠ c := by
    rintro rfl
    exact ha.1 ⟨k, hk⟩
  constructor
  · refine ⟨k, ?_⟩
    rw [hS.conns, if_pos rfl, Map.get_insert, if_neg hne, hk]
  · refine ⟨⟨r, p.payload.clientId⟩, ?_⟩
    rw [hS.conns, if_pos rfl, Map.get_insert, if_pos rfl]

theorem sharing_at {srv : Server} {c c' : Nat} {k k' : Conn} (hk : srv.conns.get c = some k)
    (hk' : srv.conns.get c' = some k') (h : k.session = k'.session) : srv.at c = srv.at c' := by
  unfold Server.at
  rw [hk, hk']
  simp [h]

/-- C86 is false of messages, too: if the new connection did not ask for a clean start, both connections
draw from the same queue.  Whichever is served first is sent the next message of a subscription, and then
it is gone for the other one. -/
theorem C86_one_queue_false (cfg : AuthConfig) (srv : Server) (hr : srv.Reachable cfg) (c c' : Nat) (k : Conn)
    (hk : srv.conns.get c = some k) (hs : srv.sessions.get k.key = some k.session)
    (p : ConnectPacket) (uuid : Str) (ha : Admitted cfg srv c' p) (hid : p.payload.clientId = k.key)
    (hcl : p.flags.cleanStart = false) (f : Str) :
    let srv' := (srv.step cfg (.first c' (.connect p) uuid true)).1
    srv'.at c = srv'.at c' ∧
    (srv'.step cfg (.deliver c f)).2 = (srv'.step cfg (.deliver c' f)).2 ∧
    ((srv'.step cfg (.deliver c f)).2.panicked = false →
      (srv'.step cfg (.deliver c f)).1 = (srv'.step cfg (.deliver c' f)).1) := by
  intro srv'
  have hne : c' ≠ c := by rintro rfl; exact ha.1 ⟨k, hk⟩
  obtain ⟨s0, hs0⟩ := (hr.inv.conns c k hk).2
  have hsrv : srv' = (srv.start c' p uuid true).1 := by
    show (srv.step cfg _).1 = _
    rw [step_first ha]
  have hd : srv.discard p.payload.clientId p.flags.cleanStart = srv := by
    rw [hcl]; rfl
  have he : srv.enter p = (srv, k.session, s0.setConnect p) := by
    unfold Server.enter
    rw [hid, hs]
    simp only [hs0]
  have hconns : srv'.conns = srv.conns.insert c' ⟨k.session, p.payload.clientId⟩ := by
    rw [hsrv]
    unfold Server.start
    simp only [if_true, hd, he]
    rfl
  have h1 : srv'.conns.get c = some k := by rw [hconns, Map.get_insert, if_neg hne, hk]
  have h2 : srv'.conns.get c' = some ⟨k.session, p.payload.clientId⟩ := by
    rw [hconns, Map.get_insert, if_pos rfl]
  refine ⟨sharing_at h1 h2 rfl, ?_⟩
  simp only [Server.step, Server.onConn, h1, h2]
  cases hh : srv'.heap.get k.session with
  | none => exact ⟨rfl, fun _ => rfl⟩
  | some s =>
    simp only [Server.deliver]
    cases s.processOutgoing srv'.world.broker.tree f with
    | idle => exact ⟨rfl, fun _ => rfl⟩
    | packet s' q => exact ⟨rfl, fun _ => rfl⟩
    | panicked s' => exact ⟨rfl, fun h => by cases h⟩

/-- The hypotheses are met by a client that connects twice. -/
example : exServer.Reachable exCfg ∧ exServer.conns.get 0 = some ⟨0, str "x"⟩ ∧
    exServer.sessions.get (str "x") = some 0 ∧ Admitted exCfg exServer 1 (exConnect (str "x") false) ∧
    exServer.clientOf 0 = some (str "x") :=
  ⟨exServer_reachable, by decide +kernel, by decide +kernel, exServer_admits false, by decide +kernel⟩

/-- The case at hand: the client has subscribed to `a/+`, connects again, and a message is published; the
new connection and the old one would both be sent it, but once it is sent on the old one there is nothing
for the new one. -/
theorem C86_lost_to_old_false :
    let srv := exServer.run exCfg [.first 1 (.connect (exConnect (str "x") false)) (str "v") true,
      .recv 1 (.publish exPublish)]
    (srv.step exCfg (.deliver 1 (str "a/+"))).2.sent ≠ [] ∧
    (srv.step exCfg (.deliver 0 (str "a/+"))).2.sent ≠ [] ∧
    ((srv.step exCfg (.deliver 0 (str "a/+"))).1.step exCfg (.deliver 1 (str "a/+"))).2.sent = [] := by
  decide +kernel

/-- With a clean start nothing of the older connection changes: it keeps its subscriptions and goes on
being sent the messages that match them. -/
theorem C86_clean_start_false (cfg : AuthConfig) (srv : Server) (hr : srv.Reachable cfg) (c c' : Nat) (k : Conn)
    (hk : srv.conns.get c = some k) (p : ConnectPacket) (uuid : Str) (ha : Admitted cfg srv c' p)
    (_hid : p.payload.clientId = k.key) (hcl : p.flags.cleanStart = true) :
    (srv.step cfg (.first c' (.connect p) uuid true)).1.at c = srv.at c := by
  rw [step_first ha]
  obtain ⟨r, hS⟩ := start_effect srv c' p uuid true
  have hne : c' ≠ c := by rintro rfl; exact ha.1 ⟨k, hk⟩
  have hr' : r = srv.fresh := by
    rcases hS.table with ⟨h, _⟩ | ⟨h, _⟩
    · rw [hcl] at h; cases h
    · exact h
  have hlt := (hr.inv.conns c k hk).1
  obtain ⟨s', hs'⟩ := hS.heap
  unfold Server.at
  rw [hS.conns, if_pos rfl, Map.get_insert, if_neg hne, hs', hk]
  simp only [Option.bind_some]
  rw [Map.get_insert, if_neg (by omega)]

example : exServer.Reachable exCfg ∧ exServer.conns.get 0 = some ⟨0, str "x"⟩ ∧
    Admitted exCfg exServer 1 (exConnect (str "x") true) :=
  ⟨exServer_reachable, by decide +kernel, exServer_admits true⟩

/-- What does hold of C86: the new connection is let in with the session, and if it did not ask for a clean
start it has the subscriptions that the session had. -/
theorem C86_new_partial (cfg : AuthConfig) (srv : Server) (c c' : Nat) (k : Conn)
    (s : Session) (hk : srv.conns.get c = some k) (hat : srv.at c = some s)
    (hs : srv.sessions.get k.key = some k.session)
    (p : ConnectPacket) (uuid : Str) (ha : Admitted cfg srv c' p) (hid : p.payload.clientId = k.key)
    (hcl : p.flags.cleanStart = false) :
    ∃ s', (srv.step cfg (.first c' (.connect p) uuid true)).1.at c' = some s' ∧
      s'.subscriptions = s.subscriptions := by
  have hs0 : srv.heap.get k.session = some s := by
    unfold Server.at at hat
    rw [hk] at hat
    exact hat
  rw [step_first ha]
  have hf : srv.find p.payload.clientId p.flags.cleanStart = ⟨true, [], none, []⟩ := by
    simp [Server.find, hcl, hid, hs]
  have he : ((srv.discard p.payload.clientId p.flags.cleanStart).enter p) =
      (srv, k.session, s.setConnect p) := by
    unfold Server.enter
    rw [hcl, hid]
    simp only [Server.discard, Bool.false_eq_true, if_false, hs, hs0]
  obtain ⟨b1, b2, b3, b4, b5, b6, b7⟩ := begin_eq (s.setConnect p) uuid true p rfl rfl
  simp only [Server.start, if_true, hf, he, restoreSubscriptions_nil, restoreWill]
  refine ⟨((s.setConnect p).begin uuid true).1, ?_, ?_⟩
  · exact at_eq_some.mpr ⟨_, (Map.get_insert _ _ _ _).trans (if_pos rfl),
      (Map.get_insert _ _ _ _).trans (if_pos rfl)⟩
  · rw [b4]; rfl

example : ∃ s, exServer.at 0 = some s := exServer_at

end Mercurio
