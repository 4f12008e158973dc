import Verif.Lemmas.SettleAll
import Verif.Props.Settle

/-!
# C107: what applications have published can reach all subscribers
-/

namespace Mercurio

open Spec Server

theorem joinAll {C : List Nat} {a b : List SysEvent} (h1 : ∀ e ∈ a, ∃ c ∈ C, e.Own c)
    (h2 : ∀ e ∈ b, ∃ c ∈ C, e.Own c) : ∀ e ∈ a ++ b, ∃ c ∈ C, e.Own c := by
  intro e he
  rcases List.mem_append.mp he with he | he
  · exact h1 e he
  · exact h2 e he

theorem servers_done {cfg : AuthConfig} {C : List Nat} {m : Mode} {σ : System}
    (h : ∀ c ∈ C, ∃ es p w, Live cfg c σ es p w) :
    ∃ evs : List SysEvent, (∀ e ∈ evs, ∃ c ∈ C, e.Own c) ∧ (∀ c ∈ C, ReadsWell m cfg c σ evs) ∧
      ∀ c ∈ C, (∃ es p w, Live cfg c (σ.run m cfg evs) es p w) ∧ (σ.run m cfg evs).ServerDone cfg c := by
  obtain ⟨e1, o1, r1, h1⟩ := settleAll_up m cfg C σ h
  obtain ⟨e2, o2, r2, h2⟩ := settleAll_server m cfg C _ h1
  refine ⟨e1 ++ e2, joinAll o1 o2, fun c hc => readsWell_join e1 (r1 c hc) (r2 c hc), fun c hc => ?_⟩
  rw [run_append]
  obtain ⟨⟨es, p, w, hl, a, b⟩, hid⟩ := h2 c hc
  exact ⟨⟨es, p, w, hl⟩, ⟨p, w, hl.up, a, b⟩, hid⟩

theorem clients_done {cfg : AuthConfig} {C : List Nat} {m : Mode} {σ : System}
    (h : ∀ c ∈ C, (∃ es p w, Live cfg c σ es p w) ∧ σ.ServerDone cfg c)
    (hs : ∀ c ∈ C, ∀ p w, σ.Up c p w → SmallPackets p.opts.protocolVersion w.sent) :
    ∃ evs : List SysEvent, (∀ e ∈ evs, ∃ c ∈ C, e.Own c) ∧ (∀ c ∈ C, ReadsWell m cfg c σ evs) ∧
      ∀ c ∈ C, (∃ es p w, Live cfg c (σ.run m cfg evs) es p w) ∧ (σ.run m cfg evs).Quiet m cfg c := by
  obtain ⟨e1, o1, r1, h1⟩ := settleAll_client m cfg C σ (by
    intro c hc
    obtain ⟨⟨es, p, w, hl⟩, ⟨p0, w0, hu, q1, q2⟩, hid⟩ := h c hc
    have hp := hl.up.peer
    have hw := hl.up.wire
    rw [hu.peer, Option.some.injEq] at hp; rw [hu.wire, Option.some.injEq] at hw
    subst hp hw
    have hall := (hl.inv.quiet hu.peer hu.wire hu.server q1 q2).1
    refine ⟨es, p0, w0, hl, hs c hc p0 w0 hu, ?_⟩
    intro q hq
    rw [hall, List.length_map, List.drop_length] at hq
    cases hq) (fun c hc => (h c hc).2.2)
  obtain ⟨e2, o2, r2, h2⟩ := settleAll_acks m cfg C _ h1
  refine ⟨e1 ++ e2, joinAll o1 o2, fun c hc => readsWell_join e1 (r1 c hc) (r2 c hc), fun c hc => ?_⟩
  rw [run_append]
  exact ⟨(h2 c hc).1, (h2 c hc).2.1⟩

/-- Nothing is published by what happens by itself. -/
theorem own_published {m : Mode} {cfg : AuthConfig} {c : Nat} {e : SysEvent} (he : e.Own c) {σ : System} {p : Peer}
    {d : Nat} (hp : σ.peers.get d = some p) :
    ∃ p', (σ.step m cfg e).peers.get d = some p' ∧ p'.published = p.published := by
  by_cases hd : d = c
  · subst hd
    have put : ∀ p', p'.published = p.published → ∃ p2, (σ.put d p').peers.get d = some p2 ∧ p2.published = p.published := by
      intro p' h
      refine ⟨p', ?_, h⟩
      show (σ.peers.insert d p').get d = _
      rw [Map.get_insert, if_pos rfl]
    have act : ∀ (p0 : Peer) (l : Client) (i : ClientIn), p0.published = p.published →
        (∀ t pl q r b, i ≠ .publish t pl q r b) → (p0.act l i).published = p.published := by
      intro p0 l i h0 hi
      show (p0.history ++ [(i, (l.step i).2)]).filterMap _ = _
      rw [List.filterMap_append, ← h0]
      cases i with
      | publish t pl q r b => exact absurd rfl (hi t pl q r b)
      | _ => simp [Peer.published]
    have rcv : ∀ (p0 : Peer) r ok, p0.published = p.published → (p0.receive r ok).published = p.published := by
      intro p0 r ok h0
      unfold Peer.receive
      split
      · exact h0
      · exact act _ _ _ h0 (by simp)
      · exact h0
    cases e with
    | serverRead x n =>
      simp only [System.step, System.onPeer]
      repeat' split
      all_goals exact ⟨p, hp, rfl⟩
    | serverTurn => exact ⟨p, hp, rfl⟩
    | deliver => exact ⟨p, hp, rfl⟩
    | clientRead x n =>
      cases he
      simp only [System.step, System.onPeer, hp]
      repeat' split
      all_goals first | exact ⟨p, hp, rfl⟩ | exact put _ rfl | exact put _ (rcv _ _ _ rfl)
    | clientTurn x ok =>
      obtain ⟨rfl, _⟩ := he
      simp only [System.step, System.onPeer, hp]
      repeat' split
      all_goals first | exact ⟨p, hp, rfl⟩ | exact put _ (rcv _ _ _ rfl)
    | app x i =>
      obtain ⟨rfl, rfl⟩ := he
      simp only [System.step, System.onPeer, hp]
      repeat' split
      all_goals first | exact ⟨p, hp, rfl⟩ | exact put _ (act _ _ _ rfl (by simp))
    | _ => exact he.elim
  · exact ⟨p, by rw [Own.others he hd]; exact hp, rfl⟩

theorem owns_published {m : Mode} {cfg : AuthConfig} {C : List Nat} (evs : List SysEvent)
    (h : ∀ e ∈ evs, ∃ c ∈ C, e.Own c) : ∀ {σ : System} {p : Peer} {d : Nat}, σ.peers.get d = some p →
      ∃ p', (σ.run m cfg evs).peers.get d = some p' ∧ p'.published = p.published := by
  induction evs with
  | nil => intro σ p d hp; exact ⟨p, hp, rfl⟩
  | cons e evs ih =>
    intro σ p d hp
    obtain ⟨c, _, he⟩ := h e (by simp)
    obtain ⟨p1, h1, h2⟩ := own_published (m := m) (cfg := cfg) he hp
    obtain ⟨p2, h3, h4⟩ := ih (fun x hx => h x (by simp [hx])) h1
    exact ⟨p2, h3, h4.trans h2⟩

/-- What has arrived when nothing is in transit any more. -/
theorem arrived (m : Mode) (cfg : AuthConfig) (evs1 evs2 evs3 : List SysEvent) (C : List Nat)
    (hord : ∀ e ∈ evs1 ++ evs2, e.Ordinary) (hreads : ∀ c ∈ C, ReadsWell m cfg c System.init (evs1 ++ evs2)) :
    let σ1 := System.init.run m cfg evs1
    let σ2 := σ1.run m cfg evs2
    (∀ c ∈ C, σ1.QuietUp c) → (∀ e ∈ evs3, ∃ c ∈ C, e.Own c) → (∀ c ∈ C, ReadsWell m cfg c σ2 evs3) →
    (∀ c ∈ C, (∃ es p w, Live cfg c (σ2.run m cfg evs3) es p w) ∧ (σ2.run m cfg evs3).Quiet m cfg c) →
    ∀ σ4, σ2.run m cfg evs3 = σ4 →
    ∃ L, PublishedBetween σ1 σ4 L ∧
      (∀ d ∈ C, ∀ q1 q2, σ1.peers.get d = some q1 → σ2.peers.get d = some q2 →
        q2.published = q1.published ++ byClient d L) ∧
      ∀ c ∈ C, ∀ f p1, ValidFilter f → σ1.Quiet m cfg c → σ1.peers.get c = some p1 → p1.subscribedTo f →
        (∀ i, SysEvent.app c i ∈ evs2 → ¬ i.Names f) → (heardFor f L).length ≤ 16 →
        ∃ p4, σ4.peers.get c = some p4 ∧ p4.heardOn f = p1.heardOn f ++ heardFor f L := by
  intro σ1 σ2 hq hown r3 d4 σ4 hσ4
  subst hσ4
  obtain ⟨L, hL, hheard⟩ := C74_application_to_application m cfg evs1 (evs2 ++ evs3) (by
    intro e he
    rw [← List.append_assoc] at he
    rcases List.mem_append.mp he with he | he
    · exact hord e he
    · obtain ⟨_, _, hx⟩ := hown e he
      exact Own.ordinary hx)
  simp only [run_append] at hL hheard
  refine ⟨L, hL, ?_, ?_⟩
  · intro d hd q1 q2 h1 h2
    obtain ⟨q4, h4, e4⟩ := owns_published (m := m) (cfg := cfg) _ hown h2
    obtain ⟨N, e1, _, e2⟩ := hL.since d q1 q4 h1 h4 (hq d hd)
    rw [← e4, e1, e2 (d4 d hd).2.1]
  · intro c hc f p1 hf hqc hp1 hsub hnames h16
    have hreads' : ReadsWell m cfg c System.init (evs1 ++ (evs2 ++ evs3)) := by
      rw [← List.append_assoc]
      refine readsWell_join _ (hreads c hc) ?_
      rw [run_append]
      exact r3 c hc
    obtain ⟨⟨es4, p4, w4, l4⟩, q4⟩ := d4 c hc
    obtain ⟨X, x1, x2, x3⟩ := hheard c f p1 p4 w4 hreads' hf hqc hp1 hsub (by
      intro i hi
      rcases List.mem_append.mp hi with hi | hi
      · exact hnames i hi
      · obtain ⟨_, _, hx⟩ := hown _ hi
        obtain ⟨_, rfl⟩ := hx
        simp [ClientIn.Names]) l4.up l4.apart
    exact ⟨p4, l4.up.peer, by rw [x1, (x3 h16).2 q4.2]⟩

/-- C107: the server can catch up with any number of clients together.  `C` are clients that were connected with a keep-alive
other than 0 and nothing in transit to the server, and since then nothing ended their connections on purpose (as in C75, C106); other
clients may do what they like.  Then there is a way to go on with steps on the connections of `C` only, after which
the server has acted on everything each of them sent, and has no message left to send to any of them. -/
theorem C107_server_catches_up_with_all (m : Mode) (cfg : AuthConfig) (evs1 evs2 : List SysEvent) (C : List Nat)
    (hord : ∀ e ∈ evs1 ++ evs2, e.Ordinary) (hreads : ∀ c ∈ C, ReadsWell m cfg c System.init (evs1 ++ evs2))
    (hh : ∀ c ∈ C, ∀ e ∈ evs2, e.Harmless c) :
    let σ1 := System.init.run m cfg evs1
    let σ2 := σ1.run m cfg evs2
    (∀ c ∈ C, σ1.QuietUp c) → (∀ c ∈ C, σ1.Timed c) →
    (∀ c ∈ C, ∀ p, σ2.peers.get c = some p → σ2.Apart c p) →
    ∃ evs3, (∀ e ∈ evs3, ∃ c ∈ C, e.Own c) ∧ ∀ c ∈ C, (σ2.run m cfg evs3).ServerDone cfg c := by
  intro σ1 σ2 hq hka ho
  obtain ⟨evs3, a, _, b⟩ := servers_done (m := m) (fun c hc =>
    live_since m cfg evs1 evs2 c hord (hreads c hc) (hh c hc) (hq c hc) (hka c hc) (ho c hc))
  exact ⟨evs3, a, fun c hc => (b c hc).2⟩

/-- C107 (partial): what applications have published can reach all subscribers.  In the situation of
`C107_server_catches_up_with_all` there is a way to go on with steps on the connections of `C` only, and without any
call of an application except `recv`, after which the server is done with all of them; and, if every packet it sent to
them has at most 4096 bytes, one after which nothing is in transit on any of these connections.  Then there is one list
`L` of messages in which every client of `C` has exactly what its application published since the first time, in
order (including what the server had not read yet), and every application of `C` that had subscribed to a
filter `f` before has got exactly the messages of `L` whose topic `f` matches, in the order of `L`, if they are no
more than 16.
Missing, because it is false: packets of more than 4096 bytes (`C106_large_message_false`), and more than 16 messages
for a subscription (C112). -/
theorem C107_everything_arrives_partial (m : Mode) (cfg : AuthConfig) (evs1 evs2 : List SysEvent) (C : List Nat)
    (hord : ∀ e ∈ evs1 ++ evs2, e.Ordinary) (hreads : ∀ c ∈ C, ReadsWell m cfg c System.init (evs1 ++ evs2))
    (hh : ∀ c ∈ C, ∀ e ∈ evs2, e.Harmless c) :
    let σ1 := System.init.run m cfg evs1
    let σ2 := σ1.run m cfg evs2
    (∀ c ∈ C, σ1.QuietUp c) → (∀ c ∈ C, σ1.Timed c) →
    (∀ c ∈ C, ∀ p, σ2.peers.get c = some p → σ2.Apart c p) →
    ∃ evs3, (∀ e ∈ evs3, ∃ c ∈ C, e.Own c) ∧
      let σ3 := σ2.run m cfg evs3
      (∀ c ∈ C, σ3.ServerDone cfg c) ∧
      ((∀ c ∈ C, ∀ p w, σ3.Up c p w → SmallPackets p.opts.protocolVersion w.sent) →
        ∃ evs4, (∀ e ∈ evs4, ∃ c ∈ C, e.Own c) ∧
          let σ4 := σ3.run m cfg evs4
          (∀ c ∈ C, σ4.Quiet m cfg c) ∧
          ∃ L, PublishedBetween σ1 σ4 L ∧
            (∀ d ∈ C, ∀ q1 q2, σ1.peers.get d = some q1 → σ2.peers.get d = some q2 →
              q2.published = q1.published ++ byClient d L) ∧
            ∀ c ∈ C, ∀ f p1, ValidFilter f → σ1.Quiet m cfg c → σ1.peers.get c = some p1 → p1.subscribedTo f →
              (∀ i, SysEvent.app c i ∈ evs2 → ¬ i.Names f) → (heardFor f L).length ≤ 16 →
              ∃ p4, σ4.peers.get c = some p4 ∧ p4.heardOn f = p1.heardOn f ++ heardFor f L) := by
  intro σ1 σ2 hq hka ho
  obtain ⟨evs3, a3, r3, d3⟩ := servers_done (m := m) (fun c hc =>
    live_since m cfg evs1 evs2 c hord (hreads c hc) (hh c hc) (hq c hc) (hka c hc) (ho c hc))
  refine ⟨evs3, a3, fun c hc => (d3 c hc).2, fun hs => ?_⟩
  obtain ⟨evs4, a4, r4, d4⟩ := clients_done (m := m) d3 hs
  refine ⟨evs4, a4, fun c hc => (d4 c hc).2, ?_⟩
  exact arrived m cfg evs1 evs2 (evs3 ++ evs4) C hord hreads hq (joinAll a3 a4)
    (fun c hc => readsWell_join evs3 (r3 c hc) (r4 c hc)) (by rw [run_append]; exact d4) _ (run_append _ _ _ _ _)

/-! ## Examples -/

/-- The other client has called `publish`; the server has not read anything of it. -/
def exAll2 : System := exSys1.run .debug {} (exSysPub.take 1)

theorem exAll_reads : ReadsWell .debug {} 1 System.init (exSysSub ++ exSysPub.take 1) := by
  have got : ∀ (σ : System), ((σ.peers.get 1).map (fun p => (p.opts.protocolVersion, p.got)),
        (σ.net.wires.get 1).map (·.sent)) = (some (.v5, [32, 3, 0, 0, 0]), some [32, 3, 0, 0, 0]) →
      ∀ p w, σ.peers.get 1 = some p → σ.net.wires.get 1 = some w → GotWell p.opts.protocolVersion w.sent p.got := by
    intro σ h1 p w hp hw
    rw [hp, hw] at h1
    simp only [Option.map_some, Prod.mk.injEq, Option.some.injEq] at h1
    rw [h1.1.1, h1.1.2, h1.2]
    exact ⟨_, _, exSysSent_to 1 _ (by decide +kernel), List.prefix_rfl, List.prefix_rfl,
      Or.inr ⟨[32, 3, 0, 0, 0], by decide, trivial⟩⟩
  refine ⟨by simp, by decide, by simp, by decide, by simp, by decide, by simp, by decide, by simp, by decide,
    by simp, by decide, by simp, by decide, by simp, by decide, by simp, by decide, by simp, by decide,
    by simp, by decide, by simp, by decide, by simp, by decide,
    fun n _ => got _ (by decide +kernel), by decide, by simp, by decide, by simp, by decide, trivial⟩

/-- The hypotheses of the theorems about all clients, with a message that the server has not read yet: client 1 has
published it, client 0 is to get it. -/
example : (∀ e ∈ exSysSub ++ exSysPub.take 1, e.Ordinary) ∧
    (∀ c ∈ [0, 1], ReadsWell .debug {} c System.init (exSysSub ++ exSysPub.take 1)) ∧
    (∀ c ∈ [0, 1], ∀ e ∈ exSysPub.take 1, e.Harmless c) ∧ (∀ c ∈ [0, 1], exSys1.Quiet .debug {} c) ∧
    (∀ c ∈ [0, 1], exSys1.Timed c) ∧
    (∀ p, exSys1.peers.get 0 = some p → p.subscribedTo (str "a/+")) ∧ ValidFilter (str "a/+") ∧
    (∀ i, SysEvent.app 0 i ∈ exSysPub.take 1 → ¬ i.Names (str "a/+")) ∧
    (∀ c ∈ [0, 1], ∀ p, exAll2.peers.get c = some p → exAll2.Apart c p) ∧ ¬ exAll2.QuietUp 1 ∧
    (exSys1.peers.get 1).map (·.published) = some [] ∧
    (exAll2.peers.get 1).map (·.published) = some [⟨str "a/b", str "hi", .atLeastOnce, false⟩] := by
  refine ⟨?_, ?_, ?_, ?_, ?_, ?_, (C23_filter_iff _).mp (by decide +kernel), ?_, ?_, ?_, by decide +kernel, by decide +kernel⟩
  · intro e he
    refine exSys_ordinary e ?_
    rcases List.mem_append.mp he with he | he
    · exact List.mem_append_left _ he
    · exact List.mem_append_right _ (List.mem_of_mem_take he)
  · intro c hc
    rcases List.mem_cons.mp hc with rfl | hc
    · exact exSettle_reads 1
    · rw [List.mem_singleton.mp hc]; exact exAll_reads
  · intro c _
    have ht : ValidTopic (str "a/b") := (C22_publish_topic_iff _).mp (by decide +kernel)
    simp only [exSysPub, List.take, List.forall_mem_cons]
    exact ⟨fun _ => ht, by simp⟩
  · intro c hc
    rcases List.mem_cons.mp hc with rfl | hc
    · exact exSys1_quiet
    · rw [List.mem_singleton.mp hc]
      exact quiet_check (fs := []) (by decide +kernel) (by decide +kernel) (by decide +kernel)
  · intro c hc
    rcases List.mem_cons.mp hc with rfl | hc
    · exact timed_check (by decide +kernel)
    · rw [List.mem_singleton.mp hc]
      exact timed_check (by decide +kernel)
  · intro p hp
    have h : (exSys1.peers.get 0).map (·.history) =
      some [(.subscribe [(str "a/+", .atLeastOnce)] true,
          { sent := some (.subscribe ⟨1, none, [⟨str "a/+", { qos := .atLeastOnce }⟩]⟩)
            result := some (.subscribed [(str "a/+", .atLeastOnce, true)]) }),
        (.read (.packet (.subAck { packetId := 1, properties := some {}, payload := [.success] })) true, {})] := by
      decide +kernel
    rw [hp] at h
    simp only [Option.map_some, Option.some.injEq] at h
    simp [Peer.subscribedTo, h]
  · simp [exSysPub]
  · intro c hc p hp
    rcases List.mem_cons.mp hc with rfl | hc
    · exact apart_check hp (by decide +kernel)
    · obtain rfl := List.mem_singleton.mp hc
      exact apart_check hp (by decide +kernel)
  · rintro ⟨p, w, hu, h, _⟩
    have hx : (exAll2.net.wires.get 1).map (·.rcvd) ≠ (exAll2.peers.get 1).map (·.wrote) := by decide +kernel
    rw [hu.peer, hu.wire] at hx
    exact hx (by simp [h])

end Mercurio
