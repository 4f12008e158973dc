import Verif.Lemmas.Flow

/-!
# The whole system: histories
-/

namespace Mercurio

open Spec Server

/-- The wills of the clients. -/
def System.Wills (σ : System) (w : StoredWill) : Prop :=
  ∃ d p cw, σ.peers.get d = some p ∧ p.opts.will = some cw ∧ w = ⟨cw.topic, cw.payload, cw.qos, cw.retain⟩

theorem willOfConnect_wire (o : ConnectOptions) {w : StoredWill}
    (h : willOfConnect (wireConnect o).received = some w) :
    ∃ cw, o.will = some cw ∧ w = ⟨cw.topic, cw.payload, cw.qos, cw.retain⟩ := by
  have hs := wireConnect_says o
  unfold willOfConnect at h
  cases hw : o.will with
  | none => rw [(hs.noWill hw).1] at h; simp at h
  | some cw =>
    obtain ⟨h1, h2, h3, h4, h5⟩ := hs.will cw hw
    rw [h1, h2, h3, h4, h5] at h
    simp only [if_true, Option.getD_some, Option.some.injEq] at h
    exact ⟨cw, rfl, h.symm⟩

theorem SysInv.goodWill {cfg : AuthConfig} {σ : System} {es : List Event} (h : SysInv cfg σ es) :
    ∀ w, σ.Wills w → GoodWill w := by
  rintro w ⟨d, p, cw, hp, hw, rfl⟩
  have hi := h.peer d p hp
  exact ⟨(hi.will cw hw).1, (hi.will cw hw).2, (hi.opts.will cw hw).2.1⟩

theorem goodPacket_mono {V W : StoredWill → Prop} (hv : ∀ w, V w → W w) {q : Packet} (h : GoodPacket V q) :
    GoodPacket W q := by
  cases q <;> first | exact h | exact fun w hw => hv w (h w hw)

theorem mem_packetsOf_recv {d : Nat} {q : Packet} {es : List Event} (h : Event.recv d q ∈ es) :
    q ∈ packetsOf d es := by
  unfold packetsOf
  exact List.mem_filterMap.mpr ⟨_, h, by simp⟩

theorem SysInv.peer_of_packet {cfg : AuthConfig} {σ : System} {es : List Event} (h : SysInv cfg σ es) {d : Nat}
    (hq : packetsOf d es ≠ []) : ∃ p, σ.peers.get d = some p := by
  refine Option.isSome_iff_exists.mp ((h.ends d).mp ?_)
  cases hw : σ.net.wires.get d with
  | some w => rfl
  | none => exact absurd (h.net.unused d hw).1 hq

theorem SysInv.goodHist {cfg : AuthConfig} {σ : System} {es : List Event} (h : SysInv cfg σ es) :
    GoodHist σ.Wills es := by
  have conn : ∀ d p, σ.peers.get d = some p → GoodPacket σ.Wills (Packet.connect (wireConnect p.opts)).received := by
    intro d p hp w hw
    obtain ⟨cw, h1, h2⟩ := willOfConnect_wire p.opts hw
    exact ⟨d, p, cw, hp, h1, h2⟩
  intro e he
  cases e with
  | first d q u w =>
    obtain ⟨h1, p, hp, rfl⟩ := h.firsts d q u w he
    exact ⟨conn d p hp, h1⟩
  | recv d q =>
    have hq := mem_packetsOf_recv he
    obtain ⟨p, hp⟩ := h.peer_of_packet (List.ne_nil_of_mem hq)
    obtain ⟨k, hk⟩ := h.packets hp
    rw [hk] at hq
    obtain ⟨x, hx, rfl⟩ := List.mem_map.mp hq
    rcases List.mem_cons.mp (List.mem_of_mem_take hx) with rfl | hx
    · exact conn d p hp
    · exact goodPacket_mono (fun _ hf => hf.elim) ((h.peer d p hp).okFrom x hx).good
  | restart => exact h.restart he
  | _ => trivial

theorem SysInv.tame {cfg : AuthConfig} {σ : System} {es : List Event} (h : SysInv cfg σ es) :
    Tame σ.Wills σ.net.server := by
  rw [h.net.server]; exact tame_run h.goodWill cfg es h.goodHist

theorem SysInv.solo {cfg : AuthConfig} {σ : System} {es : List Event} (h : SysInv cfg σ es) {c : Nat} {p : Peer}
    (hp : σ.peers.get c = some p) (ho : σ.Apart c p) :
    Solo c p.clientId p.opts.protocolVersion es := by
  constructor
  · intro q u w hm
    obtain ⟨_, p', hp', rfl⟩ := h.firsts c q u w hm
    rw [hp] at hp'
    cases hp'
    exact ⟨_, rfl, (wireConnect_says p.opts).clientId, (wireConnect_says p.opts).version⟩
  · intro d q u w hd hm hid
    obtain ⟨_, p', hp', hq⟩ := h.firsts d (.connect q) u w hm
    have hq : q = (wireConnect p'.opts).received := by cases hq; rfl
    obtain ⟨h1, h2⟩ := ho d p' hd hp' (by rw [← hid, hq]; exact (wireConnect_says p'.opts).clientId.symm)
    refine ⟨by rw [hq, (wireConnect_says p'.opts).cleanStart]; exact h1, fun q' u' w' hm' => ?_⟩
    obtain ⟨_, p'', hp'', hq'⟩ := h.firsts c (.connect q') u' w' hm'
    rw [hp] at hp''
    cases hp''
    have hq' : q' = (wireConnect p.opts).received := by cases hq'; rfl
    rw [hq', (wireConnect_says p.opts).cleanStart]; exact h2

theorem sentTo_of_ok {v : ProtocolVersion} {ps : List Packet} {b : Buf} (h : Written ps b)
    (hok : ∀ q ∈ ps, OkTo v q) : SentTo v ps b := by
  induction h with
  | nil => exact .nil
  | @cons p bytes ps bs he _ ih =>
    obtain ⟨h1, b', h2, h3⟩ := hok p (by simp)
    rw [he] at h2
    cases h2
    exact .cons h1 he h3 (ih fun q hq => hok q (by simp [hq]))

/-- What the server sent to a client. -/
theorem SysInv.sentTo {cfg : AuthConfig} {σ : System} {es : List Event} (h : SysInv cfg σ es) {c : Nat} {id : Str}
    {v : ProtocolVersion} (hs : Solo c id v es) {w : Wire} (hw : σ.net.wires.get c = some w)
    (hr : w.running = true) : SentTo v (Server.init.sentTo cfg c es) w.sent := by
  obtain ⟨qs, _, h2, h3⟩ := h.net.written c w hw
  rw [h2 hr] at h3
  exact sentTo_of_ok h3 (solo_sent h.goodWill cfg es hs h.goodHist)

theorem sentTo_append (cfg : AuthConfig) (c : Nat) (a b : List Event) : ∀ srv : Server,
    srv.sentTo cfg c (a ++ b) = srv.sentTo cfg c a ++ (srv.run cfg a).sentTo cfg c b := by
  induction a with
  | nil => intro srv; simp [Server.sentTo, Server.run]
  | cons x a ih =>
    intro srv
    simp only [List.cons_append, Server.sentTo, ih, List.append_assoc]
    rfl

/-! ## A client through a history -/

/-- If client `c` is alive and alone, it has acted on at least the first `k0` packets. -/
def Tracked (cfg : AuthConfig) (c k0 : Nat) (σ : System) (es : List Event) : Prop :=
  ∀ p w, σ.peers.get c = some p → σ.net.wires.get c = some w → w.running = true → p.socketOpen = true →
    Solo c p.clientId p.opts.protocolVersion es →
    ∃ k, k0 ≤ k ∧ Down p.opts.protocolVersion (Server.init.sentTo cfg c es) p k

theorem tracked_step {m : Mode} {cfg : AuthConfig} {c k0 : Nat} {σ σ' : System} {es ex : List Event}
    (h : SysInv cfg σ es) (h' : SysInv cfg σ' (es ++ ex)) {e : SysEvent}
    (hm : Moves m cfg σ e σ') (hst : σ' = σ.step m cfg e) (hg : Grows m cfg σ σ' ex)
    (hread : ∀ n, e = .clientRead c n → ∀ p w, (σ.step m cfg e).peers.get c = some p →
      (σ.step m cfg e).net.wires.get c = some w → GotWell p.opts.protocolVersion w.sent p.got)
    (hturn : e ≠ .clientTurn c false)
    (h0 : k0 = 0 ∨ (σ.peers.get c).isSome) (ht : Tracked cfg c k0 σ es) : Tracked cfg c k0 σ' (es ++ ex) := by
  intro p' w' hp' hw' hr' ho' hs'
  -- the client was there before, or is new
  have old : ∀ p, σ.peers.get c = some p → p.opts = p'.opts → p.socketOpen = true →
      ∃ w k, σ.net.wires.get c = some w ∧ w.running = true ∧ k0 ≤ k ∧
        Down p'.opts.protocolVersion (Server.init.sentTo cfg c (es ++ ex)) p k ∧
        (σ'.net = σ.net → w = w') := by
    intro p hp hop hso
    obtain ⟨w, hw⟩ := Option.isSome_iff_exists.mp ((h.ends c).mpr (by rw [hp]; rfl))
    have hrun : w.running = true ∧ (σ'.net = σ.net → w = w') := by
      rcases hg with ⟨_, hn⟩ | ⟨ne, _, hn⟩
      · rw [hn, hw] at hw'
        cases hw'
        exact ⟨hr', fun _ => rfl⟩
      · refine ⟨?_, fun hn' => ?_⟩
        · rw [hn] at hw'
          rcases wire_step m cfg σ.net ne c with ⟨a, _⟩ | ⟨w1, w2, a, b, hs⟩
          · rw [hw] at a; cases a
          · rw [hw] at a; rw [hw'] at b; cases a; cases b
            exact hs.running hr'
        · rw [hn', hw] at hw'
          exact Option.some.inj hw'
    obtain ⟨k, h1, h2⟩ := ht p w hp hw hrun.1 hso (by
      have : p.clientId = p'.clientId := by unfold Peer.clientId; rw [hop]
      rw [this, hop]; exact hs'.init)
    refine ⟨w, k, hw, hrun.1, h1, ?_, hrun.2⟩
    rw [sentTo_append, ← hop]
    exact h2.grow _
  have same : σ.peers.get c = some p' → ∃ k, k0 ≤ k ∧
      Down p'.opts.protocolVersion (Server.init.sentTo cfg c (es ++ ex)) p' k := by
    intro hp
    obtain ⟨_, k, _, _, h1, h2, _⟩ := old p' hp rfl ho'
    exact ⟨k, h1, h2⟩
  cases hm with
  | idle => exact same hp'
  | net => exact same hp'
  | @connect d o b hd hb =>
    by_cases hdc : d = c
    · subst hdc
      have hk : k0 = 0 := by
        rcases h0 with h0 | h0
        · exact h0
        · rw [hd] at h0; cases h0
      simp only [Map.get_insert, if_true, Option.some.injEq] at hp'
      subst hp'
      exact ⟨0, by omega, down_new _ _ _ _⟩
    · simp only [Map.get_insert, if_neg hdc] at hp'
      exact same hp'
  | @peer _ d p p2 hd hm =>
    by_cases hdc : d = c
    · subst hdc
      have hp2 : p2 = p' := by
        have : (σ.peers.insert d p2).get d = some p' := hp'
        rw [Map.get_insert, if_pos rfl] at this
        exact Option.some.inj this
      subst hp2
      have hk := hm.keeps
      obtain ⟨w, k, hw, hrun, h1, h2, h3⟩ := old p hd hk.opts.symm (hk.socket ho')
      have hww := h3 rfl
      subst hww
      have hS := h'.sentTo hs' hw' hr'
      cases hm with
      | @read n b hrd hn hne hl hpre =>
        exact ⟨k, h1, h2.read (m := m) hS hn hl
          (hread n rfl _ _ (by rw [← hst]; exact hp') (by rw [← hst]; exact hw'))⟩
      | @turn ok q rest hrd hq =>
        have hok : ok = true := by
          cases ok with
          | true => rfl
          | false => exact absurd rfl hturn
        subst hok
        have hopts : (({ p with buf := rest } : Peer).receive (.packet q) true).opts = p.opts := hk.opts
        rw [hopts] at h2 ⊢
        exact ⟨k + 1, by omega, h2.turn (h.peer d p hd) hrd hq ho'⟩
      | lost hrd hq => rw [lost_closes hrd hq] at ho'; cases ho'
      | timeout hp => cases ho'
      | app hl hi => exact ⟨k, h1, h2.app hl hi⟩
    · have : (σ.peers.insert d p2).get c = some p' := hp'
      rw [Map.get_insert, if_neg hdc] at this
      exact same this

/-! ## Histories -/

/-- How a client and its connection change during a history. -/
structure Evolved (c : Nat) (evs : List SysEvent) (p p' : Peer) (w w' : Wire) : Prop where
  opts : p'.opts = p.opts
  history : ∃ H, p'.history = p.history ++ H ∧
    ∀ x ∈ H, (∃ r ok, x.1 = .read r ok) ∨ SysEvent.app c x.1 ∈ evs
  begun : w.begun = true → w'.begun = true

/-- What a history does. -/
structure History (m : Mode) (cfg : AuthConfig) (σ σ' : System) (es ext : List Event) (evs : List SysEvent) :
    Prop where
  inv : SysInv cfg σ' (es ++ ext)
  peer : ∀ c p w, σ.peers.get c = some p → σ.net.wires.get c = some w → ∃ p' w', σ'.peers.get c = some p' ∧
    σ'.net.wires.get c = some w' ∧ Evolved c evs p p' w w'
  first : ∀ c w, σ.net.wires.get c = some w → w.begun = true → ∀ q u b, Event.first c q u b ∉ ext
  track : ∀ c k0, ReadsWell m cfg c σ evs → (k0 = 0 ∨ (σ.peers.get c).isSome) → Tracked cfg c k0 σ es →
    Tracked cfg c k0 σ' (es ++ ext)

theorem step_evolved {m : Mode} {cfg : AuthConfig} {σ σ' : System} {e : SysEvent} {ex : List Event}
    (hm : Moves m cfg σ e σ') (hg : Grows m cfg σ σ' ex) {c : Nat} {p : Peer} {w : Wire}
    (hp : σ.peers.get c = some p) (hw : σ.net.wires.get c = some w) :
    ∃ p' w', σ'.peers.get c = some p' ∧ σ'.net.wires.get c = some w' ∧ Evolved c [e] p p' w w' := by
  obtain ⟨w', hw', hb⟩ : ∃ w', σ'.net.wires.get c = some w' ∧ (w.begun = true → w'.begun = true) := by
    rcases hg with ⟨_, hn⟩ | ⟨ne, _, hn⟩
    · exact ⟨w, by rw [hn]; exact hw, id⟩
    · rw [hn]
      rcases wire_step m cfg σ.net ne c with ⟨a, _⟩ | ⟨w1, w2, a, b, hs⟩
      · rw [hw] at a; cases a
      · rw [hw] at a; cases a
        exact ⟨w2, b, hs.begun⟩
  have same : σ'.peers.get c = some p →
      ∃ p' w', σ'.peers.get c = some p' ∧ σ'.net.wires.get c = some w' ∧ Evolved c [e] p p' w w' :=
    fun h => ⟨p, w', h, hw', rfl, ⟨[], by simp, by simp⟩, hb⟩
  cases hm with
  | idle => exact same hp
  | net => exact same hp
  | @connect d o b hd _ =>
    have hdc : d ≠ c := by rintro rfl; rw [hp] at hd; cases hd
    exact same (by simp only [Map.get_insert, if_neg hdc]; exact hp)
  | @peer _ d p0 p2 hd hm =>
    by_cases hdc : d = c
    · subst hdc
      rw [hp] at hd; cases hd
      have hk := hm.keeps
      refine ⟨p2, w', by show (σ.peers.insert d p2).get d = _; rw [Map.get_insert, if_pos rfl], hw', hk.opts, ?_, hb⟩
      rcases hk.history with hh | ⟨x, hh, hx⟩
      · exact ⟨[], by rw [hh, List.append_nil], by simp⟩
      · refine ⟨[x], hh, ?_⟩
        rintro y hy
        rw [List.mem_singleton] at hy
        subst hy
        rcases hx with hx | hx
        · exact Or.inl hx
        · exact Or.inr (by rw [hx]; simp)
    · exact same (by show (σ.peers.insert d p2).get c = _; rw [Map.get_insert, if_neg hdc]; exact hp)

theorem history {m : Mode} {cfg : AuthConfig} (evs : List SysEvent) (hord : ∀ e ∈ evs, e.Ordinary) :
    ∀ {σ : System} {es : List Event}, SysInv cfg σ es →
      ∃ ext, History m cfg σ (σ.run m cfg evs) es ext evs := by
  induction evs with
  | nil =>
    intro σ es h
    refine ⟨[], by rw [List.append_nil]; exact h, fun c p w hp hw => ⟨p, w, hp, hw, rfl, ⟨[], by simp, by simp⟩, id⟩, by simp, ?_⟩
    intro c k0 _ _ ht
    rw [List.append_nil]; exact ht
  | cons e evs ih =>
    intro σ es h
    have hm := moves m cfg σ e
    obtain ⟨ex, hg, h1⟩ := h.step (hord e (by simp)) hm
    obtain ⟨ext, hx⟩ := ih (fun x hx => hord x (by simp [hx])) h1
    have erun : σ.run m cfg (e :: evs) = (σ.step m cfg e).run m cfg evs := rfl
    refine ⟨ex ++ ext, ?_, ?_, ?_, ?_⟩
    · rw [erun, ← List.append_assoc]; exact hx.inv
    · intro c p w hp hw
      obtain ⟨p1, w1, hp1, hw1, e1⟩ := step_evolved hm hg hp hw
      obtain ⟨p2, w2, hp2, hw2, e2⟩ := hx.peer c p1 w1 hp1 hw1
      refine ⟨p2, w2, hp2, hw2, e2.opts.trans e1.opts, ?_, fun hb => e2.begun (e1.begun hb)⟩
      obtain ⟨H1, a1, b1⟩ := e1.history
      obtain ⟨H2, a2, b2⟩ := e2.history
      refine ⟨H1 ++ H2, by rw [a2, a1, List.append_assoc], fun x hx => ?_⟩
      rcases List.mem_append.mp hx with hx | hx
      · rcases b1 x hx with b | b
        · exact Or.inl b
        · rw [List.mem_singleton] at b
          exact Or.inr (by rw [b]; simp)
      · rcases b2 x hx with b | b
        · exact Or.inl b
        · exact Or.inr (by simp [b])
    · intro c w hw hb q u b hmem
      rcases List.mem_append.mp hmem with hmem | hmem
      · rcases hg with ⟨rfl, _⟩ | ⟨ne, hx | ⟨x, hst, hex⟩, _⟩
        · cases hmem
        · rw [hx] at hmem; cases hmem
        · have hxx : x = .first c q u b := by
            rcases hex with rfl | rfl
            · simp at hmem; exact hmem.symm
            · simp at hmem; exact hmem.symm
          subst hxx
          cases hst with
          | first hw2 _ hb2 => rw [hw] at hw2; cases hw2; rw [hb] at hb2; cases hb2
      · obtain ⟨p, hp⟩ := Option.isSome_iff_exists.mp ((h.ends c).mp (by rw [hw]; rfl))
        obtain ⟨p1, w1, hp1, hw1, e1⟩ := step_evolved hm hg hp hw
        exact hx.first c w1 hw1 (e1.begun hb) q u b hmem
    · intro c k0 hrw h0 ht
      obtain ⟨r1, r2, r3⟩ := hrw
      rw [erun, ← List.append_assoc]
      refine hx.track c k0 r3 ?_ (tracked_step h h1 hm rfl hg r1 r2 h0 ht)
      rcases h0 with h0 | h0
      · exact Or.inl h0
      · obtain ⟨p, hp⟩ := Option.isSome_iff_exists.mp h0
        obtain ⟨w, hw⟩ := Option.isSome_iff_exists.mp ((h.ends c).mpr h0)
        obtain ⟨p1, w1, hp1, _, _⟩ := step_evolved hm hg hp hw
        exact Or.inr (by rw [hp1]; rfl)

end Mercurio
