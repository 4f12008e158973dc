import Verif.Props.Net
import Verif.Props.Persist
import Verif.Props.Inflight
import Verif.Lemmas.Consume
import Verif.Lemmas.Delivery

/-! # What the server keeps -/

namespace Mercurio

open Spec Server

/-! ## C92: the bytes kept for a connection -/

/-- A buffer that is not yet a whole packet is shorter than the longest packet MQTT allows. -/
theorem needMore_length {m : Mode} {buf : Buf} (h : parsePacket m buf = .needMore) : buf.length < 2 ^ 28 + 4 := by
  have hc : check m buf = .err .incomplete := by
    unfold parsePacket at h
    cases hc : check m buf with
    | panic => rw [hc] at h; cases h
    | err e => rw [hc] at h; cases e <;> first | rfl | cases h
    | ok u => rw [hc] at h; cases hp : parse m buf <;> rw [hp] at h <;> cases h
  unfold check at hc
  split at hc
  · omega
  · cases hd : decodeVbi m (buf.drop 1) with
    | panic => rw [hd] at hc; cases hc
    | err e =>
      rcases vbi_shape (buf.drop 1) with ⟨h1, h2⟩ | ⟨pre, l, r, e1, h2, h3, h4⟩ | ⟨pre, l, r, e1, h2, h3⟩
      · simp only [List.length_drop] at h1; omega
      · rw [e1, decodeVbi_value m r h2 h3 h4] at hd; cases hd
      · have hl := decodeVbi_long m (fifth := l) r h2 h3
        rw [e1, hl] at hc
        by_cases hx : m = .debug ∧ 16 ≤ l.toNat % 128
        · rw [if_pos hx] at hc; cases hc
        · rw [if_neg hx] at hc; cases hc
    | ok x =>
      obtain ⟨n, rest⟩ := x
      have hn := decodeVbi_lt hd
      simp only [hd, vbiSize_ok hn] at hc
      have hl : (encodeVbi n).length ≤ 4 := by
        obtain ⟨u, h1, _, h3, _⟩ := decodeVbi_ok (by simpa using decodeVbi_encode m n hn [])
        rw [List.append_nil] at h1; rw [h1]; exact h3
      by_cases hle : (encodeVbi n).length + 1 ≤ buf.length
      · simp only [usizeSub_ok m hle] at hc
        by_cases ha : buf.length - ((encodeVbi n).length + 1) ≥ n
        · rw [if_pos ha] at hc; cases hc
        · omega
      · omega

namespace Net

/-- What holds for every connection when no read returns more than `k` bytes. -/
def Bounded (k : Nat) (n : Net) : Prop :=
  ∀ c w, n.wires.get c = some w → w.buf <:+ w.rcvd ∧ w.buf.length < 2 ^ 28 + 4 + k

theorem Bounded.insert {k : Nat} {n : Net} (h : n.Bounded k) (srv : Server) (c : Nat) (w : Wire)
    (hw : w.buf <:+ w.rcvd ∧ w.buf.length < 2 ^ 28 + 4 + k) : Bounded k ⟨srv, n.wires.insert c w⟩ := by
  intro c' w' h'
  simp only [Map.get_insert] at h'
  split at h'
  · cases h'; exact hw
  · exact h c' w' h'

theorem Bounded.act {k : Nat} {n : Net} (h : n.Bounded k) (cfg : AuthConfig) (c : Nat) (w : Wire) (e : Event)
    (hw : w.buf <:+ w.rcvd ∧ w.buf.length < 2 ^ 28 + 4 + k) : (n.act cfg c w e).Bounded k := h.insert _ c _ hw

theorem Bounded.step {k : Nat} {n : Net} (h : n.Bounded k) (m : Mode) (cfg : AuthConfig) (e : NetEvent)
    (he : ∀ c b, e = .data c b → b.length ≤ k) : (n.step m cfg e).Bounded k := by
  have on : ∀ (c : Nat) (f : Wire → Net), (∀ w, n.wires.get c = some w → (f w).Bounded k) → (n.onWire c f).Bounded k := by
    intro c f hf
    unfold onWire
    cases hw : n.wires.get c with
    | none => exact h
    | some w => dsimp only; split
                · exact hf w hw
                · exact h
  cases e with
  | accept c =>
    simp only [Net.step]
    cases hw : n.wires.get c with
    | some w => exact h
    | none => exact h.insert _ c _ ⟨List.suffix_refl _, by simp; omega⟩
  | data c b =>
    refine on c _ fun w hw => ?_
    split
    · rename_i hp
      split
      · exact h.act _ _ _ _ (h c w hw)
      · refine h.insert _ c _ ⟨?_, ?_⟩
        · obtain ⟨t, ht⟩ := (h c w hw).1
          exact ⟨t, by rw [← ht, List.append_assoc]⟩
        · have := needMore_length hp
          have := he c b rfl
          simp only [List.length_append]; omega
    · exact h
  | turn c u wr =>
    refine on c _ fun w hw => ?_
    have hb := h c w hw
    split
    · exact h
    · rename_i p rest hp
      refine h.act _ _ _ _ ?_
      have : parse m w.buf = .ok (p, rest) := by
        unfold parsePacket at hp
        split at hp <;> first | cases hp | skip
        split at hp <;> cases hp
        assumption
      obtain ⟨u, hu, _⟩ := (parseWithVersion_reads m _).h _ _ _ this
      refine ⟨?_, ?_⟩
      · exact (show rest <:+ w.buf from ⟨u, hu.symm⟩).trans hb.1
      · have := congrArg List.length hu
        rw [List.length_append] at this
        show rest.length < _
        omega
    · exact h.act _ _ _ _ hb
    · exact h.act _ _ _ _ hb
  | deliver c f =>
    refine on c _ fun w hw => ?_
    split
    · exact h.act _ _ _ _ (h c w hw)
    · exact h
  | close c => exact on c _ fun w hw => h.act _ _ _ _ (h c w hw)

end Net

/-- C92: whatever a peer sends, the bytes kept for its connection are the last bytes it sent, and fewer than the longest packet
MQTT allows has (2^28 + 4), plus those of one read. -/
theorem C92_kept_bytes (m : Mode) (cfg : AuthConfig) (k : Nat) (ns : List NetEvent)
    (hk : ∀ c b, NetEvent.data c b ∈ ns → b.length ≤ k) (c : Nat) (w : Wire)
    (hw : (Net.init.run m cfg ns).wires.get c = some w) :
    w.buf <:+ w.rcvd ∧ w.buf.length < 2 ^ 28 + 4 + k := by
  have key : ∀ (ns : List NetEvent) (n : Net), (∀ c b, NetEvent.data c b ∈ ns → b.length ≤ k) → n.Bounded k →
      (n.run m cfg ns).Bounded k := by
    intro ns
    induction ns with
    | nil => intro n _ h; exact h
    | cons e ns ih =>
      intro n hd h
      exact ih _ (fun c b hb => hd c b (List.mem_cons_of_mem _ hb))
        (h.step m cfg e fun c b he => hd c b (by rw [he]; exact List.mem_cons_self))
  exact key ns Net.init hk (fun c w h => by simp [Net.init, Map.get] at h) c w hw

/-- C92: this bound is reached by peers that are nobody: on a new connection, any bytes that begin like the longest packet
(of any kind) are kept, in whatever pieces they come, as long as they are fewer than announced; nothing is answered, the
connection goes on, and authentication has no say in it. -/
theorem C92_before_connect (m : Mode) (cfg : AuthConfig) (c : Nat) (h0 : UInt8) (body : Buf) (hb : body.length < 2 ^ 28 - 1)
    (chunks : List Buf) (hc : ∀ x ∈ chunks, x ≠ []) (hf : chunks.flatten = [h0, 0xff, 0xff, 0xff, 0x7f] ++ body) :
    let n := Net.init.run m cfg (.accept c :: chunks.map (.data c))
    n.wires.get c = some { buf := [h0, 0xff, 0xff, 0xff, 0x7f] ++ body, rcvd := [h0, 0xff, 0xff, 0xff, 0x7f] ++ body } ∧
    n.server = Server.init := by
  have e4 : encodeVbi (2 ^ 28 - 1) = [0xff, 0xff, 0xff, 0x7f] := by decide +kernel
  -- every proper beginning of a frame of this length waits for more
  have wait : ∀ t : Buf, t <+: [h0, 0xff, 0xff, 0xff, 0x7f] ++ body → parsePacket m t = .needMore := by
    intro t ht
    have hlen : (body ++ List.replicate (2 ^ 28 - 1 - body.length) (0 : UInt8)).length = 2 ^ 28 - 1 := by
      rw [List.length_append, List.length_replicate]; omega
    have h1 := check_frame_take m h0 (body ++ List.replicate (2 ^ 28 - 1 - body.length) (0 : UInt8)) (by rw [hlen]; decide)
      t.length
    rw [hlen] at h1
    have hfr : frame h0 (2 ^ 28 - 1) (body ++ List.replicate (2 ^ 28 - 1 - body.length) (0 : UInt8)) =
        ([h0, 0xff, 0xff, 0xff, 0x7f] ++ body) ++ List.replicate (2 ^ 28 - 1 - body.length) (0 : UInt8) := by
      rw [frame, Nat.mod_eq_of_lt (by decide), e4]; simp
    rw [hfr] at h1
    have hle := ht.length_le
    have htake : (([h0, 0xff, 0xff, 0xff, 0x7f] ++ body) ++
        List.replicate (2 ^ 28 - 1 - body.length) (0 : UInt8)).take t.length = t := by
      rw [List.take_append_of_le_length hle]
      exact (List.prefix_iff_eq_take.mp ht).symm
    rw [htake] at h1
    have h2 := h1 (by
      rw [List.length_append, List.length_replicate]
      simp only [List.length_append, List.length_cons, List.length_nil] at hle ⊢
      omega)
    simp only [parsePacket, h2]
  have key : ∀ (cs : List Buf) (pre : Buf) (n : Net), (∀ x ∈ cs, x ≠ []) →
      pre ++ cs.flatten = [h0, 0xff, 0xff, 0xff, 0x7f] ++ body →
      n.wires.get c = some { buf := pre, rcvd := pre } → n.server = Server.init →
      (n.run m cfg (cs.map (.data c))).wires.get c = some { buf := [h0, 0xff, 0xff, 0xff, 0x7f] ++ body, rcvd := [h0, 0xff, 0xff, 0xff, 0x7f] ++ body } ∧
      (n.run m cfg (cs.map (.data c))).server = Server.init := by
    intro cs
    induction cs with
    | nil =>
      intro pre n _ hp hw hs
      rw [List.flatten_nil, List.append_nil] at hp
      subst hp
      exact ⟨hw, hs⟩
    | cons x cs ih =>
      intro pre n hx hp hw hs
      have e : n.step m cfg (.data c x) = ⟨n.server, n.wires.insert c { buf := pre ++ x, rcvd := pre ++ x }⟩ := by
        simp only [Net.step, Net.onWire, hw, if_true]
        rw [wait pre ⟨_, hp⟩]
        simp only [if_neg (hx x List.mem_cons_self)]
      show ((n.step m cfg (.data c x)).run m cfg (cs.map (.data c))).wires.get c = _ ∧ _
      rw [List.map_cons]
      show _ ∧ ((n.step m cfg (.data c x)).run m cfg (cs.map (.data c))).server = _
      rw [e]
      refine ih (pre ++ x) _ (fun y hy => hx y (List.mem_cons_of_mem _ hy)) ?_ ?_ hs
      · rw [← hp, List.flatten_cons, List.append_assoc]
      · simp only [Map.get_insert, if_true]
  exact key chunks [] ⟨Server.init, Map.insert [] c {}⟩ hc (by simpa using hf) (by simp [Map.get_insert]) rfl

/-! ## C93: sessions, channels and records -/

theorem length_le_of_subset {α : Type} [DecidableEq α] : ∀ a : List α, a.Nodup → ∀ b : List α, a ⊆ b → a.length ≤ b.length := by
  intro a
  induction a with
  | nil => intro _ b _; simp
  | cons x a ih =>
    intro hn b hs
    have hx : x ∈ b := hs List.mem_cons_self
    have h1 := List.length_erase_of_mem hx
    have hpos : 0 < b.length := List.length_pos_of_mem hx
    obtain ⟨hn1, hn2⟩ := List.nodup_cons.mp hn
    have := ih hn2 (b.erase x) fun y hy =>
      (List.mem_erase_of_ne (fun h => hn1 (by rw [← h]; exact hy))).mpr (hs (List.mem_cons_of_mem _ hy))
    simp only [List.length_cons]; omega

/-- The client identifiers in the table of sessions after an event. -/
theorem step_sessions (cfg : AuthConfig) (srv : Server) (e : Event) (cid : Str) :
    ((srv.step cfg e).1.sessions.get cid).isSome ↔
      (e ≠ .restart ∧ (srv.sessions.get cid).isSome) ∨
      ∃ c p u w, e = .first c (.connect p) u w ∧ Admitted cfg srv c p ∧ p.payload.clientId = cid := by
  by_cases hr : e = .restart
  · subst hr; simp [Server.step, Map.get]
  by_cases hf : ∃ c p u w, e = .first c p u w
  · obtain ⟨c, p, u, w, rfl⟩ := hf
    rcases step_first_cases cfg srv c p u w with ⟨h', hn⟩ | ⟨q, rfl, hq, h'⟩
    · rw [h']
      constructor
      · exact fun h => Or.inl ⟨hr, h⟩
      · rintro (⟨_, h⟩ | ⟨c', p', u', w', he, ha, _⟩)
        · exact h
        · cases he; exact absurd ⟨p', rfl, ha⟩ hn
    · rw [h']
      obtain ⟨r, h1, h2, h3⟩ := start_effect srv c q u w
      rcases h2 with ⟨_, x2, _, x4, _⟩ | ⟨_, _, x3⟩
      · rw [x4]
        constructor
        · exact fun h => Or.inl ⟨hr, h⟩
        · rintro (⟨_, h⟩ | ⟨c', p', u', w', he, ha, hc⟩)
          · exact h
          · cases he; rw [← hc, x2]; rfl
      · rw [x3]
        by_cases hk : q.payload.clientId = cid
        · rw [if_pos hk]
          exact ⟨fun _ => Or.inr ⟨c, q, u, w, rfl, hq, hk⟩, fun _ => rfl⟩
        · rw [if_neg hk]
          constructor
          · exact fun h => Or.inl ⟨hr, h⟩
          · rintro (⟨_, h⟩ | ⟨c', p', u', w', he, ha, hc⟩)
            · exact h
            · cases he; exact absurd hc hk
  · rw [(calm cfg srv (fun c p u w he => hf ⟨c, p, u, w, he⟩) hr).table]
    constructor
    · exact fun h => Or.inl ⟨hr, h⟩
    · rintro (⟨_, h⟩ | ⟨c, p, u, w, he, _⟩)
      · exact h
      · exact absurd ⟨c, _, u, w, he⟩ hf

/-- C93 is false for sessions: the server keeps a session for a client identifier exactly if a CONNECT with it has been let in
since the process was started.  Nothing releases it: not DISCONNECT, not the end of the connection, not a session expiry interval
of 0, not a later CONNECT with a clean start. -/
theorem C93_sessions_false (cfg : AuthConfig) (es : List Event) (cid : Str) :
    ((Server.init.run cfg es).sessions.get cid).isSome ↔
      ∃ pre c p u w post, es = pre ++ .first c (.connect p) u w :: post ∧ Event.restart ∉ post ∧
        Admitted cfg (Server.init.run cfg pre) c p ∧ p.payload.clientId = cid := by
  induction es using snoc_induction with
  | h0 =>
    constructor
    · intro h; simp [Server.run, Server.init, Map.get] at h
    · rintro ⟨pre, c, p, u, w, post, he, _⟩; simp at he
  | hs es e ih =>
    rw [run_snoc, step_sessions, ih]
    constructor
    · rintro (⟨hr, pre, c, p, u, w, post, rfl, hp, ha, hc⟩ | ⟨c, p, u, w, rfl, ha, hc⟩)
      · refine ⟨pre, c, p, u, w, post ++ [e], by simp, ?_, ha, hc⟩
        intro hm
        rcases List.mem_append.mp hm with h | h
        · exact hp h
        · simp at h; exact hr h.symm
      · exact ⟨es, c, p, u, w, [], rfl, by simp, ha, hc⟩
    · rintro ⟨pre, c, p, u, w, post, he, hp, ha, hc⟩
      rcases List.eq_nil_or_concat post with rfl | ⟨post', x, rfl⟩
      · obtain ⟨h1, h2⟩ := List.append_inj' he rfl
        cases h1; cases h2
        exact Or.inr ⟨c, p, u, w, rfl, ha, hc⟩
      · have he' : es ++ [e] = (pre ++ .first c (.connect p) u w :: post') ++ [x] := by simpa using he
        obtain ⟨h1, h2⟩ := List.append_inj' he' rfl
        cases h1; cases h2
        exact Or.inl ⟨fun h => hp (by simp [h]), pre, c, p, u, w, post', rfl, fun h => hp (by simp [h]), ha, hc⟩

/-- An event other than a clean start of the client leaves its stored session in the storage. -/
theorem step_stored (cfg : AuthConfig) (srv : Server) (e : Event) (cid : Str)
    (he : ∀ c p u w, e = .first c (.connect p) u w → p.payload.clientId = cid → p.flags.cleanStart = false)
    (h : (srv.store.loadSession cid).isSome) : ((srv.step cfg e).1.store.loadSession cid).isSome := by
  by_cases hr : e = .restart
  · subst hr; exact h
  by_cases hf : ∃ c p u w, e = .first c p u w
  · obtain ⟨c, p, u, w, rfl⟩ := hf
    rcases step_first_cases cfg srv c p u w with ⟨h', hn⟩ | ⟨q, rfl, hq, h'⟩
    · rw [h']; exact h
    · rw [h']
      have hcl : ¬ (q.flags.cleanStart = true ∧ q.payload.clientId = cid) := by
        rintro ⟨h1, h2⟩; rw [he c q u w rfl h2] at h1; cases h1
      cases w with
      | true =>
        rw [(began srv c q u).stored cid]
        split
        · rfl
        · exact h
      | false =>
        obtain ⟨-, e2, -⟩ := enter_tables (srv.discard q.payload.clientId q.flags.cleanStart) q
        show (((srv.discard q.payload.clientId q.flags.cleanStart).enter q).1.store.loadSession cid).isSome
        rw [e2]
        unfold Server.discard
        split
        · rename_i hc
          show ((srv.store.sessions.erase _).get cid).isSome
          rw [Map.get_erase, if_neg (fun hk => hcl ⟨hc, hk⟩)]
          exact h
        · exact h
  · rcases (calm cfg srv (fun c p u w he => hf ⟨c, p, u, w, he⟩) hr).stored with h' | ⟨c, p, s, _, _, _, st, h'⟩
    · show ((srv.step cfg e).1.store.sessions.get cid).isSome
      rw [h']; exact h
    · show ((srv.step cfg e).1.store.sessions.get cid).isSome
      rw [h', Map.get_insert]
      split
      · rfl
      · exact h

/-- C93 is false for stored sessions: the record of a client in the storage stays whatever happens, restarts included, until the
client itself connects again with a clean start. -/
theorem C93_stored_false (cfg : AuthConfig) (srv : Server) (cid : Str) (h : (srv.store.loadSession cid).isSome) (es : List Event)
    (hes : ∀ c p u w, .first c (.connect p) u w ∈ es → p.payload.clientId = cid → p.flags.cleanStart = false) :
    ((srv.run cfg es).store.loadSession cid).isSome := by
  induction es generalizing srv with
  | nil => exact h
  | cons e es ih =>
    exact ih _ (step_stored cfg srv e cid (fun c p u w he => hes c p u w (by rw [he]; exact List.mem_cons_self)) h)
      fun c p u w hm => hes c p u w (List.mem_cons_of_mem _ hm)

/-- One client after the other connects without an identifier, with a clean start, and disconnects; the server gives them the
identifiers `us`. -/
def Spec.comeAndGo (p : ConnectPacket) (us : List Str) : List Event :=
  us.flatMap fun u => [.first 0 (.connect p) u true, .recv 0 (.disconnect ⟨.normalDisconnection, none⟩)]

/-- C93 is false: clients that connect without an identifier, ask for no session to be kept and disconnect leave a record each in
the storage, for ever: after any number of them there are no connections, and as many records. -/
theorem C93_anonymous_false (cfg : AuthConfig) (ha : cfg.requireAuth = false) (p : ConnectPacket) (hp : p.payload.clientId = [])
    (us : List Str) (hn : us.Nodup) (hu : ∀ u ∈ us, u ≠ []) :
    (Server.init.run cfg (comeAndGo p us)).conns = [] ∧
    (∀ u ∈ us, ((Server.init.run cfg (comeAndGo p us)).store.loadSession u).isSome) ∧
    us.length ≤ (Server.init.run cfg (comeAndGo p us)).store.listSessions.length := by
  have key : ∀ us : List Str, (∀ u ∈ us, u ≠ []) → (Server.init.run cfg (comeAndGo p us)).conns = [] ∧
      ∀ u ∈ us, ((Server.init.run cfg (comeAndGo p us)).store.loadSession u).isSome := by
    intro us
    induction us using snoc_induction with
    | h0 => intro _; exact ⟨rfl, by simp⟩
    | hs us u ih =>
      intro hu
      obtain ⟨h1, h2⟩ := ih fun x hx => hu x (List.mem_append_left _ hx)
      have e : comeAndGo p (us ++ [u]) =
          comeAndGo p us ++ [.first 0 (.connect p) u true, .recv 0 (.disconnect ⟨.normalDisconnection, none⟩)] := by
        simp [comeAndGo]
      rw [e, run_append]
      generalize Server.init.run cfg (comeAndGo p us) = srv at h1 h2
      have hadm : Admitted cfg srv 0 p := ⟨by rintro ⟨k, hk⟩; rw [h1] at hk; simp [Map.get] at hk, by simp [ha]⟩
      have hstart := step_first (uuid := u) (written := true) hadm
      obtain ⟨r, ⟨s', hh⟩, _, hc⟩ := start_effect srv 0 p u true
      rw [if_pos rfl, h1] at hc
      have hat : (srv.start 0 p u true).1.at 0 = some s' := by
        unfold Server.at
        rw [hc, hh]
        simp [Map.get_insert]
      obtain ⟨k, hk, hs, e2⟩ := step_disconnect (cfg := cfg) (d := ⟨.normalDisconnection, none⟩) hat
      have hne : ∀ x ∈ us ++ [u], p.payload.clientId ≠ x := fun x hx h => hu x hx (by rw [← h, hp])
      show (Server.step cfg (Server.step cfg srv _).1 _).1.conns = [] ∧ _
      constructor
      · show (Server.step cfg (Server.step cfg srv _).1 _).1.conns = []
        rw [hstart, e2, conns_finish]
        show (Map.erase (srv.start 0 p u true).1.conns 0) = []
        rw [hc]; rfl
      · intro x hx
        show ((Server.step cfg (Server.step cfg srv _).1 _).1.store.loadSession x).isSome
        refine step_stored cfg _ _ x (by intro c p u w h; cases h) ?_
        rcases List.mem_append.mp hx with hx' | hx'
        · exact step_stored cfg _ _ x (fun c p' u' w h hid => by cases h; exact absurd hid (hne x hx)) (h2 x hx')
        · rw [List.mem_singleton] at hx'
          subst hx'
          rw [hstart, (began srv 0 p x).stored x, if_pos (by simp [identity, hp])]
          rfl
  obtain ⟨h1, h2⟩ := key us hu
  refine ⟨h1, h2, ?_⟩
  refine length_le_of_subset _ hn _ ?_
  intro u hm
  have := h2 u hm
  rw [MemoryStore.loadSession] at this
  exact (Map.get_isSome _ _).mp this

/-! ### Channels -/

namespace TopicNode

variable {T : Type}

theorem find_ensure (ls : List Str) : ∀ (n : TopicNode T) (q : List Str),
    ((n.ensure ls).find q).isSome ↔ (n.find q).isSome ∨ q <+: ls := by
  induction ls with
  | nil =>
    intro n q
    cases q with
    | nil => simp [ensure, find]
    | cons k q => simp [ensure]
  | cons l ls ih =>
    intro n q
    cases q with
    | nil => simp [ensure, find]
    | cons k q =>
      have hnew : ∀ q : List Str, ((new : TopicNode T).find q).isSome ↔ q = [] := by
        intro q; cases q <;> simp [find, new, child, children, Map.get]
      simp only [ensure, find_cons, child_insert]
      by_cases hk : l = k
      · subst hk
        rw [if_pos rfl]
        cases hc : n.child l with
        | none =>
          simp only [Option.getD_none, Option.bind_some, ih, hnew, Option.bind_none, Option.isSome_none, Bool.false_eq_true,
            false_or, List.cons_prefix_cons, true_and]
          constructor
          · rintro (rfl | h)
            · exact List.nil_prefix
            · exact h
          · exact Or.inr
        | some c => simp [ih]
      · rw [if_neg hk]
        have : ¬ (k :: q <+: l :: ls) := by
          rw [List.cons_prefix_cons]; exact fun h => hk h.1.symm
        simp [this]

theorem find_send (n : TopicNode T) (p q : List Str) (v : T) : ((n.send p v).find q).isSome ↔ (n.find q).isSome := by
  have h := sentAt_send n p q v
  unfold sentAt at h
  have h' := congrArg Option.isSome h
  rw [Option.isSome_map] at h'
  rw [h']
  split <;> simp

theorem find_publish (t : TopicTree T) (topic : Str) (v : T) (q : List Str) :
    ((TopicTree.publish t topic v).find q).isSome ↔ (t.find q).isSome := by
  have : ∀ (ps : List (List Str)) (t : TopicTree T),
      ((ps.foldl (fun t p => TopicNode.send t p v) t).find q).isSome ↔ (t.find q).isSome := by
    intro ps
    induction ps with
    | nil => intro t; exact Iff.rfl
    | cons p ps ih => intro t; rw [List.foldl_cons, ih, find_send]
  exact this _ t

end TopicNode

/-- The channels of a tree after calls on the broker. -/
theorem find_calls (cs : List Call) (q : List Str) (hq : q ≠ []) :
    ((cs.foldl Call.onTree TopicTree.new).find q).isSome ↔
      ∃ pre f post, cs = pre ++ .subscribe f :: post ∧ Call.restart ∉ post ∧ q <+: splitLevels f := by
  induction cs using snoc_induction with
  | h0 =>
    constructor
    · intro h
      cases q with
      | nil => exact absurd rfl hq
      | cons k q =>
        simp [TopicTree.new, TopicNode.new, TopicNode.find, TopicNode.child, TopicNode.children, Map.get] at h
    · rintro ⟨pre, f, post, he, _⟩; simp at he
  | hs cs c ih =>
    rw [List.foldl_append, List.foldl_cons, List.foldl_nil]
    -- how a decomposition of the longer list arises
    have split : (∃ pre f post, cs ++ [c] = pre ++ .subscribe f :: post ∧ Call.restart ∉ post ∧ q <+: splitLevels f) ↔
        (c ≠ .restart ∧ ∃ pre f post, cs = pre ++ .subscribe f :: post ∧ Call.restart ∉ post ∧ q <+: splitLevels f) ∨
        ∃ f, c = .subscribe f ∧ q <+: splitLevels f := by
      constructor
      · rintro ⟨pre, f, post, he, hp, hf⟩
        rcases List.eq_nil_or_concat post with rfl | ⟨post', x, rfl⟩
        · obtain ⟨h1, h2⟩ := List.append_inj' he rfl
          cases h2
          exact Or.inr ⟨f, rfl, hf⟩
        · have he' : cs ++ [c] = (pre ++ .subscribe f :: post') ++ [x] := by simpa using he
          obtain ⟨h1, h2⟩ := List.append_inj' he' rfl
          cases h2
          exact Or.inl ⟨fun h => hp (by simp [h]), pre, f, post', h1, fun h => hp (by simp [h]), hf⟩
      · rintro (⟨hc, pre, f, post, rfl, hp, hf⟩ | ⟨f, rfl, hf⟩)
        · refine ⟨pre, f, post ++ [c], by simp, ?_, hf⟩
          intro h
          rcases List.mem_append.mp h with h | h
          · exact hp h
          · simp at h; exact hc h.symm
        · exact ⟨cs, f, [], rfl, by simp, hf⟩
    rw [split, ← ih]
    cases c with
    | publish src t m => simp [Call.onTree, TopicNode.find_publish]
    | subscribe f =>
      have : ((Call.onTree (cs.foldl Call.onTree TopicTree.new) (.subscribe f)).find q).isSome ↔ _ :=
        TopicNode.find_ensure (splitLevels f) (cs.foldl Call.onTree TopicTree.new) q
      rw [this]
      simp
    | restart =>
      cases q with
      | nil => exact absurd rfl hq
      | cons k q =>
        simp [Call.onTree, TopicTree.new, TopicNode.new, TopicNode.find, TopicNode.child, TopicNode.children, Map.get]

/-- C93 is false for channels: the topic tree has a channel for a filter, and for every beginning of it, exactly if the filter has been
subscribed to since the process was started, whether or not anybody still subscribes to it. -/
theorem C93_channels_false (cfg : AuthConfig) (es : List Event) (q : List Str) (hq : q ≠ []) :
    let srv := Server.init.run cfg es
    (TopicNode.find srv.world.broker.tree q).isSome ↔
      ∃ pre f post, srv.world.log = pre ++ .subscribe f :: post ∧ Call.restart ∉ post ∧ q <+: splitLevels f := by
  intro srv
  have hr : srv.Reachable cfg := ⟨es, rfl⟩
  rw [hr.faithful.tree]
  exact find_calls _ q hq

/-- C93 is false for channels, in terms of packets: after an accepted SUBSCRIBE the channels stay whatever happens while the process
runs; UNSUBSCRIBE and the end of all connections do not remove them. -/
theorem C93_unsubscribed_false (cfg : AuthConfig) (pre : List Event) (c : Nat) (s : Session) (p : SubscribePacket) (post : List Event)
    (hs : (Server.init.run cfg pre).at c = some s) (f : Str) (hf : f ∈ p.payload.map (·.topicFilter)) (hv : ValidFilter f)
    (hpost : Event.restart ∉ post) :
    (TopicNode.find (Server.init.run cfg (pre ++ .recv c (.subscribe p) :: post)).world.broker.tree (splitLevels f)).isSome := by
  have hne : splitLevels f ≠ [] := splitOn_ne_nil _ _
  refine (C93_channels_false cfg _ _ hne).mpr ?_
  have grow : ∀ (es : List Event) (srv : Server), Event.restart ∉ es →
      ∃ cs, (srv.run cfg es).world.log = srv.world.log ++ cs ∧ Call.restart ∉ cs := by
    intro es
    induction es with
    | nil => intro srv _; exact ⟨[], by simp [Server.run], by simp⟩
    | cons e es ih =>
      intro srv he
      obtain ⟨cs, h1, h2⟩ := ih (srv.step cfg e).1 fun h => he (List.mem_cons_of_mem _ h)
      refine ⟨eventCalls cfg srv e ++ cs, ?_, ?_⟩
      · rw [run_cons, h1, step_log, List.append_assoc]
      · intro h
        rcases List.mem_append.mp h with h | h
        · exact restart_notMem_eventCalls cfg srv e (fun h' => he (by rw [h']; exact List.mem_cons_self)) h
        · exact h2 h
  rw [run_append, run_cons]
  generalize Server.init.run cfg pre = srv at hs
  obtain ⟨cs, h1, h2⟩ := grow post (srv.step cfg (.recv c (.subscribe p))).1 hpost
  have h3 := restart_notMem_eventCalls cfg srv (.recv c (.subscribe p)) (by simp)
  have hin : Call.subscribe f ∈ eventCalls cfg srv (.recv c (.subscribe p)) := by
    simp only [eventCalls, hs, packetCalls]
    refine List.mem_append_left _ (List.mem_map.mpr ⟨f, ?_, rfl⟩)
    rw [List.mem_filter]
    exact ⟨hf, by simpa using hv⟩
  obtain ⟨a, b, hab⟩ := List.append_of_mem hin
  refine ⟨srv.world.log ++ a, f, b ++ cs, ?_, ?_, List.prefix_refl _⟩
  · rw [h1, step_log, hab]; simp
  · intro h
    rcases List.mem_append.mp h with h | h
    · exact h3 (by rw [hab]; exact List.mem_append_right _ (List.mem_cons_of_mem _ h))
    · exact h2 h

/-! ### What is bounded -/

/-- At most 65536 entries under distinct packet identifiers. -/
theorem ids_bounded {V : Type} (m : Map UInt16 V) (h : m.keys.Nodup) : m.length ≤ 65536 := by
  have hn : (m.keys.map UInt16.toNat).Nodup := by
    exact List.Pairwise.map _ (fun a b hab e => hab (UInt16.toNat_inj.mp e)) h
  have := length_le_of_subset _ hn (List.range 65536) fun x hx => by
    obtain ⟨k, _, rfl⟩ := List.mem_map.mp hx
    exact List.mem_range.mpr k.toNat_lt
  simpa [Map.keys] using this

/-- The keys of the two tables of packet identifiers of a session are distinct. -/
def Session.Ok (s : Session) : Prop := s.unacked.keys.Nodup ∧ s.pubrecs.keys.Nodup

theorem Session.Ok.congr {s s' : Session} (h : s.Ok) (h1 : s'.unacked = s.unacked) (h2 : s'.pubrecs = s.pubrecs) : s'.Ok := by
  unfold Session.Ok; rw [h1, h2]; exact h

theorem Session.Ok.restore (fs : List Str) : ∀ {s : Session} (w : World), s.Ok → (s.restoreSubscriptions w fs).1.Ok := by
  induction fs with
  | nil => intro s w h; exact h
  | cons f fs ih => intro s w h; exact ih _ (h.congr rfl rfl)

theorem Session.Ok.subscribeLoop (fs : List Str) : ∀ {s : Session} (w : World), s.Ok → (s.subscribeLoop w fs).1.Ok := by
  induction fs with
  | nil => intro s w h; exact h
  | cons f fs ih =>
    intro s w h
    by_cases hf : ValidFilter f
    · rw [subscribeLoop_cons_valid _ _ _ hf]; exact ih _ (h.congr rfl rfl)
    · rw [subscribeLoop_cons_invalid _ _ _ hf]; exact ih _ h

theorem Session.Ok.processIncoming {s : Session} (h : s.Ok) (w : World) (m : Option AuthManager) (c : Nat) (p : Packet) :
    (s.processIncoming w m c p).session.Ok := by
  cases p with
  | publish p =>
    simp only [Session.processIncoming, Session.handlePublish]
    cases validatePublishTopic p.topicName with
    | error e => exact h
    | ok u =>
      show (s.notePublish p).Ok
      unfold Session.notePublish
      split
      · exact ⟨Map.nodup_insert _ _ _ h.1, h.2⟩
      · exact h
  | pubAck p => exact ⟨Map.nodup_erase _ _ h.1, h.2⟩
  | pubRec p => exact ⟨Map.nodup_erase _ _ h.1, Map.nodup_insert _ _ _ h.2⟩
  | pubRel p => exact ⟨h.1, Map.nodup_erase _ _ h.2⟩
  | pubComp p => exact ⟨h.1, Map.nodup_erase _ _ h.2⟩
  | subscribe p => exact Session.Ok.subscribeLoop _ w h
  | auth p =>
    simp only [Session.processIncoming, Session.handleAuth]
    cases m with
    | none => exact h
    | some a => exact h.congr rfl rfl
  | _ => exact h.congr rfl rfl

theorem noteOutgoing_ok {s s' : Session} {p : PublishPacket} (h : s.Ok) (hn : s.noteOutgoing p = some s') : s'.Ok := by
  unfold Session.noteOutgoing at hn
  cases hp : p.packetId with
  | none => rw [hp] at hn; cases hn; exact h
  | some id =>
    rw [hp] at hn
    cases hq : p.qos <;> rw [hq] at hn <;> cases hn
    · exact h
    · exact ⟨Map.nodup_insert _ _ _ h.1, h.2⟩
    · exact ⟨Map.nodup_insert _ _ _ h.1, h.2⟩

theorem heapOk_step (cfg : AuthConfig) {srv : Server} (h : ∀ r s, srv.heap.get r = some s → s.Ok) (e : Event) :
    ∀ r s, (srv.step cfg e).1.heap.get r = some s → s.Ok := by
  have keep : ∀ {srv' : Server} {r0 : Nat} {s1 : Session}, srv'.heap = srv.heap.insert r0 s1 → s1.Ok →
      ∀ r s, srv'.heap.get r = some s → s.Ok := by
    intro srv' r0 s1 hh h1 r s hs
    rw [hh, Map.get_insert] at hs
    split at hs
    · cases hs; exact h1
    · exact h r s hs
  cases e with
  | first c p u w =>
    rcases step_first_cases cfg srv c p u w with ⟨h', _⟩ | ⟨q, rfl, hq, h'⟩
    · rw [h']; exact h
    · rw [h']
      obtain ⟨x1, _, _, _, x5⟩ := enter_discard srv q
      have hok : ((srv.discard q.payload.clientId q.flags.cleanStart).enter q).2.2.Ok := by
        rcases x5 with ⟨_, _, ⟨s, hs, he⟩, _⟩ | ⟨_, _, he, _⟩
        · rw [he]; exact (h _ s hs).congr rfl rfl
        · rw [he]; exact ⟨List.nodup_nil, List.nodup_nil⟩
      have hb : ∀ r, ((((srv.discard q.payload.clientId q.flags.cleanStart).enter q).2.2).begin u r).1.Ok := by
        intro r
        unfold Session.begin
        dsimp only
        split
        · exact hok.congr rfl rfl
        · exact hok
      cases w with
      | false => exact keep (congrArg (fun m => Map.insert m _ _) x1) (hb _)
      | true =>
        refine keep (congrArg (fun m => Map.insert m _ _) x1) ?_
        have := Session.Ok.restore (srv.find q.payload.clientId q.flags.cleanStart).subscriptions
          (((srv.discard q.payload.clientId q.flags.cleanStart).enter q).1.mapStore (saveStart
            ((((srv.discard q.payload.clientId q.flags.cleanStart).enter q).2.2).begin u
              (srv.find q.payload.clientId q.flags.cleanStart).resume).1
            (srv.find q.payload.clientId q.flags.cleanStart).subscriptions)).world (hb
              (srv.find q.payload.clientId q.flags.cleanStart).resume)
        unfold restoreWill
        split
        · exact this.congr rfl rfl
        · exact this
  | recv c p =>
    cases ha : srv.at c with
    | none =>
      rw [show srv.step cfg (.recv c p) = (srv, {}) by simp only [Server.step]; exact onConn_none ha _]
      exact h
    | some s =>
      by_cases hd : ∃ d, p = .disconnect d
      · obtain ⟨d, rfl⟩ := hd
        obtain ⟨k, hk, hs, e⟩ := step_disconnect (cfg := cfg) (d := d) ha
        rw [e]
        exact keep (heap_finish _ _ _ _) ((h _ s hs).congr rfl rfl)
      · obtain ⟨k, hk, hs, e⟩ := step_recv (cfg := cfg) (p := p) ha (fun d he => hd ⟨d, he⟩)
        have hok := (h _ s hs).processIncoming srv.world cfg.manager c p
        rw [e]
        cases hr : (s.processIncoming srv.world cfg.manager c p).result with
        | error err => exact keep (heap_finish _ _ _ _) (hok.congr rfl rfl)
        | ok res => exact keep rfl hok
  | deliver c f =>
    cases ha : srv.at c with
    | none =>
      rw [show srv.step cfg (.deliver c f) = (srv, {}) by simp only [Server.step]; exact onConn_none ha _]
      exact h
    | some s =>
      obtain ⟨k, hk, hs, e⟩ := onConn_at ha (fun r s => srv.deliver c r s f)
      have e' : srv.step cfg (.deliver c f) = srv.deliver c k.session s f := e
      have hok := h _ s hs
      rcases processOutgoing_cases s srv.world.broker.tree f with
        ⟨h1, _⟩ | ⟨st, m, st', hst, hp, ⟨u, hn, h1⟩ | ⟨_, h1⟩⟩
      · rw [e', Server.deliver, h1]; exact h
      · rw [Server.deliver, h1] at e'
        rw [e']
        exact keep rfl (noteOutgoing_ok (s := { s with subscriptions := s.subscriptions.insert f st' }) (hok.congr rfl rfl) hn)
      · rw [Server.deliver, h1] at e'
        rw [e']
        exact keep rfl (hok.congr rfl rfl)
  | close c =>
    cases ha : srv.at c with
    | none =>
      rw [show srv.step cfg (.close c) = (srv, {}) by simp only [Server.step]; exact onConn_none ha _]
      exact h
    | some s =>
      obtain ⟨k, hk, hs, e⟩ := onConn_at ha (fun r s => (srv.finish c r s, {}))
      have e' : srv.step cfg (.close c) = (srv.finish c k.session s, {}) := e
      rw [e']
      exact keep (heap_finish _ _ _ _) ((h _ s hs).congr rfl rfl)
  | abort c => exact h
  | restart => intro r s hs; simp [Server.step, Map.get] at hs

/-- The CONNECT packets of a history. -/
def Spec.connects (es : List Event) : List ConnectPacket :=
  es.filterMap fun | .first _ (.connect p) _ _ => some p | _ => none

theorem erase_length {K V : Type} [DecidableEq K] (m : Map K V) (k : K) : (m.erase k).length ≤ m.length :=
  List.length_filter_le _ _

theorem insert_length {K V : Type} [DecidableEq K] (m : Map K V) (k : K) (v : V) : (m.insert k v).length ≤ m.length + 1 := by
  have := erase_length m k
  simp only [Map.insert, List.length_cons]; omega

theorem step_sessions_length (cfg : AuthConfig) (srv : Server) (e : Event) :
    (srv.step cfg e).1.sessions.length ≤ srv.sessions.length + (connects [e]).length := by
  by_cases hr : e = .restart
  · subst hr; simp [Server.step]
  by_cases hf : ∃ c p u w, e = .first c p u w
  · obtain ⟨c, p, u, w, rfl⟩ := hf
    rcases step_first_cases cfg srv c p u w with ⟨h', hn⟩ | ⟨q, rfl, hq, h'⟩
    · rw [h']; omega
    · have hs : (srv.start c q u w).1.sessions =
          ((srv.discard q.payload.clientId q.flags.cleanStart).enter q).1.sessions := by
        unfold Server.start; cases w <;> rfl
      have hd : (srv.discard q.payload.clientId q.flags.cleanStart).sessions.length ≤ srv.sessions.length := by
        unfold Server.discard
        split
        · exact erase_length _ _
        · omega
      have he : ∀ srv : Server, (srv.enter q).1.sessions.length ≤ srv.sessions.length + 1 := by
        intro srv
        unfold Server.enter
        dsimp only
        split
        · exact insert_length _ _ _
        · split
          · exact insert_length _ _ _
          · show srv.sessions.length ≤ _; omega
      have := he (srv.discard q.payload.clientId q.flags.cleanStart)
      rw [h', hs]
      simp only [connects, List.filterMap_cons, List.filterMap_nil, List.length_cons, List.length_nil]
      omega
  · rw [(calm cfg srv (fun c p u w he => hf ⟨c, p, u, w, he⟩) hr).table]; omega

/-- C93, what holds: what is kept is bounded by what clients did.  There are at most as many sessions as there have been CONNECTs and at
most as many retained messages as there have been topics published to; no session and no client has more than 65536 messages in
flight. -/
theorem C93_bounded_partial (cfg : AuthConfig) (es : List Event) :
    let srv := Server.init.run cfg es
    srv.sessions.length ≤ (connects es).length ∧
    (∀ topics : List Str, (∀ src t m, Call.publish src t m ∈ srv.world.log → t ∈ topics) →
      srv.store.retained.length ≤ topics.length) ∧
    (∀ c s, srv.at c = some s → s.unacked.length ≤ 65536 ∧ s.pubrecs.length ≤ 65536) ∧
    (∀ cid, (srv.store.getAllInflight cid).length ≤ 65536) := by
  intro srv
  have hr : srv.Reachable cfg := ⟨es, rfl⟩
  refine ⟨?_, fun topics ht => ?_, fun c s hs => ?_, fun cid => ?_⟩
  · show (Server.init.run cfg es).sessions.length ≤ _
    clear hr
    clear srv
    induction es using snoc_induction with
    | h0 => simp [Server.run, Server.init]
    | hs es e ih =>
      have h1 := step_sessions_length cfg (Server.init.run cfg es) e
      have h2 : (connects (es ++ [e])).length = (connects es).length + (connects [e]).length := by
        simp only [connects, List.filterMap_append, List.length_append]
      rw [run_snoc, h2]
      omega
  · have hret := hr.faithful.retained
    have hl : srv.store.retained.length = srv.store.retained.keys.length := by simp [Map.keys]
    rw [hl]
    refine length_le_of_subset _ hret.nodup _ fun t hm => ?_
    have h1 : (srv.store.retained.get t).isSome := (Map.get_isSome _ _).mpr hm
    have h2 := hret.get t
    change srv.store.retained.get t = _ at h2
    rw [h2, Option.isSome_map] at h1
    have hin : ∀ (l : List (Str × Message)), (retainedOf t l).isSome → ∃ m, (t, m) ∈ l := by
      intro l h
      unfold retainedOf at h
      split at h
      · rename_i x m hf
        have hp := List.find?_some hf
        simp only [decide_eq_true_eq] at hp
        have hmem := List.mem_reverse.mp (List.mem_of_find?_eq_some hf)
        exact ⟨m, by rw [← hp.1]; exact hmem⟩
      · simp at h
    obtain ⟨m, hm'⟩ := hin _ h1
    have hpub : ∀ l : List Call, (t, m) ∈ Call.publications l → ∃ src, Call.publish src t m ∈ l := by
      intro l
      induction l with
      | nil => intro h; simp [Call.publications] at h
      | cons c l ih =>
        intro h
        cases c with
        | publish src t' m' =>
          simp only [Call.publications, List.mem_cons, Prod.mk.injEq] at h
          rcases h with ⟨rfl, rfl⟩ | h
          · exact ⟨src, List.mem_cons_self⟩
          · obtain ⟨src, h'⟩ := ih h; exact ⟨src, List.mem_cons_of_mem _ h'⟩
        | subscribe f => obtain ⟨src, h'⟩ := ih h; exact ⟨src, List.mem_cons_of_mem _ h'⟩
        | restart => obtain ⟨src, h'⟩ := ih h; exact ⟨src, List.mem_cons_of_mem _ h'⟩
    obtain ⟨src, h'⟩ := hpub _ hm'
    exact ht src t m h'
  · have hok := hr.induction (P := fun srv => ∀ r s, srv.heap.get r = some s → s.Ok)
      (by intro r s h; simp [Server.init, Map.get] at h) fun _ e h => heapOk_step cfg h e
    obtain ⟨k, hk, hs'⟩ := at_eq_some.mp hs
    have := hok _ _ hs'
    exact ⟨ids_bounded _ this.1, ids_bounded _ this.2⟩
  · unfold MemoryStore.getAllInflight
    split
    · rename_i msgs hm
      rw [List.length_map]
      exact ids_bounded _ (hr.inflightOk _ _ hm)
    · simp

/-! ## Examples -/

/-- The case of `C92_before_connect`: seven bytes in three pieces, all kept. -/
example : (∀ x ∈ ([[0x10, 0xff], [0xff, 0xff, 0x7f], [1, 2]] : List Buf), x ≠ []) ∧
    ([[0x10, 0xff], [0xff, 0xff, 0x7f], [1, 2]] : List Buf).flatten = [0x10, 0xff, 0xff, 0xff, 0x7f] ++ [1, 2] := by
  decide +kernel

/-- A client connects, subscribes, unsubscribes and says goodbye; another connects without an identifier and says goodbye. -/
def exGone : List Event :=
  [.first 1 (.connect (exConnect (str "x") true)) (str "u") true,
   .recv 1 (.subscribe { packetId := 1, payload := [{ topicFilter := str "a/b" }] }),
   .recv 1 (.unsubscribe { packetId := 2, payload := [str "a/b"] }),
   .recv 1 (.disconnect ⟨.normalDisconnection, none⟩),
   .first 2 (.connect (exConnect [] true)) (str "u") true,
   .recv 2 (.disconnect ⟨.normalDisconnection, none⟩)]

example :
    let srv := Server.init.run {} exGone
    srv.conns = [] ∧ srv.sessions.keys = [[], str "x"] ∧ srv.store.listSessions = [str "u", str "x"] ∧
    (TopicNode.find srv.world.broker.tree [str "a"]).isSome ∧ (TopicNode.find srv.world.broker.tree [str "a", str "b"]).isSome ∧
    (connects exGone).length = 2 := by decide +kernel

example : ((Server.init.run {} (exGone.take 1)).at 1).isSome ∧ ValidFilter (str "a/b") :=
  ⟨by decide +kernel, (C23_filter_iff _).mp (by decide +kernel)⟩

example : (exConnect [] true).payload.clientId = [] ∧ [str "u", str "v"].Nodup ∧ ∀ u ∈ [str "u", str "v"], u ≠ [] := by
  decide +kernel

end Mercurio
