import Verif.Lemmas.Stream
import Verif.Lemmas.ServerRun
import Verif.Spec.Net

/-! # The server on byte streams: invariant -/

namespace Mercurio

open Spec Server

/-! ## Sent packets -/

theorem Sent.unique {ps : List Packet} {a : Buf} (ha : Sent ps a) : ∀ {b : Buf}, Sent ps b → a = b := by
  induction ha with
  | nil => intro b hb; cases hb; rfl
  | cons _ he _ _ ih =>
    intro b hb
    cases hb with
    | cons _ he' _ hs' =>
      rw [he] at he'
      cases he'
      rw [ih hs']

theorem Sent.split {ps : List Packet} {bs : Buf} (h : Sent ps bs) : ∀ k, ∃ d r,
    Sent (ps.take k) d ∧ Sent (ps.drop k) r ∧ bs = d ++ r := by
  induction h with
  | nil => intro k; exact ⟨[], [], by simpa using Sent.nil, by simpa using Sent.nil, rfl⟩
  | @cons p bytes ps bs hs he hf hr ih =>
    intro k
    cases k with
    | zero => exact ⟨[], bytes ++ bs, Sent.nil, Sent.cons hs he hf hr, rfl⟩
    | succ k =>
      obtain ⟨d, r, h1, h2, h3⟩ := ih k
      exact ⟨bytes ++ d, r, by simpa using Sent.cons hs he hf h1, by simpa using h2, by
        rw [h3, List.append_assoc]⟩

theorem Sent.snoc {ps : List Packet} {bs : Buf} (h : Sent ps bs) {p : Packet} {b : Buf}
    (hs : p.Survives) (he : p.encode = .ok b) (hf : FitsMqtt b) : Sent (ps ++ [p]) (bs ++ b) := by
  induction h with
  | nil => simpa using Sent.cons hs he hf Sent.nil
  | cons hs' he' hf' _ ih => rw [List.append_assoc]; exact Sent.cons hs' he' hf' ih

/-- A list of packets and the bytes they were sent as, when they may contain a PINGREQ: after that, anything may
follow. -/
inductive SentOn : List Packet → Buf → Prop
  | nil : SentOn [] []
  | cons {p : Packet} {bytes : Buf} {ps : List Packet} {bs : Buf} : p.Survives →
      p.encode = .ok bytes → FitsMqtt bytes → SentOn ps bs → SentOn (p :: ps) (bytes ++ bs)
  | ping {ps : List Packet} {tail : Buf} : SentOn (.pingReq :: ps) (0xc0 :: 0 :: tail)

theorem Sent.on {ps : List Packet} {bs : Buf} (h : Sent ps bs) : SentOn ps bs := by
  induction h with
  | nil => exact .nil
  | cons hs he hf _ ih => exact .cons hs he hf ih

theorem Sent.noPing {ps : List Packet} {bs : Buf} (h : Sent ps bs) : Packet.pingReq ∉ ps := by
  induction h with
  | nil => simp
  | @cons p _ _ _ hs _ _ _ ih =>
    intro hm
    rcases List.mem_cons.mp hm with rfl | hm
    · exact hs
    · exact ih hm

theorem SentOn.sent {ps : List Packet} {bs : Buf} (h : SentOn ps bs) (hn : Packet.pingReq ∉ ps) : Sent ps bs := by
  induction h with
  | nil => exact .nil
  | cons hs he hf _ ih => exact .cons hs he hf (ih fun hm => hn (List.mem_cons_of_mem _ hm))
  | ping => exact absurd List.mem_cons_self hn

theorem SentOn.snoc {ps : List Packet} {bs : Buf} (h : SentOn ps bs) {p : Packet} {b : Buf}
    (hp : p.Survives ∧ FitsMqtt b ∨ p = .pingReq) (he : p.encode = .ok b) : SentOn (ps ++ [p]) (bs ++ b) := by
  induction h with
  | nil =>
    rcases hp with ⟨hs, hf⟩ | rfl
    · simpa using SentOn.cons hs he hf .nil
    · have : b = [0xc0, 0] := by
        have h2 : Packet.pingReq.encode = .ok [0xc0, 0] := by decide
        rw [h2] at he; cases he; rfl
      subst this
      exact .ping
  | cons hs' he' hf' _ ih => rw [List.append_assoc]; exact .cons hs' he' hf' ih
  | ping => exact .ping

/-- What follows the first packets. -/
theorem SentOn.rest {qs : List Packet} {done : Buf} (h : Sent qs done) : ∀ {rs : List Packet} {bs : Buf},
    SentOn (qs ++ rs) bs → ∃ r, bs = done ++ r ∧ SentOn rs r := by
  induction h with
  | nil => intro rs bs hb; exact ⟨bs, rfl, hb⟩
  | @cons p b qs done hs he hf _ ih =>
    intro rs bs hb
    cases hb with
    | cons _ he' _ hr =>
      rw [he] at he'; cases he'
      obtain ⟨r, rfl, h2⟩ := ih hr
      exact ⟨r, by rw [List.append_assoc], h2⟩
    | ping => exact hs.elim

/-- Where the reader of these packets stands: it has read the first `k`, and `buf` is next; or a PINGREQ is among
those, and `buf` is what it has left behind. -/
def Reads (ps : List Packet) (k : Nat) (rcvd buf : Buf) : Prop :=
  (∃ done, Sent (ps.take k) done ∧ rcvd = done ++ buf ∧ buf.length < 2 ^ 32) ∨
    (Packet.pingReq ∈ ps.take k ∧ ∃ t, buf = 0 :: t)

theorem Spec.Written.snoc {ps qs : List Packet} {bs b : Buf} (h : Written ps bs) (h' : Written qs b) :
    Written (ps ++ qs) (bs ++ b) := by
  induction h with
  | nil => simpa using h'
  | cons he _ ih => rw [List.append_assoc]; exact Written.cons he ih

theorem writePackets_written (ps : List Packet) : ∃ qs, qs <+: ps ∧
    ((writePackets ps).2 = true → qs = ps) ∧ Written qs (writePackets ps).1 := by
  induction ps with
  | nil => exact ⟨[], List.prefix_refl _, fun _ => rfl, .nil⟩
  | cons p ps ih =>
    obtain ⟨qs, h1, h2, h3⟩ := ih
    unfold writePackets
    split
    · rename_i b hb
      exact ⟨p :: qs, (List.cons_prefix_cons).mpr ⟨rfl, h1⟩, fun h => by rw [h2 h], .cons hb h3⟩
    · exact ⟨[], List.nil_prefix, fun h => by simp at h, .nil⟩

/-! ## Histories of packets -/

theorem packetsOf_snoc (c : Nat) (es : List Event) (e : Event) :
    packetsOf c (es ++ [e]) = packetsOf c es ++ packetsOf c [e] := by
  simp [packetsOf]

theorem packetsOf_other {c c' : Nat} {e : Event} (h : e.conn = some c) (hne : c' ≠ c) :
    packetsOf c' [e] = [] := by
  cases e <;> simp_all [packetsOf, Event.conn] <;> intro h <;> exact absurd h.symm hne

theorem sentTo_snoc (cfg : AuthConfig) (c : Nat) (es : List Event) (e : Event) : ∀ srv : Server,
    srv.sentTo cfg c (es ++ [e]) = srv.sentTo cfg c es ++
      (if e.conn = some c then ((srv.run cfg es).step cfg e).2.sent else []) := by
  induction es with
  | nil => intro srv; simp [Server.sentTo, Server.run]
  | cons a es ih =>
    intro srv
    simp only [List.cons_append, Server.sentTo, ih, List.append_assoc]
    rfl

theorem conns_other (cfg : AuthConfig) (srv : Server) {e : Event} {c c' : Nat} (h : e.conn = some c)
    (hne : c' ≠ c) : (srv.step cfg e).1.conns.get c' = srv.conns.get c' := by
  have loc : LocalTo c e → (srv.step cfg e).1.conns.get c' = srv.conns.get c' := by
    intro he
    rcases (step_local cfg srv he).conns with e1 | e1
    · rw [e1]
    · rw [e1, Map.get_erase, if_neg (Ne.symm hne)]
  cases e with
  | first c1 p uuid w =>
    cases h
    rcases step_first_cases cfg srv c p uuid w with ⟨h', _⟩ | ⟨q, rfl, hq, h'⟩
    · rw [h']
    · obtain ⟨r, hr⟩ := start_effect srv c q uuid w
      rw [h', hr.conns]
      cases w with
      | false => rfl
      | true => rw [if_pos rfl, Map.get_insert, if_neg (Ne.symm hne)]
  | recv c1 p => cases h; exact loc (.recv p)
  | deliver c1 f => cases h; exact loc (.deliver f)
  | close c1 => cases h; exact loc .close
  | abort c1 => cases h; simp [Server.step, Map.get_erase, Ne.symm hne]
  | restart => cases h

/-! ## The invariant -/

/-- The history `es` of packets explains the state of the server on byte streams. -/
structure NetInv (cfg : AuthConfig) (n : Net) (es : List Event) : Prop where
  server : n.server = Server.run cfg Server.init es
  opened : ∀ c, n.server.isOpen c ↔ ∃ w, n.wires.get c = some w ∧ w.running = true ∧ w.begun = true
  unused : ∀ c, n.wires.get c = none → packetsOf c es = [] ∧ Server.init.sentTo cfg c es = []
  written : ∀ c w, n.wires.get c = some w → ∃ qs, qs <+: Server.init.sentTo cfg c es ∧
    (w.running = true → qs = Server.init.sentTo cfg c es) ∧ Written qs w.sent
  read : ∀ c w, n.wires.get c = some w → ∀ ps bs future, SentOn ps bs → w.rcvd ++ future = bs →
    ∃ k, packetsOf c es = (ps.take k).map Packet.received ∧
      (w.running = true → Reads ps k w.rcvd w.buf)
  begun : ∀ c w, n.wires.get c = some w → w.begun = false → packetsOf c es = []
  kept : ∀ c w, n.wires.get c = some w → w.begun = true →
    ∃ p, (packetsOf c es).head? = some p ∧ w.keepalive = Net.keepaliveOf p
  zero : ∀ c w, n.wires.get c = some w → w.running = true → w.keepalive = 0 → (packetsOf c es).length ≤ 1

theorem NetInv.init (cfg : AuthConfig) : NetInv cfg Net.init [] := by
  refine ⟨rfl, ?_, fun c _ => ⟨rfl, rfl⟩, ?_, ?_, ?_, ?_, ?_⟩
  · intro c; constructor
    · rintro ⟨k, hk⟩; simp [Net.init, Server.init, Map.get] at hk
    · rintro ⟨w, hw, _⟩; simp [Net.init, Map.get] at hw
  · intro c w hw; simp [Net.init, Map.get] at hw
  · intro c w hw; simp [Net.init, Map.get] at hw
  · intro c w hw; simp [Net.init, Map.get] at hw
  · intro c w hw; simp [Net.init, Map.get] at hw
  · intro c w hw; simp [Net.init, Map.get] at hw

theorem head?_grow {α : Type} {l l' : List α} {a : α} (h : l.head? = some a) : (l ++ l').head? = some a := by
  cases l with
  | nil => cases h
  | cons x l => exact h

/-- One more event of the same connection. -/
theorem NetInv.event {cfg : AuthConfig} {n : Net} {es : List Event} (h : NetInv cfg n es) {c : Nat}
    {w0 w : Wire} (hw0 : n.wires.get c = some w0) (hrun : w0.running = true) {e : Event}
    (he : e.conn = some c) {out : Buf × Bool}
    (hout : ∃ qs, qs <+: (n.server.step cfg e).2.sent ∧
      (out.2 = true → qs = (n.server.step cfg e).2.sent) ∧ Written qs out.1)
    {srv' : Server} {es' : List Event} (hes : es' = es ++ [e] ∧ out.2 = true ∧
        srv' = (n.server.step cfg e).1 ∨
      es' = es ++ [e] ++ [.abort c] ∧ srv' = ((n.server.step cfg e).1.step cfg (.abort c)).1)
    (hsent : w.sent = w0.sent ++ out.1) (hrn : w.running = (srv'.conns.get c).isSome)
    (hbeg : srv'.isOpen c → w.begun = true)
    (hread : ∀ ps bs future, SentOn ps bs → w.rcvd ++ future = bs →
      ∃ k, packetsOf c es ++ packetsOf c [e] = (ps.take k).map Packet.received ∧
        (w.running = true → Reads ps k w.rcvd w.buf))
    (hnone : w.begun = false → packetsOf c es ++ packetsOf c [e] = [])
    (hkept : w.begun = true → ∃ p, (packetsOf c es ++ packetsOf c [e]).head? = some p ∧
      w.keepalive = Net.keepaliveOf p)
    (hzero : w.running = true → w.keepalive = 0 → (packetsOf c es ++ packetsOf c [e]).length ≤ 1) :
    NetInv cfg ⟨srv', n.wires.insert c w⟩ es' := by
  have hsrv : srv' = Server.run cfg Server.init es' := by
    rcases hes with ⟨rfl, _, rfl⟩ | ⟨rfl, rfl⟩
    · rw [run_snoc, h.server]
    · rw [run_snoc, run_snoc, h.server]
  have hpk : ∀ c', packetsOf c' es' = packetsOf c' es ++ packetsOf c' [e] := by
    intro c'
    rcases hes with ⟨rfl, _, _⟩ | ⟨rfl, _⟩
    · exact packetsOf_snoc _ _ _
    · rw [packetsOf_snoc, packetsOf_snoc]; simp [packetsOf]
  have hst : ∀ c', Server.init.sentTo cfg c' es' = Server.init.sentTo cfg c' es ++
      (if e.conn = some c' then (n.server.step cfg e).2.sent else []) := by
    intro c'
    rcases hes with ⟨rfl, _, _⟩ | ⟨rfl, _⟩
    · rw [sentTo_snoc, h.server]
    · rw [sentTo_snoc, sentTo_snoc, h.server]; simp [Server.step]
  have hcn : ∀ c', c' ≠ c → srv'.conns.get c' = n.server.conns.get c' := by
    intro c' hne
    rcases hes with ⟨_, _, rfl⟩ | ⟨_, rfl⟩
    · exact conns_other cfg _ he hne
    · rw [conns_other cfg _ (e := .abort c) rfl hne]; exact conns_other cfg _ he hne
  have hno : ∀ c', c' ≠ c → ¬ e.conn = some c' := by
    intro c' hne hx; rw [he] at hx; cases hx; exact hne rfl
  refine ⟨hsrv, fun c' => ?_, fun c' hc' => ?_, fun c' w' hw' => ?_, fun c' w' hw' => ?_,
    fun c' w' hw' hb' => ?_, fun c' w' hw' hb' => ?_, fun c' w' hw' hr' hz' => ?_⟩
  · by_cases hne : c' = c
    · subst hne
      show srv'.isOpen c' ↔ _
      simp only [Map.get_insert, if_true, Option.some.injEq, exists_eq_left']
      constructor
      · intro ho
        refine ⟨?_, hbeg ho⟩
        obtain ⟨k, hk⟩ := ho
        rw [hrn, hk]; rfl
      · rintro ⟨hr, _⟩
        rw [hrn] at hr
        exact Option.isSome_iff_exists.mp hr
    · have := h.opened c'
      simp only [Map.get_insert, if_neg (Ne.symm hne)]
      rw [← this]
      show (∃ k, srv'.conns.get c' = some k) ↔ ∃ k, n.server.conns.get c' = some k
      rw [hcn c' hne]
  · have hne : c' ≠ c := by rintro rfl; simp [Map.get_insert] at hc'
    simp only [Map.get_insert, if_neg (Ne.symm hne)] at hc'
    obtain ⟨h1, h2⟩ := h.unused c' hc'
    rw [hpk, hst, h1, h2, packetsOf_other he hne, if_neg (hno c' hne)]
    exact ⟨rfl, rfl⟩
  · by_cases hne : c' = c
    · subst hne
      simp only [Map.get_insert, if_true, Option.some.injEq] at hw'
      subst hw'
      obtain ⟨qs, h1, h2, h3⟩ := h.written c' w0 hw0
      obtain ⟨rs, k1, k2, k3⟩ := hout
      have hq := h2 hrun
      subst hq
      refine ⟨_ ++ rs, ?_, fun hr => ?_, by rw [hsent]; exact h3.snoc k3⟩
      · rw [hst, if_pos he]
        exact List.prefix_append_right_inj _ |>.mpr k1
      · rw [hst, if_pos he]
        have : out.2 = true := by
          rcases hes with ⟨_, ho, _⟩ | ⟨_, rfl⟩
          · exact ho
          · rw [hrn] at hr
            simp [Server.step, Map.get_erase] at hr
        rw [k2 this]
    · simp only [Map.get_insert, if_neg (Ne.symm hne)] at hw'
      rw [hst, if_neg (hno c' hne), List.append_nil]
      exact h.written c' w' hw'
  · by_cases hne : c' = c
    · subst hne
      simp only [Map.get_insert, if_true, Option.some.injEq] at hw'
      subst hw'
      rw [hpk]
      exact hread
    · simp only [Map.get_insert, if_neg (Ne.symm hne)] at hw'
      rw [hpk, packetsOf_other he hne, List.append_nil]
      exact h.read c' w' hw'
  · by_cases hne : c' = c
    · subst hne
      simp only [Map.get_insert, if_true, Option.some.injEq] at hw'
      subst hw'
      rw [hpk]
      exact hnone hb'
    · simp only [Map.get_insert, if_neg (Ne.symm hne)] at hw'
      rw [hpk, packetsOf_other he hne, List.append_nil]
      exact h.begun c' w' hw' hb'
  · by_cases hne : c' = c
    · subst hne
      simp only [Map.get_insert, if_true, Option.some.injEq] at hw'
      subst hw'
      rw [hpk]
      exact hkept hb'
    · simp only [Map.get_insert, if_neg (Ne.symm hne)] at hw'
      rw [hpk, packetsOf_other he hne, List.append_nil]
      exact h.kept c' w' hw' hb'
  · by_cases hne : c' = c
    · subst hne
      simp only [Map.get_insert, if_true, Option.some.injEq] at hw'
      subst hw'
      rw [hpk]
      exact hzero hr' hz'
    · simp only [Map.get_insert, if_neg (Ne.symm hne)] at hw'
      rw [hpk, packetsOf_other he hne, List.append_nil]
      exact h.zero c' w' hw' hr' hz'

/-- What `act` does keeps the invariant. -/
theorem NetInv.act {cfg : AuthConfig} {n : Net} {es : List Event} (h : NetInv cfg n es) {c : Nat}
    {w0 w : Wire} (hw0 : n.wires.get c = some w0) (hrun : w0.running = true) {e : Event}
    (he : e.conn = some c) (hsent : w.sent = w0.sent)
    (hbeg : (n.server.step cfg e).1.isOpen c → w.begun = true)
    (hread : ∀ ps bs future, SentOn ps bs → w.rcvd ++ future = bs →
      ∃ k, packetsOf c es ++ packetsOf c [e] = (ps.take k).map Packet.received ∧
        ((n.server.step cfg e).1.isOpen c → Reads ps k w.rcvd w.buf))
    (hnone : w.begun = false → packetsOf c es ++ packetsOf c [e] = [])
    (hkept : w.begun = true → ∃ p, (packetsOf c es ++ packetsOf c [e]).head? = some p ∧
      w.keepalive = Net.keepaliveOf p)
    (hzero : Net.resets w e = true → w.keepalive = 0 → (packetsOf c es ++ packetsOf c [e]).length ≤ 1) :
    ∃ ex, (ex = [e] ∨ ex = [e, .abort c]) ∧ NetInv cfg (n.act cfg c w e) (es ++ ex) := by
  unfold Net.act
  have hout := writePackets_written (n.server.step cfg e).2.sent
  have habort : ∀ srv : Server, ¬ (srv.step cfg (.abort c)).1.isOpen c := by
    rintro srv ⟨k, hk⟩; simp [Server.step, Map.get_erase] at hk
  cases hb : ((writePackets (n.server.step cfg e).2.sent).2 && Net.resets w e) with
  | true =>
    simp only [hb, if_true]
    refine ⟨[e], Or.inl rfl, h.event hw0 hrun he hout (Or.inl ⟨rfl, (Bool.and_eq_true _ _ ▸ hb).1, rfl⟩) (by rw [hsent]) rfl hbeg ?_ hnone hkept
      (fun _ hz => hzero (Bool.and_eq_true _ _ ▸ hb).2 hz)⟩
    intro ps bs future hs hf
    obtain ⟨k, h1, h2⟩ := hread ps bs future hs hf
    exact ⟨k, h1, fun hr => h2 (Option.isSome_iff_exists.mp hr)⟩
  | false =>
    simp only [hb, Bool.false_eq_true, if_false]
    refine ⟨[e, .abort c], Or.inr rfl, h.event hw0 hrun he hout (Or.inr ⟨by simp, rfl⟩) (by rw [hsent]) rfl
      (fun ho => absurd ho (habort _)) ?_ hnone hkept
      (fun hr _ => absurd (Option.isSome_iff_exists.mp hr) (habort _))⟩
    intro ps bs future hs hf
    obtain ⟨k, h1, h2⟩ := hread ps bs future hs hf
    exact ⟨k, h1, fun hr => absurd (Option.isSome_iff_exists.mp hr) (habort _)⟩

theorem not_open_close (cfg : AuthConfig) (n : Net) (es : List Event) (h : NetInv cfg n es) (c : Nat) :
    ¬ (n.server.step cfg (.close c)).1.isOpen c := by
  intro ho
  cases ha : n.server.at c with
  | none =>
    rw [show n.server.step cfg (.close c) = (n.server, {}) by
      simp only [Server.step]; exact onConn_none ha _] at ho
    obtain ⟨k, hk⟩ := ho
    have hi : Inv n.server := (show n.server.Reachable cfg from ⟨es, h.server⟩).inv
    obtain ⟨s, hs⟩ := (hi.conns c k hk).2
    rw [at_eq_some.mpr ⟨k, hk, hs⟩] at ha
    cases ha
  | some s =>
    obtain ⟨k, hk, hs, e⟩ := onConn_at ha (fun r s => (n.server.finish c r s, {}))
    have e' : n.server.step cfg (.close c) = (n.server.finish c k.session s, {}) := e
    rw [e'] at ho
    exact not_open_finish _ _ _ _ ho

/-- Where the reader stands in a stream of whole packets. -/
theorem next_packet (m : Mode) {ps : List Packet} {bs done buf rcvd future : Buf} (hs : Sent ps bs)
    {k : Nat} (hd : Sent (ps.take k) done) (hr : rcvd = done ++ buf) (hf : rcvd ++ future = bs)
    (hl : buf.length < 2 ^ 32) :
    (Unfinished buf ∧ parsePacket m buf = .needMore) ∨
      ∃ p b rest, ps[k]? = some p ∧ p.Survives ∧ p.encode = .ok b ∧ FitsMqtt b ∧ buf = b ++ rest ∧
        parsePacket m buf = .packet p.received rest := by
  obtain ⟨d, r, h1, h2, h3⟩ := hs.split k
  have hdd := hd.unique h1
  subst hdd
  have hbuf : buf ++ future = r := by
    rw [h3, hr, List.append_assoc] at hf
    exact List.append_cancel_left hf
  cases hdr : ps.drop k with
  | nil =>
    rw [hdr] at h2
    cases h2
    obtain ⟨hb, _⟩ := List.append_eq_nil_iff.mp hbuf
    subst hb
    left
    have hu : Unfinished [] := by
      refine ⟨.pingReq, [0xc0, 0], 0, rfl, by unfold FitsMqtt; decide, by decide, rfl⟩
    exact ⟨hu, parsePacket_unfinished m hu⟩
  | cons p qs =>
    rw [hdr] at h2
    have hk : ps[k]? = some p := by
      have := congrArg List.head? hdr
      simpa [List.head?_drop] using this
    cases h2 with
    | @cons _ b _ bs' hsv he hft _ =>
      rcases split_cases hbuf with ⟨rest, hb, _⟩ | ⟨hb1, hb2⟩
      · right
        exact ⟨p, b, rest, hk, hsv, he, hft, hb, by
          rw [hb]; exact parsePacket_encode m hsv he hft (by rw [← hb]; exact hl)⟩
      · left
        have hu : Unfinished buf := ⟨p, b, buf.length, he, hft, hb1, hb2⟩
        exact ⟨hu, parsePacket_unfinished m hu⟩

/-- Where the reader stands in a stream of packets, with or without pings. -/
theorem next_on (m : Mode) {ps : List Packet} {bs buf rcvd future : Buf} (hs : SentOn ps bs) {k : Nat}
    (hR : Reads ps k rcvd buf) (hf : rcvd ++ future = bs) :
    (Unfinished buf ∧ parsePacket m buf = .needMore ∧ ∃ done, Sent (ps.take k) done ∧ rcvd = done ++ buf) ∨
      (∃ p b rest, ps[k]? = some p ∧ p.Survives ∧ p.encode = .ok b ∧ FitsMqtt b ∧ buf = b ++ rest ∧
        parsePacket m buf = .packet p.received rest ∧
        ∃ done, Sent (ps.take k) done ∧ rcvd = done ++ buf ∧ buf.length < 2 ^ 32) ∨
      (∃ rest, ps[k]? = some .pingReq ∧ buf = 0xc0 :: 0 :: rest ∧
        parsePacket m buf = .packet .pingReq (0 :: rest)) ∨
      (Packet.pingReq ∈ ps.take k ∧ ∃ t, buf = 0 :: t) := by
  rcases hR with ⟨done, hd, hr, hl⟩ | h
  · obtain ⟨r, h3, h2⟩ := SentOn.rest hd (rs := ps.drop k) (by rw [List.take_append_drop]; exact hs)
    have hbuf : buf ++ future = r := by
      rw [h3, hr, List.append_assoc] at hf
      exact List.append_cancel_left hf
    have hk : ∀ p qs, ps.drop k = p :: qs → ps[k]? = some p := by
      intro p qs hdr
      have := congrArg List.head? hdr
      simpa [List.head?_drop] using this
    cases hdr : ps.drop k with
    | nil =>
      rw [hdr] at h2
      cases h2
      obtain ⟨hb, _⟩ := List.append_eq_nil_iff.mp hbuf
      subst hb
      left
      have hu : Unfinished [] := ⟨.pingReq, [0xc0, 0], 0, rfl, by unfold FitsMqtt; decide, by decide, rfl⟩
      exact ⟨hu, parsePacket_unfinished m hu, done, hd, hr⟩
    | cons p qs =>
      rw [hdr] at h2
      cases h2 with
      | @cons _ b _ bs' hsv he hft _ =>
        rcases split_cases hbuf with ⟨rest, hb, _⟩ | ⟨hb1, hb2⟩
        · exact Or.inr (Or.inl ⟨p, b, rest, hk p qs hdr, hsv, he, hft, hb, by
            rw [hb]; exact parsePacket_encode m hsv he hft (by rw [← hb]; exact hl), done, hd, hr, hl⟩)
        · have hu : Unfinished buf := ⟨p, b, buf.length, he, hft, hb1, hb2⟩
          exact Or.inl ⟨hu, parsePacket_unfinished m hu, done, hd, hr⟩
      | @ping _ tail =>
        have hb0 : buf ++ future = [0xc0, 0] ++ tail := hbuf
        rcases split_cases hb0 with ⟨rest, hb, _⟩ | ⟨hb1, hb2⟩
        · have hb : buf = 0xc0 :: 0 :: rest := hb
          exact Or.inr (Or.inr (Or.inl ⟨rest, hk _ qs hdr, hb, by rw [hb]; exact parsePacket_ping m rest⟩))
        · have hu : Unfinished buf := ⟨.pingReq, [0xc0, 0], buf.length, rfl, by unfold FitsMqtt; decide, hb1, hb2⟩
          exact Or.inl ⟨hu, parsePacket_unfinished m hu, done, hd, hr⟩
  · exact Or.inr (Or.inr (Or.inr h))

theorem unfinished_length {t : Buf} (h : Unfinished t) : t.length < 2 ^ 28 + 4 := by
  obtain ⟨p, bytes, k, _, hf, hk, rfl⟩ := h
  unfold FitsMqtt at hf
  rw [List.length_take]; omega

/-- The event of the server of packets that an event on byte streams stands for. -/
inductive Stands (n : Net) : NetEvent → Event → Prop
  | first {c : Nat} {p : Packet} {uuid : Str} {written : Bool} {w : Wire} : n.wires.get c = some w →
      w.running = true → w.begun = false → Stands n (.turn c uuid written) (.first c p uuid written)
  | recv {c : Nat} {p : Packet} {uuid : Str} {written : Bool} {w : Wire} : n.wires.get c = some w →
      w.running = true → w.begun = true → Stands n (.turn c uuid written) (.recv c p)
  | deliver {c : Nat} {f : Str} : Stands n (.deliver c f) (.deliver c f)
  | close {e : NetEvent} : Stands n e (.close e.conn)
  | abort {e : NetEvent} : Stands n e (.abort e.conn)

/-- The events of the server of packets that an event on byte streams stands for: none, one, or one
that ends with a panic. -/
def Extends (n : Net) (e : NetEvent) (ex : List Event) : Prop :=
  ex = [] ∨ ∃ x, Stands n e x ∧ (ex = [x] ∨ ex = [x, .abort e.conn])

theorem Stands.conn {n : Net} {e : NetEvent} {x : Event} (h : Stands n e x) : x.conn = some e.conn := by
  cases h <;> rfl

theorem Net.turn_packet {m : Mode} (cfg : AuthConfig) {n : Net} {c : Nat} {w : Wire} (hw : n.wires.get c = some w)
    (hr : w.running = true) {p : Packet} {rest : Buf} (hp : parsePacket m w.buf = .packet p rest) {uuid : Str}
    {written : Bool} : n.step m cfg (.turn c uuid written) =
      n.act cfg c { w with buf := rest, begun := true, keepalive := if w.begun then w.keepalive else keepaliveOf p }
        (if w.begun then .recv c p else .first c p uuid written) := by
  simp only [Net.step, Net.onWire, hw, hr, if_true, hp]

/-- A turn that finds a packet adds it to the history. -/
theorem NetInv.reads_packet (m : Mode) {cfg : AuthConfig} {n : Net} {es : List Event} (h : NetInv cfg n es) {c : Nat}
    {w : Wire} (hw : n.wires.get c = some w) (hr : w.running = true) {p : Packet} {rest : Buf}
    (hp : parsePacket m w.buf = .packet p rest) (uuid : Str) (written : Bool) :
    ∃ ex, Extends n (.turn c uuid written) ex ∧ packetsOf c ex = [p] ∧
      NetInv cfg (n.step m cfg (.turn c uuid written)) (es ++ ex) := by
  rw [Net.turn_packet cfg hw hr hp]
  have hpk : packetsOf c [if w.begun then Event.recv c p else .first c p uuid written] = [p] := by
    cases w.begun <;> simp [packetsOf]
  have hcn : (if w.begun then Event.recv c p else .first c p uuid written).conn = some c := by
    cases w.begun <;> rfl
  have hst : Stands n (.turn c uuid written)
      (if w.begun then Event.recv c p else .first c p uuid written) := by
    cases hb : w.begun
    · exact .first hw hr hb
    · exact .recv hw hr hb
  have key := h.act (e := if w.begun then Event.recv c p else .first c p uuid written)
    (w := { w with buf := rest, begun := true, keepalive := if w.begun then w.keepalive else Net.keepaliveOf p })
    hw hr hcn rfl (fun _ => rfl) ?_ (fun hb => by simp at hb) ?_ ?_
  · obtain ⟨ex, h1, h2⟩ := key
    refine ⟨ex, Or.inr ⟨_, hst, h1⟩, ?_, h2⟩
    rcases h1 with rfl | rfl
    · exact hpk
    · rw [show ∀ a b : Event, [a, b] = [a] ++ [b] from fun _ _ => rfl, packetsOf_snoc, hpk]; rfl
  rotate_left
  · intro _
    rw [hpk]
    cases hb : w.begun with
    | true =>
      obtain ⟨q, h1, h2⟩ := h.kept c w hw hb
      exact ⟨q, head?_grow h1, by simpa using h2⟩
    | false =>
      rw [h.begun c w hw hb]
      exact ⟨p, rfl, by simp⟩
  · intro hre hz
    rw [hpk]
    cases hb : w.begun with
    | true => simp [hb, Net.resets] at hre hz; exact absurd hz hre
    | false => rw [h.begun c w hw hb]; simp
  intro ps bs future hs hf
  obtain ⟨k, h1, h2⟩ := h.read c w hw ps bs future hs hf
  rcases next_on m hs (h2 hr) hf with ⟨_, hq, _⟩ | ⟨q, b, rest', hk, hsv, he, hft, hb, hq, done, h3, h4, h5⟩ |
      ⟨rest', hk, hb, hq⟩ | ⟨_, t, hb⟩
  · rw [hp] at hq; cases hq
  case inr.inr.inl =>
    rw [hp] at hq
    cases hq
    have htk : ps.take (k + 1) = ps.take k ++ [.pingReq] := by
      rw [List.take_add_one, hk]; rfl
    refine ⟨k + 1, by rw [hpk, h1, htk, List.map_append]; rfl, fun _ => Or.inr ⟨by rw [htk]; simp, rest', rfl⟩⟩
  case inr.inr.inr => rw [hb] at hp; exact (parsePacket_zero m t _ _ hp).elim
  · rw [hp] at hq
    cases hq
    have htk : ps.take (k + 1) = ps.take k ++ [q] := by
      rw [List.take_add_one, hk]; rfl
    refine ⟨k + 1, by rw [hpk, h1, htk, List.map_append]; rfl, fun _ => Or.inl ⟨done ++ b, ?_, ?_, ?_⟩⟩
    · rw [htk]; exact h3.snoc hsv he hft
    · show w.rcvd = _
      rw [h4, hb, List.append_assoc]
    · show rest.length < _
      rw [hb, List.length_append] at h5; omega

/-- Every event keeps the invariant. -/
theorem NetInv.step (m : Mode) {cfg : AuthConfig} {n : Net} {es : List Event} (h : NetInv cfg n es)
    (e : NetEvent) (hd : ∀ c b, e = .data c b → b.length ≤ 2 ^ 31) :
    ∃ ex, Extends n e ex ∧ NetInv cfg (n.step m cfg e) (es ++ ex) := by
  have lift : ∀ {x : Event} {c : Nat} {n' : Net}, Stands n e x → e.conn = c →
      (∃ ex, (ex = [x] ∨ ex = [x, .abort c]) ∧ NetInv cfg n' (es ++ ex)) →
      ∃ ex, Extends n e ex ∧ NetInv cfg n' (es ++ ex) := by
    rintro x c n' hx rfl ⟨ex, h1, h2⟩
    exact ⟨ex, Or.inr ⟨x, hx, h1⟩, h2⟩
  -- the end of a connection
  have ending : ∀ c w, n.wires.get c = some w → w.running = true → ∀ e', e'.conn = some c →
      packetsOf c [e'] = [] → ¬ (n.server.step cfg e').1.isOpen c → Stands n e e' → e.conn = c →
      ∃ ex, Extends n e ex ∧ NetInv cfg (n.act cfg c w e') (es ++ ex) := by
    intro c w hw hr e' he hp hno hst hec
    refine lift hst hec (h.act hw hr he rfl (fun ho => absurd ho hno) ?_
      (fun hb => by rw [hp, List.append_nil]; exact h.begun c w hw hb)
      (fun hb => by rw [hp, List.append_nil]; exact h.kept c w hw hb)
      (fun _ hz => by rw [hp, List.append_nil]; exact h.zero c w hw hr hz))
    intro ps bs future hs hf
    obtain ⟨k, h1, _⟩ := h.read c w hw ps bs future hs hf
    exact ⟨k, by rw [hp, List.append_nil]; exact h1, fun ho => absurd ho hno⟩
  have habort : ∀ c, ¬ (n.server.step cfg (.abort c)).1.isOpen c := by
    rintro c ⟨k, hk⟩; simp [Server.step, Map.get_erase] at hk
  cases e with
  | accept c =>
    unfold Net.step
    cases hw : n.wires.get c with
    | some w => exact ⟨[], Or.inl rfl, by simpa only [hw, List.append_nil] using h⟩
    | none =>
      simp only [hw]
      refine ⟨[], Or.inl rfl, ?_⟩
      rw [List.append_nil]
      refine ⟨h.server, fun c' => ?_, fun c' hc' => ?_, fun c' w' hw' => ?_, fun c' w' hw' => ?_,
        fun c' w' hw' hb' => ?_, fun c' w' hw' hb' => ?_, fun c' w' hw' hr' hz' => ?_⟩
      · rw [h.opened c']
        by_cases hne : c' = c
        · subst hne
          simp [Map.get_insert, hw]
        · simp [Map.get_insert, Ne.symm hne]
      · have hne : c' ≠ c := by rintro rfl; simp [Map.get_insert] at hc'
        simp only [Map.get_insert, if_neg (Ne.symm hne)] at hc'
        exact h.unused c' hc'
      · by_cases hne : c' = c
        · subst hne
          simp only [Map.get_insert, if_true, Option.some.injEq] at hw'
          subst hw'
          exact ⟨[], List.nil_prefix, fun _ => (h.unused c' hw).2.symm, .nil⟩
        · simp only [Map.get_insert, if_neg (Ne.symm hne)] at hw'
          exact h.written c' w' hw'
      · by_cases hne : c' = c
        · subst hne
          simp only [Map.get_insert, if_true, Option.some.injEq] at hw'
          subst hw'
          intro ps bs future hs hf
          refine ⟨0, by rw [(h.unused c' hw).1]; rfl, fun _ => Or.inl ⟨[], by simpa using Sent.nil, rfl, by simp⟩⟩
        · simp only [Map.get_insert, if_neg (Ne.symm hne)] at hw'
          exact h.read c' w' hw'
      · by_cases hne : c' = c
        · subst hne; exact (h.unused c' hw).1
        · simp only [Map.get_insert, if_neg (Ne.symm hne)] at hw'
          exact h.begun c' w' hw' hb'
      · by_cases hne : c' = c
        · subst hne
          simp only [Map.get_insert, if_true, Option.some.injEq] at hw'
          subst hw'
          cases hb'
        · simp only [Map.get_insert, if_neg (Ne.symm hne)] at hw'
          exact h.kept c' w' hw' hb'
      · by_cases hne : c' = c
        · subst hne
          rw [(h.unused c' hw).1]; simp
        · simp only [Map.get_insert, if_neg (Ne.symm hne)] at hw'
          exact h.zero c' w' hw' hr' hz'
  | data c bytes =>
    unfold Net.step Net.onWire
    cases hw : n.wires.get c with
    | none => exact ⟨[], Or.inl rfl, by simpa only [hw, List.append_nil] using h⟩
    | some w =>
      simp only [hw]
      cases hr : w.running with
      | false => exact ⟨[], Or.inl rfl, by simpa using h⟩
      | true =>
        simp only [if_true]
        split
        · rename_i hn
          split
          · exact ending c w hw hr _ rfl rfl (not_open_close cfg n es h c) .close rfl
          · refine ⟨[], Or.inl rfl, ?_⟩
            rw [List.append_nil]
            refine ⟨h.server, fun c' => ?_, fun c' hc' => ?_, fun c' w' hw' => ?_, fun c' w' hw' => ?_,
        fun c' w' hw' hb' => ?_, fun c' w' hw' hb' => ?_, fun c' w' hw' hr' hz' => ?_⟩
            · rw [h.opened c']
              by_cases hne : c' = c
              · subst hne
                simp [Map.get_insert, hw, hr]
              · simp [Map.get_insert, Ne.symm hne]
            · have hne : c' ≠ c := by rintro rfl; simp [Map.get_insert] at hc'
              simp only [Map.get_insert, if_neg (Ne.symm hne)] at hc'
              exact h.unused c' hc'
            · by_cases hne : c' = c
              · subst hne
                simp only [Map.get_insert, if_true, Option.some.injEq] at hw'
                subst hw'
                obtain ⟨qs, h1, h2, h3⟩ := h.written c' w hw
                exact ⟨qs, h1, fun _ => h2 hr, h3⟩
              · simp only [Map.get_insert, if_neg (Ne.symm hne)] at hw'
                exact h.written c' w' hw'
            · by_cases hne : c' = c
              · subst hne
                simp only [Map.get_insert, if_true, Option.some.injEq] at hw'
                subst hw'
                intro ps bs future hs hf
                have hf' : w.rcvd ++ (bytes ++ future) = bs := by rw [← List.append_assoc]; exact hf
                obtain ⟨k, h1, h2⟩ := h.read c' w hw ps bs (bytes ++ future) hs hf'
                refine ⟨k, h1, fun _ => ?_⟩
                rcases next_on m hs (h2 hr) hf' with ⟨hu, _, done, h3, h4⟩ | ⟨p, b, rest, _, _, _, _, _, hp, _⟩ |
                    ⟨rest, _, _, hp⟩ | ⟨h3, t, h4⟩
                · refine Or.inl ⟨done, h3, by rw [h4, List.append_assoc], ?_⟩
                  have := unfinished_length hu
                  have := hd c' bytes rfl
                  show (w.buf ++ bytes).length < _
                  rw [List.length_append]; omega
                · rw [hn] at hp; cases hp
                · rw [hn] at hp; cases hp
                · exact Or.inr ⟨h3, t ++ bytes, by
                    show w.buf ++ bytes = _
                    rw [h4, List.cons_append]⟩
              · simp only [Map.get_insert, if_neg (Ne.symm hne)] at hw'
                exact h.read c' w' hw'
            · by_cases hne : c' = c
              · subst hne
                simp only [Map.get_insert, if_true, Option.some.injEq] at hw'
                subst hw'
                exact h.begun c' w hw hb'
              · simp only [Map.get_insert, if_neg (Ne.symm hne)] at hw'
                exact h.begun c' w' hw' hb'
            · by_cases hne : c' = c
              · subst hne
                simp only [Map.get_insert, if_true, Option.some.injEq] at hw'
                subst hw'
                exact h.kept c' w hw hb'
              · simp only [Map.get_insert, if_neg (Ne.symm hne)] at hw'
                exact h.kept c' w' hw' hb'
            · by_cases hne : c' = c
              · subst hne
                simp only [Map.get_insert, if_true, Option.some.injEq] at hw'
                subst hw'
                exact h.zero c' w hw hr hz'
              · simp only [Map.get_insert, if_neg (Ne.symm hne)] at hw'
                exact h.zero c' w' hw' hr' hz'
        · exact ⟨[], Or.inl rfl, by simpa using h⟩
  | turn c uuid written =>
    unfold Net.step Net.onWire
    cases hw : n.wires.get c with
    | none => exact ⟨[], Or.inl rfl, by simpa only [hw, List.append_nil] using h⟩
    | some w =>
      simp only [hw]
      cases hr : w.running with
      | false => exact ⟨[], Or.inl rfl, by simpa using h⟩
      | true =>
        simp only [if_true]
        split
        · exact ⟨[], Or.inl rfl, by simpa using h⟩
        · rename_i p rest hp
          obtain ⟨ex, h1, _, h2⟩ := h.reads_packet m hw hr hp uuid written
          rw [Net.turn_packet cfg hw hr hp] at h2
          exact ⟨ex, h1, h2⟩
        · exact ending c w hw hr _ rfl rfl (not_open_close cfg n es h c) .close rfl
        · exact ending c w hw hr _ rfl rfl (habort c) .abort rfl
  | deliver c f =>
    unfold Net.step Net.onWire
    cases hw : n.wires.get c with
    | none => exact ⟨[], Or.inl rfl, by simpa only [hw, List.append_nil] using h⟩
    | some w =>
      simp only [hw]
      cases hr : w.running with
      | false => exact ⟨[], Or.inl rfl, by simpa using h⟩
      | true =>
        simp only [if_true]
        split
        · rename_i hb
          refine lift .deliver rfl (h.act hw hr (e := .deliver c f) rfl rfl (fun _ => hb) ?_
            (fun hb' => by rw [hb] at hb'; cases hb')
            (fun hb' => by
              obtain ⟨q, h1, h2⟩ := h.kept c w hw hb'
              exact ⟨q, head?_grow h1, h2⟩)
            (fun _ hz => by simpa [packetsOf] using h.zero c w hw hr hz))
          intro ps bs future hs hf
          obtain ⟨k, h1, h2⟩ := h.read c w hw ps bs future hs hf
          exact ⟨k, by simpa [packetsOf] using h1, fun _ => h2 hr⟩
        · exact ⟨[], Or.inl rfl, by simpa using h⟩
  | close c =>
    unfold Net.step Net.onWire
    cases hw : n.wires.get c with
    | none => exact ⟨[], Or.inl rfl, by simpa only [hw, List.append_nil] using h⟩
    | some w =>
      simp only [hw]
      cases hr : w.running with
      | false => exact ⟨[], Or.inl rfl, by simpa using h⟩
      | true =>
        simp only [if_true]
        exact ending c w hw hr _ rfl rfl (not_open_close cfg n es h c) .close rfl

theorem Net.run_snoc (m : Mode) (cfg : AuthConfig) (n : Net) (es : List NetEvent) (e : NetEvent) :
    n.run m cfg (es ++ [e]) = (n.run m cfg es).step m cfg e := by
  simp [Net.run]

/-- Chunks are what one `read` can return. -/
def ShortChunks (ns : List NetEvent) : Prop := ∀ c b, NetEvent.data c b ∈ ns → b.length ≤ 2 ^ 31

theorem netInv_run (m : Mode) (cfg : AuthConfig) (ns : List NetEvent) (hd : ShortChunks ns) :
    ∃ es, NetInv cfg (Net.init.run m cfg ns) es := by
  induction ns using snoc_induction with
  | h0 => exact ⟨[], NetInv.init cfg⟩
  | hs l e ih =>
    obtain ⟨es, h⟩ := ih (fun c b hb => hd c b (List.mem_append_left _ hb))
    rw [Net.run_snoc]
    obtain ⟨ex, _, h'⟩ := h.step m e (fun c b he => hd c b (by simp [he]))
    exact ⟨_, h'⟩

end Mercurio
