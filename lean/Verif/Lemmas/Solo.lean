import Verif.Lemmas.SysClient
import Verif.Props.Net

/-!
# Histories of a server in which a client has its identifier to itself
-/

namespace Mercurio

open Spec Server

/-- The client identifier of connection `c` is `id` and its version `v`; other clients with this identifier, if
there are any, start clean, and then so does `c`. -/
structure Solo (c : Nat) (id : Str) (v : ProtocolVersion) (es : List Event) : Prop where
  own : ∀ p u w, Event.first c p u w ∈ es → ∃ q, p = .connect q ∧ q.payload.clientId = id ∧
    q.protocolVersion = v
  others : ∀ d q u w, d ≠ c → Event.first d (.connect q) u w ∈ es → q.payload.clientId = id →
    q.flags.cleanStart = true ∧ ∀ q' u' w', Event.first c (.connect q') u' w' ∈ es → q'.flags.cleanStart = true

theorem Solo.init {c : Nat} {id : Str} {v : ProtocolVersion} {es es' : List Event}
    (h : Solo c id v (es ++ es')) : Solo c id v es :=
  ⟨fun p u w hm => h.own p u w (List.mem_append_left _ hm),
    fun d q u w hd hm hid =>
      have ho := h.others d q u w hd (List.mem_append_left _ hm) hid
      ⟨ho.1, fun q' u' w' hm' => ho.2 q' u' w' (List.mem_append_left _ hm')⟩⟩

/-- Every open connection was opened by a CONNECT with its identifier. -/
theorem conns_from (cfg : AuthConfig) (es : List Event) : ∀ d k,
    (Server.run cfg Server.init es).conns.get d = some k →
    ∃ p u w, Event.first d (.connect p) u w ∈ es ∧ p.payload.clientId = k.key := by
  induction es using snoc_induction with
  | h0 => intro d k hk; simp [Server.run, Server.init, Map.get] at hk
  | hs l e ih =>
    intro d k hk
    rw [run_snoc] at hk
    have old : (Server.run cfg Server.init l).conns.get d = some k →
        ∃ p u w, Event.first d (.connect p) u w ∈ l ++ [e] ∧ p.payload.clientId = k.key := by
      intro h
      obtain ⟨p, u, w, h1, h2⟩ := ih d k h
      exact ⟨p, u, w, List.mem_append_left _ h1, h2⟩
    have loc : ∀ {c}, LocalTo c e →
        ∃ p u w, Event.first d (.connect p) u w ∈ l ++ [e] ∧ p.payload.clientId = k.key := by
      intro c he
      rcases (step_local cfg (Server.run cfg Server.init l) he).conns with h | h
      · rw [h] at hk; exact old hk
      · rw [h] at hk; exact old (get_erase_some _ _ _ _ hk)
    cases e with
    | first c p u w =>
      rcases step_first_cases cfg (Server.run cfg Server.init l) c p u w with ⟨h, _⟩ | ⟨q, rfl, _, h⟩
      · rw [h] at hk; exact old hk
      · obtain ⟨r, hr⟩ := start_effect (Server.run cfg Server.init l) c q u w
        rw [h, hr.conns] at hk
        split at hk
        · rw [Map.get_insert] at hk
          split at hk
          · rename_i hw hc
            subst hc
            cases hk
            exact ⟨q, u, w, by simp, rfl⟩
          · exact old hk
        · exact old hk
    | recv c p => exact loc (.recv p)
    | deliver c f => exact loc (.deliver f)
    | close c => exact loc .close
    | abort c => exact old (get_erase_some _ _ _ _ hk)
    | restart => simp [Server.step, Map.get] at hk

theorem Solo.mine {cfg : AuthConfig} {c : Nat} {id : Str} {v : ProtocolVersion} {es : List Event}
    (h : Solo c id v es) (ho : (Server.run cfg Server.init es).isOpen c) :
    (Server.run cfg Server.init es).clientOf c = some id := by
  obtain ⟨k, hk⟩ := ho
  obtain ⟨p, u, w, h1, h2⟩ := conns_from cfg es c k hk
  obtain ⟨q, hq, h3, _⟩ := h.own _ u w h1
  cases hq
  simp [Server.clientOf, hk, ← h2, h3]

/-- No other connection works on the session. -/
theorem Solo.apart {cfg : AuthConfig} {c : Nat} {id : Str} {v : ProtocolVersion} (es : List Event)
    (h : Solo c id v es) {d : Nat} (hd : d ≠ c) : ¬ (Server.run cfg Server.init es).shares c d := by
  induction es using snoc_induction with
  | h0 => rintro ⟨k, k', hk, _⟩; simp [Server.run, Server.init, Map.get] at hk
  | hs l e ih =>
    have ih := ih h.init
    rintro ⟨k, k', hk, hk', hkk⟩
    rw [run_snoc] at hk hk'
    have hi : Inv (Server.run cfg Server.init l) := (show Server.Reachable cfg _ from ⟨l, rfl⟩).inv
    have old : (Server.run cfg Server.init l).conns.get c = some k →
        (Server.run cfg Server.init l).conns.get d = some k' → False := fun a b => ih ⟨k, k', a, b, hkk⟩
    have loc : ∀ {c1}, LocalTo c1 e → False := by
      intro c1 he
      rcases (step_local cfg (Server.run cfg Server.init l) he).conns with h | h
      · rw [h] at hk hk'; exact old hk hk'
      · rw [h] at hk hk'; exact old (get_erase_some _ _ _ _ hk) (get_erase_some _ _ _ _ hk')
    cases e with
    | first c1 p u w =>
      rcases step_first_cases cfg (Server.run cfg Server.init l) c1 p u w with ⟨h', _⟩ | ⟨q, rfl, _, h'⟩
      · rw [h'] at hk hk'; exact old hk hk'
      · obtain ⟨r, hr⟩ := start_effect (Server.run cfg Server.init l) c1 q u w
        rw [h', hr.conns] at hk hk'
        cases w with
        | false => exact old hk hk'
        | true =>
          simp only [if_true, Map.get_insert] at hk hk'
          by_cases h1 : c1 = c
          · subst h1
            rw [if_pos rfl] at hk
            rw [if_neg (Ne.symm hd)] at hk'
            cases hk
            rcases hr.table with ⟨b, a, _⟩ | ⟨a, _⟩
            · have hkey := hi.keyed _ _ _ hk' (by rw [← hkk]; exact a)
              obtain ⟨p', u', w', m1, m2⟩ := conns_from cfg l d k' hk'
              obtain ⟨q', e1, e2, _⟩ := h.own (.connect q) u true (by simp)
              cases e1
              have := (h.others d p' u' w' hd (List.mem_append_left _ m1) (by rw [m2, hkey, e2])).2 q u true (by simp)
              rw [this] at b; cases b
            · have := (hi.conns _ _ hk').1
              rw [← hkk] at this
              simp only at this
              omega
          · rw [if_neg h1] at hk
            by_cases h2 : c1 = d
            · subst h2
              rw [if_pos rfl] at hk'
              cases hk'
              rcases hr.table with ⟨b, a, _⟩ | ⟨a, _⟩
              · have hkey := hi.keyed _ _ _ hk (by rw [hkk]; exact a)
                obtain ⟨p', u', w', m1, m2⟩ := conns_from cfg l c k hk
                obtain ⟨q', e1, e2, _⟩ := h.own _ u' w' (List.mem_append_left _ m1)
                cases e1
                have := (h.others c1 q u true hd (by simp) (by rw [← e2, m2, hkey])).1
                rw [this] at b; cases b
              · have := (hi.conns _ _ hk).1
                rw [hkk] at this
                simp only at this
                omega
            · rw [if_neg h2] at hk'
              exact old hk hk'
    | recv c1 p => exact loc (.recv p)
    | deliver c1 f => exact loc (.deliver f)
    | close c1 => exact loc .close
    | abort c1 => exact old (get_erase_some _ _ _ _ hk) (get_erase_some _ _ _ _ hk')
    | restart => simp [Server.step, Map.get] at hk

theorem isOpen_of_at {srv : Server} {c : Nat} {s : Session} (h : srv.at c = some s) : srv.isOpen c := by
  obtain ⟨k, hk, _⟩ := at_eq_some.mp h; exact ⟨k, hk⟩

theorem at_of_isOpen {srv : Server} (hi : Inv srv) {c : Nat} (h : srv.isOpen c) : ∃ s, srv.at c = some s := by
  obtain ⟨k, hk⟩ := h
  obtain ⟨s, hs⟩ := (hi.conns c k hk).2
  exact ⟨s, at_eq_some.mpr ⟨k, hk, hs⟩⟩

theorem begin_connect (s : Session) (uuid : Str) (resume : Bool) :
    (s.begin uuid resume).1.connect.protocolVersion = s.connect.protocolVersion := by
  unfold Session.begin; split <;> rfl

theorem restoreSubscriptions_connect (fs : List Str) : ∀ (s : Session) (w : World),
    (s.restoreSubscriptions w fs).1.connect = s.connect := by
  induction fs with
  | nil => intro s w; rfl
  | cons f fs ih => intro s w; exact ih _ _

theorem restoreWill_connect (s : Session) (w : Option StoredWill) : (restoreWill s w).connect = s.connect := by
  unfold restoreWill; cases w <;> rfl

theorem start_connect {srv : Server} (c : Nat) (p : ConnectPacket) (u : Str) (hno : ¬ srv.isOpen c) (w : Bool)
    {s : Session} (hs : (srv.start c p u w).1.at c = some s) :
    s.connect.protocolVersion = p.protocolVersion := by
  cases w with
  | false =>
    exfalso
    obtain ⟨r, hr⟩ := start_effect srv c p u false
    have := isOpen_of_at hs
    obtain ⟨k, hk⟩ := this
    rw [hr.conns] at hk
    exact hno ⟨k, hk⟩
  | true =>
    obtain ⟨k, hk, hh⟩ := at_eq_some.mp hs
    simp only [Server.start, if_true, conns_put, heap_put] at hk hh
    rw [Map.get_insert, if_pos rfl] at hk
    cases hk
    simp only [Map.get_insert, if_true, Option.some.injEq] at hh
    rw [← hh, restoreWill_connect, restoreSubscriptions_connect, begin_connect, enter_connect]

/-- The session of a client that has its identifier to itself: its version is the client's, and it has
the subscriptions the client asked for. -/
theorem solo_session (cfg : AuthConfig) {c : Nat} {id : Str} {v : ProtocolVersion} (es : List Event)
    (h : Solo c id v es) {s : Session} (hs : (Server.run cfg Server.init es).at c = some s) :
    s.connect.protocolVersion = v ∧ ∀ f, ValidFilter f → subscribedBy f (packetsOf c es) →
      (s.subscriptions.get f).isSome := by
  induction es using snoc_induction generalizing s with
  | h0 => simp [Server.run, Server.init, Server.at, Map.get] at hs
  | hs l e ih =>
    rw [run_snoc] at hs
    have hi : Inv (Server.run cfg Server.init l) := (show Server.Reachable cfg _ from ⟨l, rfl⟩).inv
    rw [packetsOf_snoc]
    have sub : ∀ f, subscribedBy f (packetsOf c l ++ packetsOf c [e]) =
        (packetsOf c [e]).foldl (subStep f) (subscribedBy f (packetsOf c l)) := by
      intro f; unfold subscribedBy; rw [List.foldl_append]
    simp only [sub]
    generalize hsrv : Server.run cfg Server.init l = srv at *
    by_cases hec : ∃ d, e.conn = some d ∧ d ≠ c
    · obtain ⟨d, hd, hne⟩ := hec
      rw [packetsOf_other hd (Ne.symm hne)]
      have ho : srv.isOpen c := by
        obtain ⟨k, hk⟩ := isOpen_of_at hs
        rw [conns_other cfg srv hd (Ne.symm hne)] at hk
        exact ⟨k, hk⟩
      rw [at_apart cfg hi hd (Ne.symm hne) (by rw [← hsrv] at ho ⊢; exact h.init.mine ho)
        (by rw [← hsrv]; exact h.init.apart l hne)
        (fun p u w he hid => (h.others d p u w hne (by simp [he]) hid).1)] at hs
      exact ih h.init hs
    · have closed : ∀ srv' : Server, ¬ srv'.isOpen c → srv'.at c ≠ some s :=
        fun srv' hn ha => hn (isOpen_of_at ha)
      cases e with
      | first d p u w =>
        have hdc : d = c := Classical.byContradiction fun hne => hec ⟨d, rfl, hne⟩
        subst hdc
        obtain ⟨q, rfl, _, hv⟩ := h.own p u w (by simp)
        have hpk : packetsOf d [Event.first d (.connect q) u w] = [.connect q] := by simp [packetsOf]
        rw [hpk]
        refine ⟨?_, fun f _ hf => hf.elim⟩
        rcases step_first_cases cfg srv d (.connect q) u w with ⟨h', _⟩ | ⟨q', hq', ha, h'⟩
        · rw [h'] at hs; exact (ih h.init hs).1
        · cases hq'
          rw [h'] at hs
          rw [start_connect d q u ha.1 w hs, hv]
      | recv d p =>
        have hdc : d = c := Classical.byContradiction fun hne => hec ⟨d, rfl, hne⟩
        subst hdc
        have hpk : packetsOf d [Event.recv d p] = [p] := by simp [packetsOf]
        rw [hpk]
        cases ha : srv.at d with
        | none =>
          rw [show srv.step cfg (.recv d p) = (srv, {}) by simp only [Server.step]; exact onConn_none ha _] at hs
          rw [ha] at hs; cases hs
        | some s0 =>
          by_cases hd : ∃ x, p = .disconnect x
          · obtain ⟨x, rfl⟩ := hd
            obtain ⟨k, hk, hh, e⟩ := step_disconnect (cfg := cfg) (d := x) ha
            rw [e] at hs
            exact absurd hs (closed _ (not_open_finish _ _ _ _))
          · obtain ⟨k, hk, hh, e⟩ := step_recv (cfg := cfg) (p := p) ha (fun x hx => hd ⟨x, hx⟩)
            rw [e] at hs
            cases hr : (s0.processIncoming srv.world cfg.manager d p).result with
            | error er =>
              simp only [hr] at hs
              exact absurd hs (closed _ (not_open_finish _ _ _ _))
            | ok res =>
              simp only [hr] at hs
              rw [at_put_same (by exact hk)] at hs
              cases hs
              obtain ⟨i1, i2⟩ := ih h.init ha
              refine ⟨by rw [(processIncoming_keeps _ _ _ _ _).2.2]; exact i1, fun f hf hb => ?_⟩
              by_cases h1 : ∃ q, p = .subscribe q
              · obtain ⟨q, rfl⟩ := h1
                obtain ⟨g1, g2⟩ := subscribeLoop_get (q.payload.map (·.topicFilter)) s0 srv.world f
                by_cases hm : f ∈ q.payload.map (·.topicFilter)
                · obtain ⟨st, hst, _⟩ := g1 ⟨hm, hf⟩
                  exact Option.isSome_iff_exists.mpr ⟨st, hst⟩
                · have hb' : subscribedBy f (packetsOf d l) := by
                    rcases hb with hb | hb
                    · exact hb
                    · exact absurd hb hm
                  have e2 := g2 (fun hx => hm hx.1)
                  show ((s0.subscribeLoop srv.world (q.payload.map (·.topicFilter))).1.subscriptions.get f).isSome
                  rw [e2]; exact i2 f hf hb'
              by_cases h2 : ∃ q, p = .unsubscribe q
              · obtain ⟨q, rfl⟩ := h2
                obtain ⟨hb1, hb2⟩ : subscribedBy f (packetsOf d l) ∧ f ∉ q.payload := hb
                have e2 := (unsubscribeLoop_eq q.payload s0.subscriptions).2 f
                show ((Session.unsubscribeLoop s0.subscriptions q.payload).1.get f).isSome
                rw [e2, if_neg hb2]; exact i2 f hf hb1
              · rw [processIncoming_subscriptions s0 srv.world cfg.manager d p (fun q e => h1 ⟨q, e⟩)
                  (fun q e => h2 ⟨q, e⟩)]
                refine i2 f hf ?_
                cases p with
                | connect q => exact hb.elim
                | subscribe q => exact absurd ⟨q, rfl⟩ h1
                | unsubscribe q => exact absurd ⟨q, rfl⟩ h2
                | _ => exact hb
      | deliver d g =>
        have hdc : d = c := Classical.byContradiction fun hne => hec ⟨d, rfl, hne⟩
        subst hdc
        have hpk : packetsOf d [Event.deliver d g] = [] := by simp [packetsOf]
        rw [hpk]
        cases ha : srv.at d with
        | none =>
          rw [show srv.step cfg (.deliver d g) = (srv, {}) by simp only [Server.step]; exact onConn_none ha _] at hs
          rw [ha] at hs; cases hs
        | some s0 =>
          obtain ⟨k, hk, hh, e⟩ := onConn_at ha (fun r s => srv.deliver d r s g)
          have e' : srv.step cfg (.deliver d g) = srv.deliver d k.session s0 g := e
          rw [e'] at hs
          obtain ⟨i1, i2⟩ := ih h.init ha
          unfold Server.deliver at hs
          rcases processOutgoing_cases s0 srv.world.broker.tree g with
            ⟨h1, h2⟩ | ⟨st1, m, st2, hst, hp, ⟨u, _, h1⟩ | ⟨_, h1⟩⟩
          · rw [h1] at hs
            simp only [ha, Option.some.injEq] at hs
            subst hs
            exact ⟨i1, i2⟩
          · rw [h1] at hs
            simp only at hs
            rw [at_put_same (by exact hk)] at hs
            cases hs
            refine ⟨i1, fun f hf hb => ?_⟩
            simp only [Map.get_insert]
            split
            · rfl
            · exact i2 f hf hb
          · rw [h1] at hs
            exact absurd hs (closed _ (by rintro ⟨k, hk⟩; simp [Map.get_erase] at hk))
      | close d =>
        have hdc : d = c := Classical.byContradiction fun hne => hec ⟨d, rfl, hne⟩
        subst hdc
        exfalso
        cases ha : srv.at d with
        | none =>
          rw [show srv.step cfg (.close d) = (srv, {}) by simp only [Server.step]; exact onConn_none ha _] at hs
          rw [ha] at hs; cases hs
        | some s0 =>
          obtain ⟨k, hk, hh, e⟩ := onConn_at ha (fun r s => (srv.finish d r s, ({} : Out)))
          have e' : srv.step cfg (.close d) = (srv.finish d k.session s0, {}) := e
          rw [e'] at hs
          exact absurd hs (closed _ (not_open_finish _ _ _ _))
      | abort d =>
        have hdc : d = c := Classical.byContradiction fun hne => hec ⟨d, rfl, hne⟩
        subst hdc
        exact absurd hs (closed _ (by rintro ⟨k, hk⟩; simp [Server.step, Map.get_erase] at hk))
      | restart =>
        exact absurd hs (closed _ (by rintro ⟨k, hk⟩; simp [Server.step, Map.get] at hk))

/-- Everything sent to such a client can be read by it. -/
theorem solo_sent {W : StoredWill → Prop} (hW : ∀ w, W w → GoodWill w) (cfg : AuthConfig) {c : Nat} {id : Str}
    {v : ProtocolVersion} (es : List Event) (h : Solo c id v es) (hg : GoodHist W es) :
    ∀ q ∈ Server.init.sentTo cfg c es, OkTo v q := by
  induction es using snoc_induction with
  | h0 => intro q hq; simp [Server.sentTo] at hq
  | hs l e ih =>
    intro q hq
    rw [sentTo_snoc] at hq
    have hg1 : GoodHist W l := fun x hx => hg x (List.mem_append_left _ hx)
    have hge : GoodEvent W e := hg e (by simp)
    rcases List.mem_append.mp hq with hq | hq
    · exact ih h.init hg1 q hq
    split at hq
    · rename_i hc
      have ht := tame_run hW cfg l hg1
      have hr : Server.Reachable cfg (Server.run cfg Server.init l) := ⟨l, rfl⟩
      cases e with
      | first d p u w =>
        cases hc
        obtain ⟨x, rfl, _, hv⟩ := h.own p u w (by simp)
        rw [← hv]
        exact first_out cfg ht c x u hge.2 w q hq
      | recv d p =>
        cases hc
        cases ha : (Server.run cfg Server.init l).at c with
        | none =>
          rw [show (Server.run cfg Server.init l).step cfg (.recv c p) = (Server.run cfg Server.init l, {}) by
            simp only [Server.step]; exact onConn_none ha _] at hq
          cases hq
        | some s =>
          rw [← (solo_session cfg l h.init ha).1]
          exact (recv_out cfg ha hge q hq).1
      | deliver d f => cases hc; exact deliver_out cfg hr ht c f v q hq
      | close d =>
        simp only [Server.step, onConn] at hq
        split at hq
        · cases hq
        · split at hq <;> cases hq
      | abort d => cases hq
      | restart => cases hc
    · cases hq

/-! ## Publications of clients -/

/-- A publication, as an application gave it, and where it came from. -/
def callPub : Call → Option (Source × Publication)
  | .publish s t m => some (s, ⟨t, m.payload.getD [], m.qos, m.retain⟩)
  | _ => none

/-- The publications among the calls on the broker. -/
def callsPub (cs : List Call) : List (Source × Publication) := cs.filterMap callPub

theorem callsPub_append (a b : List Call) : callsPub (a ++ b) = callsPub a ++ callsPub b := by
  simp [callsPub]

theorem byClient_append (d : Nat) (a b : List (Source × Publication)) :
    byClient d (a ++ b) = byClient d a ++ byClient d b := by
  simp [byClient]

theorem byClient_subscribes (d : Nat) (l : List Str) : byClient d (callsPub (l.map Call.subscribe)) = [] := by
  induction l with
  | nil => rfl
  | cons a l ih => simpa [callsPub, callPub, byClient] using ih

theorem byClient_will (d c : Nat) (s : Session) : byClient d (callsPub (willCalls c s)) = [] := by
  unfold willCalls
  cases s.will with
  | none => rfl
  | some w => rfl

/-- The broker has of every client a first part of what it sent, and all of it while the client is
connected. -/
def LogInv (cfg : AuthConfig) (es : List Event) : Prop :=
  ∀ d, byClient d (callsPub (Server.run cfg Server.init es).world.log) <+:
      (packetsOf d es).filterMap pubOf ∧
    ((Server.run cfg Server.init es).isOpen d →
      byClient d (callsPub (Server.run cfg Server.init es).world.log) = (packetsOf d es).filterMap pubOf)

theorem logInv_nil (cfg : AuthConfig) : LogInv cfg [] := by
  intro d; exact ⟨List.nil_prefix, fun _ => rfl⟩

theorem logInv_snoc {cfg : AuthConfig} {es : List Event} (h : LogInv cfg es) {e : Event}
    (hf : ∀ d p u w, e = .first d p u w → packetsOf d es = [] ∧ ∃ q, p = .connect q) :
    LogInv cfg (es ++ [e]) := by
  have hi : Inv (Server.run cfg Server.init es) := (show Server.Reachable cfg _ from ⟨es, rfl⟩).inv
  intro d
  obtain ⟨h1, h2⟩ := h d
  rw [run_snoc, step_log, callsPub_append, byClient_append, packetsOf_snoc, List.filterMap_append]
  generalize hsrv : Server.run cfg Server.init es = srv at *
  -- events without publications of clients
  have quiet : byClient d (callsPub (eventCalls cfg srv e)) = [] → (packetsOf d [e]).filterMap pubOf = [] →
      ((srv.step cfg e).1.isOpen d → srv.isOpen d ∨ packetsOf d es = []) →
      byClient d (callsPub srv.world.log) ++ byClient d (callsPub (eventCalls cfg srv e)) <+:
        (packetsOf d es).filterMap pubOf ++ (packetsOf d [e]).filterMap pubOf ∧
      ((srv.step cfg e).1.isOpen d →
        byClient d (callsPub srv.world.log) ++ byClient d (callsPub (eventCalls cfg srv e)) =
          (packetsOf d es).filterMap pubOf ++ (packetsOf d [e]).filterMap pubOf) := by
    intro a b c
    rw [a, b, List.append_nil, List.append_nil]
    refine ⟨h1, fun ho => ?_⟩
    rcases c ho with ho | hn
    · exact h2 ho
    · rw [hn] at h1 ⊢
      exact List.prefix_nil.mp h1
  have keep : ∀ {c}, e.conn = some c → d ≠ c → (srv.step cfg e).1.isOpen d → srv.isOpen d := by
    rintro c hc hne ⟨k, hk⟩
    rw [conns_other cfg srv hc hne] at hk
    exact ⟨k, hk⟩
  have loc : ∀ {c}, LocalTo c e → (srv.step cfg e).1.isOpen d → srv.isOpen d := by
    rintro c hc ⟨k, hk⟩
    rcases (step_local cfg srv hc).conns with h | h
    · rw [h] at hk; exact ⟨k, hk⟩
    · rw [h] at hk; exact ⟨k, get_erase_some _ _ _ _ hk⟩
  cases e with
  | first c p u w =>
    obtain ⟨hn, q, rfl⟩ := hf c p u w rfl
    refine quiet ?_ ?_ ?_
    · simp only [eventCalls]
      split
      · exact byClient_subscribes _ _
      · rfl
    · by_cases hc : c = d <;> simp [packetsOf, hc, pubOf]
    · intro ho
      by_cases hc : d = c
      · right; rw [hc]; exact hn
      · left; exact keep rfl hc ho
  | recv c p =>
    by_cases hdc : d = c
    · subst hdc
      have hpk : packetsOf d [Event.recv d p] = [p] := by simp [packetsOf]
      rw [hpk]
      cases ha : srv.at d with
      | none =>
        have hno : ¬ srv.isOpen d := fun ho => by
          obtain ⟨s, hs⟩ := at_of_isOpen hi ho
          rw [ha] at hs; cases hs
        have e1 : byClient d (callsPub (eventCalls cfg srv (.recv d p))) = [] := by
          simp only [eventCalls, ha]; rfl
        rw [e1, List.append_nil]
        exact ⟨h1.trans (List.prefix_append _ _), fun ho => absurd (loc (.recv p) ho) hno⟩
      | some s =>
        rw [h2 (isOpen_of_at ha), List.prefix_append_right_inj, List.append_cancel_left_eq]
        have e1 : byClient d (callsPub (eventCalls cfg srv (.recv d p))) =
            byClient d (callsPub (packetCalls d p)) := by
          simp only [eventCalls, ha]
          rw [callsPub_append, byClient_append]
          split
          · simp [callsPub, byClient]
          · rw [byClient_will, List.append_nil]
        rw [e1]
        cases p with
        | publish p =>
          simp only [packetCalls]
          by_cases hv : ValidTopic p.topicName
          · rw [if_pos hv]
            simp [callsPub, callPub, byClient, pubOf]
          · rw [if_neg hv]
            refine ⟨List.nil_prefix, fun ho => ?_⟩
            exfalso
            obtain ⟨er, he⟩ := error_of_invalid hv
            obtain ⟨k, hk, hs, e⟩ := step_recv (cfg := cfg) (p := .publish p) ha (fun _ hx => by cases hx)
            obtain ⟨er', hr⟩ : ∃ er', (s.processIncoming srv.world cfg.manager d (.publish p)).result = .error er' := by
              simp only [Session.processIncoming, Session.handlePublish, he]
              exact ⟨_, rfl⟩
            rw [e] at ho
            simp only [hr] at ho
            exact not_open_finish _ _ _ _ ho
        | subscribe p =>
          simp only [packetCalls]
          rw [byClient_subscribes]
          simp [pubOf]
        | _ => exact ⟨List.prefix_refl _, fun _ => rfl⟩
    · refine quiet ?_ ?_ (fun ho => Or.inl (keep rfl hdc ho))
      · simp only [eventCalls]
        cases srv.at c with
        | none => rfl
        | some s =>
          simp only [callsPub_append, byClient_append]
          have e1 : byClient d (callsPub (packetCalls c p)) = [] := by
            cases p with
            | publish p =>
              simp only [packetCalls]
              split
              · simp [callsPub, callPub, byClient, Ne.symm hdc]
              · rfl
            | subscribe p => simp only [packetCalls]; exact byClient_subscribes _ _
            | _ => rfl
          rw [e1]
          split
          · rfl
          · rw [byClient_will]; rfl
      · rw [packetsOf_other (c := c) rfl hdc]; rfl
  | deliver c f => exact quiet rfl rfl (fun ho => Or.inl (loc (.deliver f) ho))
  | close c =>
    refine quiet ?_ rfl (fun ho => Or.inl (loc .close ho))
    simp only [eventCalls]
    cases srv.at c with
    | none => rfl
    | some s => exact byClient_will _ _ _
  | abort c =>
    refine quiet rfl rfl ?_
    rintro ⟨k, hk⟩
    exact Or.inl ⟨k, get_erase_some _ _ _ _ hk⟩
  | restart => exact quiet rfl rfl (by rintro ⟨k, hk⟩; simp [Server.step, Map.get] at hk)

end Mercurio
