import Verif.Lemmas.ClientCuts
import Verif.Lemmas.System

/-!
# The whole system: what a client reads of what the server sends it
-/

namespace Mercurio

open Spec Server

/-! ## Streams of packets to a client -/

theorem SentTo.unique {v : ProtocolVersion} {ps : List Packet} {a : Buf} (ha : SentTo v ps a) :
    ∀ {b : Buf}, SentTo v ps b → a = b := by
  induction ha with
  | nil => intro b hb; cases hb; rfl
  | cons _ he _ _ ih =>
    intro b hb
    cases hb with
    | cons _ he' _ hr => rw [he] at he'; cases he'; rw [ih hr]

theorem SentTo.append {v : ProtocolVersion} {ps qs : List Packet} {a b : Buf} (ha : SentTo v ps a)
    (hb : SentTo v qs b) : SentTo v (ps ++ qs) (a ++ b) := by
  induction ha with
  | nil => simpa using hb
  | cons hs he hf _ ih => rw [List.append_assoc]; exact .cons hs he hf ih

theorem SentTo.split {v : ProtocolVersion} {ps : List Packet} {bs : Buf} (h : SentTo v ps bs) : ∀ k, ∃ d r,
    SentTo v (ps.take k) d ∧ SentTo v (ps.drop k) r ∧ bs = d ++ r := by
  induction h with
  | nil => intro k; exact ⟨[], [], by simpa using SentTo.nil, by simpa using SentTo.nil, rfl⟩
  | @cons p bytes ps bs hs he hf hr ih =>
    intro k
    cases k with
    | zero => exact ⟨[], bytes ++ bs, .nil, .cons hs he hf hr, rfl⟩
    | succ k =>
      obtain ⟨d, r, h1, h2, h3⟩ := ih k
      exact ⟨bytes ++ d, r, .cons hs he hf h1, h2, by rw [h3, List.append_assoc]⟩

theorem SentTo.nil_inv {v : ProtocolVersion} {ps : List Packet} (h : SentTo v ps []) : ps = [] := by
  cases ps with
  | nil => rfl
  | cons p ps => exact absurd rfl (h.ne_nil (by simp))

/-- Two packets that begin with the same bytes have the same bytes. -/
theorem same_bytes {v : ProtocolVersion} {p q : Packet} {a b x : Buf} (hp : p.SurvivesTo v) (hq : q.SurvivesTo v)
    (ha : p.encode = .ok a) (hb : q.encode = .ok b) (fa : FitsMqtt a) (fb : FitsMqtt b) (h : b = a ++ x) : x = [] := by
  obtain ⟨r1, h1⟩ := parse_for_client .release v p hp ha fa x (by rw [← h]; unfold FitsMqtt at fb; omega)
  obtain ⟨r2, h2⟩ := parse_for_client .release v q hq hb fb [] (by rw [List.append_nil]; unfold FitsMqtt at fb; omega)
  rw [List.append_nil, h, h1] at h2
  have he : p.receivedBy v = q.receivedBy v := by
    have := Res.ok.inj h2
    exact (Prod.mk.inj this).1
  obtain ⟨b1, e1, l1⟩ := reencode_length v p hp ha
  obtain ⟨b2, e2, l2⟩ := reencode_length v q hq hb
  rw [he, e2] at e1
  cases e1
  rw [h, List.length_append] at l2
  exact List.length_eq_zero_iff.mp (by omega)

/-- Where whole packets end in a stream, a packet of the stream ends. -/
theorem SentTo.boundary {v : ProtocolVersion} {qs : List Packet} {a : Buf} (hq : SentTo v qs a) :
    ∀ {ps : List Packet} {r : Buf}, SentTo v ps (a ++ r) → ∃ j, SentTo v (ps.take j) a := by
  induction hq with
  | nil => intro ps r _; exact ⟨0, .nil⟩
  | @cons q bytes qs bs hs he hf hr ih =>
    intro ps r hp
    generalize hx : (bytes ++ bs) ++ r = y at hp
    cases hp with
    | nil =>
      rw [List.append_assoc] at hx
      exact absurd (List.append_eq_nil_iff.mp hx).1 (encode_ne_nil he)
    | @cons p b ps' bs' hs' he' hf' hr' =>
      have hbb : bytes = b := by
        rw [List.append_assoc] at hx
        rcases List.append_eq_append_iff.mp hx with ⟨x, h1, _⟩ | ⟨x, h1, _⟩
        · have := same_bytes hs hs' he he' hf hf' h1
          rw [h1, this, List.append_nil]
        · have := same_bytes hs' hs he' he hf' hf h1
          rw [h1, this, List.append_nil]
      subst hbb
      rw [List.append_assoc] at hx
      have := List.append_cancel_left hx
      obtain ⟨j, hj⟩ := ih (this ▸ hr')
      exact ⟨j + 1, .cons hs' he' hf' hj⟩

/-- The first packet of a stream that begins with the bytes of a packet. -/
theorem SentTo.first {v : ProtocolVersion} {q : Packet} {bytes r : Buf} {ps : List Packet} (hq : SentTo v [q] bytes)
    (hp : SentTo v ps (bytes ++ r)) : ∃ q' ps', ps = q' :: ps' ∧ SentTo v [q'] bytes ∧ SentTo v ps' r := by
  generalize hx : bytes ++ r = y at hp
  cases hq with
  | @cons _ b _ _ hs he hf hr =>
  cases hr
  rw [List.append_nil] at hx ⊢
  cases hp with
  | nil => exact absurd (List.append_eq_nil_iff.mp hx).1 (encode_ne_nil he)
  | @cons p b' ps' bs' hs' he' hf' hr' =>
    have hbb : b = b' := by
      rcases List.append_eq_append_iff.mp hx with ⟨x, h1, _⟩ | ⟨x, h1, _⟩
      · have := same_bytes hs hs' he he' hf hf' h1
        rw [h1, this, List.append_nil]
      · have := same_bytes hs' hs he' he hf' hf h1
        rw [h1, this, List.append_nil]
    subst hbb
    have := List.append_cancel_left hx
    subst this
    refine ⟨p, ps', rfl, ?_, hr'⟩
    have := SentTo.cons hs' he' hf' SentTo.nil
    rwa [List.append_nil] at this

/-- The beginning of the first of the packets `T`, at which the client waits for the rest, or nothing. -/
def Begun (v : ProtocolVersion) (T : List Packet) (tail : Buf) : Prop :=
  tail = [] ∨ ∃ q T' bytes, T = q :: T' ∧ SentTo v [q] bytes ∧ tail.length < bytes.length ∧
    ∀ m, clientParse m v tail = .needMore

theorem Begun.waits {v : ProtocolVersion} {T : List Packet} {tail : Buf} (h : Begun v T tail) (m : Mode) :
    clientParse m v tail = .needMore := by
  rcases h with rfl | ⟨_, _, _, _, _, _, h⟩
  · rfl
  · exact h m

theorem SentTo.fits {v : ProtocolVersion} {q : Packet} {bytes : Buf} (h : SentTo v [q] bytes) :
    bytes.length ≤ 2 ^ 28 + 4 := by
  cases h with
  | cons _ _ hf hr => cases hr; rw [List.append_nil]; exact hf

theorem Begun.small {v : ProtocolVersion} {T : List Packet} {tail : Buf} (h : Begun v T tail) :
    tail.length ≤ 2 ^ 28 + 4 := by
  rcases h with rfl | ⟨_, _, _, _, h1, h2, _⟩
  · simp
  · have := h1.fits; omega

/-- What the reader makes of a buffer of whole packets and the beginning of another one. -/
theorem clientParse_whole (m : Mode) {v : ProtocolVersion} {ps T : List Packet} {b tail : Buf} (h : SentTo v ps b)
    (ht : Begun v T tail) (hl : (b ++ tail).length < 2 ^ 32) :
    (ps = [] ∧ b = [] ∧ clientParse m v (b ++ tail) = .needMore) ∨
    ∃ q qs rest, ps = q :: qs ∧ SentTo v qs rest ∧
      clientParse m v (b ++ tail) = .packet (q.receivedBy v) (rest ++ tail) ∧
      rest.length ≤ b.length ∧ ∃ bytes, SentTo v [q] bytes ∧ b = bytes ++ rest := by
  cases h with
  | nil => exact Or.inl ⟨rfl, rfl, ht.waits m⟩
  | @cons p bytes ps bs hs he hf hr =>
    rw [List.append_assoc] at hl ⊢
    refine Or.inr ⟨p, ps, bs, rfl, hr, ?_, by simp, bytes, ?_, rfl⟩
    · obtain ⟨r, h1⟩ := parse_for_client m v p hs he hf (bs ++ tail) hl
      obtain ⟨b', h2, h3⟩ := reencode_length v p hs he
      have hd : (bytes ++ (bs ++ tail)).drop b'.length = bs ++ tail := by rw [h3, List.drop_left]
      have hle : b'.length ≤ (bytes ++ (bs ++ tail)).length := by rw [h3, List.length_append]; omega
      cases hb : bytes ++ (bs ++ tail) with
      | nil => exact absurd (List.append_eq_nil_iff.mp hb).1 (encode_ne_nil he)
      | cons x xs =>
        rw [hb] at h1 hd hle
        simp only [clientParse, h1, h2, hd, if_pos hle]
    · have := SentTo.cons hs he hf SentTo.nil
      rwa [List.append_nil] at this

/-- A client that has got what it got well: whole packets, and the beginning of one of those that were sent. -/
theorem GotWell.parts {v : ProtocolVersion} {S : List Packet} {sent got : Buf} (hS : SentTo v S sent)
    (h : GotWell v sent got) : ∃ j whole tail, j ≤ S.length ∧ SentTo v (S.take j) whole ∧ got = whole ++ tail ∧
      Begun v (S.drop j) tail := by
  obtain ⟨qs, s, h1, ⟨r, h2⟩, ⟨r', h3⟩, h4⟩ := h
  obtain ⟨as, bs, whole, tail, rfl, a1, rfl, a2, a3⟩ := h1.cutAt got r' h3.symm
  subst h2
  rw [← h3, List.append_assoc, List.append_assoc] at hS
  obtain ⟨j, hj⟩ := a1.boundary hS
  have hj' : SentTo v (S.take (min j S.length)) whole := by
    rcases Nat.le_total j S.length with hle | hle
    · rw [Nat.min_eq_left hle]; exact hj
    · rw [Nat.min_eq_right hle, List.take_length]; rwa [List.take_of_length_le hle] at hj
  refine ⟨min j S.length, whole, tail, Nat.min_le_right _ _, hj', rfl, ?_⟩
  rcases a3 with rfl | ⟨p, bs', bytes, k, rfl, hs, he, hf, hk0, hk, rfl⟩
  · exact Or.inl rfl
  right
  obtain ⟨d, e, s1, s2, s3⟩ := hS.split (min j S.length)
  have := s1.unique hj'
  subst this
  have s3 := List.append_cancel_left s3
  have hp1 : SentTo v [p] bytes := by
    have := SentTo.cons hs he hf SentTo.nil
    rwa [List.append_nil] at this
  obtain ⟨r2, hr2⟩ : ∃ r2, bytes.take k ++ (r' ++ r) = bytes ++ r2 := by
    generalize hx : bytes.take k ++ r' = x at a2
    cases a2 with
    | @cons _ b _ bs'' _ he' _ _ =>
      rw [he] at he'; cases he'
      exact ⟨bs'' ++ r, by rw [← List.append_assoc, hx, List.append_assoc]⟩
  rw [← s3, hr2] at s2
  obtain ⟨q, T', e1, e2, _⟩ := hp1.first s2
  refine ⟨q, T', bytes, e1, e2, by rw [List.length_take]; omega, fun m => ?_⟩
  have hsafe : p.SafeCut v bytes k := by
    rw [List.length_append, endsWell_append a1, List.length_take, Nat.min_eq_left (by omega)] at h4
    rcases h4 with h4 | ⟨b, hb, h4⟩
    · omega
    · rw [he] at hb; cases hb
      rwa [if_pos hk] at h4
  have hping : p ≠ .pingResp := by rintro rfl; exact hsafe
  have hinc := (client_cut m v p hs he hf hping k hk0 hk).1 hsafe
  obtain ⟨x, xs, hx⟩ := take_ne_nil hk0 hk
  rw [hx] at hinc ⊢
  simp only [clientParse, hinc]

/-! ## What the application hears -/

/-- The message of a PUBLISH as a client application gets it. -/
def heardOf : Packet → Option Heard
  | .publish p => some ⟨p.topicName, p.payload.getD [], p.qos, p.retain⟩
  | _ => none

/-- The message of an event. -/
def eventHeard : ClientEvent → Option Heard
  | .message t pl q r => some ⟨t, pl, q, r⟩
  | _ => none

theorem heard_events (p : Peer) : p.heard =
    (p.history.filterMap (·.2.event) ++ (p.loop.map Client.pending).getD []).filterMap eventHeard := rfl

theorem heard_act (p : Peer) (l : Client) (i : ClientIn) (hl : p.phase = .connected l) (X : List ClientEvent)
    (hx : (l.step i).2.event.toList ++ (l.step i).1.pending = l.pending ++ X) :
    (p.act l i).heard = p.heard ++ X.filterMap eventHeard := by
  have e1 : (p.act l i).history = p.history ++ [(i, (l.step i).2)] := rfl
  have e2 : (p.act l i).loop = some (l.step i).1 := rfl
  have e3 : p.loop = some l := by simp [Peer.loop, hl]
  have e4 : [(i, (l.step i).2)].filterMap (·.2.event) = (l.step i).2.event.toList := by
    cases h : (l.step i).2.event <;> simp [h]
  have e5 : (p.history ++ [(i, (l.step i).2)]).filterMap (·.2.event) =
      p.history.filterMap (·.2.event) ++ (l.step i).2.event.toList := by rw [List.filterMap_append, e4]
  rw [heard_events, heard_events, e1, e2, e3, e5]
  simp only [Option.map_some, Option.getD_some]
  rw [List.append_assoc, hx]
  simp only [List.filterMap_append, List.append_assoc]

/-- All events a client has had for its application, in order. -/
def Peer.events (p : Peer) : List ClientEvent :=
  p.history.filterMap (·.2.event) ++ (p.loop.map Client.pending).getD []

theorem events_act (p : Peer) (l : Client) (i : ClientIn) (hl : p.phase = .connected l) (X : List ClientEvent)
    (hx : (l.step i).2.event.toList ++ (l.step i).1.pending = l.pending ++ X) :
    (p.act l i).events = p.events ++ X := by
  have e1 : (p.act l i).history = p.history ++ [(i, (l.step i).2)] := rfl
  have e2 : (p.act l i).loop = some (l.step i).1 := rfl
  have e3 : p.loop = some l := by simp [Peer.loop, hl]
  have e4 : [(i, (l.step i).2)].filterMap (·.2.event) = (l.step i).2.event.toList := by
    cases h : (l.step i).2.event <;> simp [h]
  have e5 : (p.history ++ [(i, (l.step i).2)]).filterMap (·.2.event) =
      p.history.filterMap (·.2.event) ++ (l.step i).2.event.toList := by rw [List.filterMap_append, e4]
  unfold Peer.events
  rw [e1, e2, e3, e5]
  simp only [Option.map_some, Option.getD_some]
  rw [List.append_assoc, hx, List.append_assoc]

theorem call_keeps (l : Client) (p : Packet) (ok : Bool) (r : CallResult) :
    (l.call p ok r).2.event = none ∧ (l.call p ok r).1.pending = l.pending := by
  unfold Client.call
  split <;> exact ⟨rfl, rfl⟩

/-- Calls do not change what was heard. -/
theorem heard_app {p : Peer} {l : Client} {i : ClientIn} (hl : p.phase = .connected l)
    (hi : ∀ r ok, i ≠ .read r ok) : (p.act l i).heard = p.heard := by
  have same : (l.step i).2.event = none → (l.step i).1.pending = l.pending → (p.act l i).heard = p.heard := by
    intro h1 h2
    have := heard_act p l i hl [] (by rw [h1, h2]; simp)
    simpa using this
  unfold Client.step at same
  split at same
  · rename_i hr
    subst hr
    have e : l.step .recv = l.take := by simp [Client.step]
    have := heard_act p l .recv hl [] (by
      rw [e]
      unfold Client.take
      cases hp : l.pending <;> simp [hp])
    simpa using this
  split at same
  · exact same rfl rfl
  rename_i hr hb
  split at same
  · rename_i hrun
    cases i with
    | read r ok => exact absurd rfl (hi r ok)
    | publish t pl q r ok =>
      simp only [Client.turn, Client.doPublish] at same
      refine same (call_keeps _ _ _ _).1 ?_
      rw [(call_keeps _ _ _ _).2]; split <;> rfl
    | subscribe ts ok =>
      exact same (call_keeps _ _ _ _).1 ((call_keeps _ _ _ _).2)
    | unsubscribe ts ok =>
      exact same (call_keeps _ _ _ _).1 ((call_keeps _ _ _ _).2)
    | disconnect ok =>
      have e : l.step (.disconnect ok) = l.doDisconnect ok := by simp [Client.step, hb, hrun, Client.turn]
      have h2 := call_keeps l (.disconnect { reason := .normalDisconnection, properties := none }) ok .done
      have := heard_act p l (.disconnect ok) hl [.disconnected .clientInitiated] (by
        rw [e]
        simp only [Client.doDisconnect, h2.1, Client.emit, h2.2]
        simp)
      simpa [eventHeard, List.filterMap_cons] using this
    | tick ok =>
      cases ok with
      | true => exact same rfl rfl
      | false =>
        have e : l.step (.tick false) = l.stop .keepAliveTimeout := by
          have : l.step (.tick false) = l.turn (.tick false) := by simp [Client.step, hb, hrun]
          rw [this]; rfl
        have := heard_act p l (.tick false) hl [.disconnected .keepAliveTimeout] (by rw [e]; rfl)
        simpa [eventHeard, List.filterMap_cons] using this
    | recv => exact absurd rfl hr
  · cases i <;> exact same rfl rfl

/-- Calls that leave the client running give the application no new event. -/
theorem events_app {p : Peer} {l : Client} {i : ClientIn} (hl : p.phase = .connected l)
    (hi : ∀ r ok, i ≠ .read r ok) (ho : (p.act l i).socketOpen = true) : (p.act l i).events = p.events := by
  have ho : (l.step i).1.running = true := ho
  have same : (l.step i).2.event = none → (l.step i).1.pending = l.pending → (p.act l i).events = p.events := by
    intro h1 h2
    have := events_act p l i hl [] (by rw [h1, h2]; simp)
    simpa using this
  unfold Client.step at same ho
  split at same
  · rename_i hr
    subst hr
    have e : l.step .recv = l.take := by simp [Client.step]
    have := events_act p l .recv hl [] (by
      rw [e]
      unfold Client.take
      cases hp : l.pending <;> simp [hp])
    simpa using this
  rename_i hr
  rw [if_neg hr] at ho
  split at same
  · exact same rfl rfl
  rename_i hb
  rw [if_neg hb] at ho
  split at same
  · rename_i hrun
    rw [if_pos hrun] at ho
    cases i with
    | read r ok => exact absurd rfl (hi r ok)
    | publish t pl q r ok =>
      simp only [Client.turn, Client.doPublish] at same
      refine same (call_keeps _ _ _ _).1 ?_
      rw [(call_keeps _ _ _ _).2]; split <;> rfl
    | subscribe ts ok =>
      exact same (call_keeps _ _ _ _).1 ((call_keeps _ _ _ _).2)
    | unsubscribe ts ok =>
      exact same (call_keeps _ _ _ _).1 ((call_keeps _ _ _ _).2)
    | disconnect ok => cases ho
    | tick ok =>
      cases ok with
      | true => exact same rfl rfl
      | false => cases ho
    | recv => exact absurd rfl hr
  · rename_i hrun
    rw [if_neg hrun] at ho
    cases i <;> exact same rfl rfl

/-- The event of a packet. -/
def eventOf : Packet → Option ClientEvent
  | .publish p => some (.message p.topicName (p.payload.getD []) p.qos p.retain)
  | .disconnect _ => some (.disconnected .serverInitiated)
  | _ => none

theorem events_packet {p : Peer} {l : Client} {q : Packet} (hl : p.phase = .connected l)
    (hr : l.running = true) (hb : ¬ l.blocked) :
    (p.act l (.read (.packet q) true)).events = p.events ++ (eventOf q).toList := by
  have e : l.step (.read (.packet q) true) = l.incoming q true := by
    simp [Client.step, hb, hr, Client.turn]
  have none_ : eventOf q = none → l.incoming q true = (l, {}) →
      (p.act l (.read (.packet q) true)).events = p.events ++ (eventOf q).toList := by
    intro h1 h2
    have := events_act p l (.read (.packet q) true) hl [] (by rw [e, h2]; simp)
    simpa [h1] using this
  cases q with
  | publish q =>
    have hx : (l.incoming (.publish q) true).2.event.toList ++ (l.incoming (.publish q) true).1.pending =
        l.pending ++ [.message q.topicName (q.payload.getD []) q.qos q.retain] := by
      simp only [Client.incoming]
      split
      · rename_i id _ _
        have hw : Client.write (.pubAck { packetId := id, reason := .success, properties := none }) true = .ok true := rfl
        rw [hw]
        simp [Client.emit]
      · simp [Client.emit]
    exact events_act p l (.read (.packet (.publish q)) true) hl _ (by rw [e, hx]; rfl)
  | disconnect d =>
    exact events_act p l (.read (.packet (.disconnect d)) true) hl [.disconnected .serverInitiated] (by
      rw [e]; simp [Client.incoming, Client.emit])
  | _ => exact none_ rfl rfl

/-- A packet read is heard if it is a PUBLISH. -/
theorem heard_packet {p : Peer} {l : Client} {q : Packet} (hl : p.phase = .connected l)
    (hr : l.running = true) (hb : ¬ l.blocked) :
    (p.act l (.read (.packet q) true)).heard = p.heard ++ (heardOf q).toList := by
  have e : l.step (.read (.packet q) true) = l.incoming q true := by
    simp [Client.step, hb, hr, Client.turn]
  have none_ : heardOf q = none → l.incoming q true = (l, {}) →
      (p.act l (.read (.packet q) true)).heard = p.heard ++ (heardOf q).toList := by
    intro h1 h2
    have := heard_act p l (.read (.packet q) true) hl [] (by rw [e, h2]; simp)
    simpa [h1] using this
  cases q with
  | publish q =>
    have hx : (l.incoming (.publish q) true).2.event.toList ++ (l.incoming (.publish q) true).1.pending =
        l.pending ++ [.message q.topicName (q.payload.getD []) q.qos q.retain] := by
      simp only [Client.incoming]
      split
      · rename_i id _ _
        have hw : Client.write (.pubAck { packetId := id, reason := .success, properties := none }) true = .ok true := rfl
        rw [hw]
        simp [Client.emit]
      · simp [Client.emit]
    have := heard_act p l (.read (.packet (.publish q)) true) hl _ (by rw [e, hx])
    rw [this]
    rfl
  | disconnect d =>
    have := heard_act p l (.read (.packet (.disconnect d)) true) hl [.disconnected .serverInitiated] (by
      rw [e]; simp [Client.incoming, Client.emit])
    simpa [heardOf, eventHeard, List.filterMap_cons] using this
  | _ => exact none_ rfl rfl

/-! ## How far the client is -/

/-- The client has acted on the first `k` of the packets `S` the server sent it, and its buffer holds
whole packets from there on, and the beginning of the next one. -/
structure Down (v : ProtocolVersion) (S : List Packet) (p : Peer) (k : Nat) : Prop where
  le : k ≤ S.length
  parts : ∃ d rs whole tail, SentTo v (S.take k) d ∧ SentTo v rs whole ∧ p.buf = whole ++ tail ∧ rs <+: S.drop k ∧
    p.got = d ++ p.buf ∧ Begun v (S.drop (k + rs.length)) tail
  small : p.buf.length ≤ 2 ^ 28 + 4100
  start : p.phase = .connecting → k = 0
  heard : p.heard = ((S.take k).map (Packet.receivedBy v)).filterMap heardOf
  events : p.socketOpen = true → p.events = ((S.take k).map (Packet.receivedBy v)).filterMap eventOf

theorem Down.grow {v : ProtocolVersion} {S : List Packet} {p : Peer} {k : Nat} (h : Down v S p k) (T : List Packet) :
    Down v (S ++ T) p k := by
  have e : (S ++ T).take k = S.take k := List.take_append_of_le_length h.le
  refine ⟨by rw [List.length_append]; have := h.le; omega, ?_, h.small, h.start, by rw [e]; exact h.heard,
    by rw [e]; exact h.events⟩
  obtain ⟨d, rs, whole, tail, h1, h2, hb, h3, h4, h5⟩ := h.parts
  refine ⟨d, rs, whole, tail, by rw [e]; exact h1, h2, hb, ?_, h4, ?_⟩
  · rw [List.drop_append_of_le_length h.le]
    exact h3.trans (List.prefix_append _ _)
  · rcases h5 with h5 | ⟨q, T', bytes, e1, h5⟩
    · exact Or.inl h5
    · refine Or.inr ⟨q, T' ++ T, bytes, ?_, h5⟩
      have hle : k + rs.length ≤ S.length := by
        have := congrArg List.length e1
        simp only [List.length_drop, List.length_cons] at this
        omega
      rw [List.drop_append_of_le_length hle, e1, List.cons_append]

theorem down_new (v : ProtocolVersion) (S : List Packet) (o : ConnectOptions) (b : Buf) :
    Down v S { opts := o, wrote := b } 0 :=
  ⟨by omega, ⟨[], [], [], [], .nil, .nil, rfl, List.nil_prefix, rfl, Or.inl rfl⟩, by simp, fun _ => rfl, rfl, fun _ => rfl⟩

/-- The client reads. -/
theorem Down.read {m : Mode} {v : ProtocolVersion} {S : List Packet} {p : Peer} {k : Nat} (h : Down v S p k)
    {sent b : Buf} (hS : SentTo v S sent) (hn : clientParse m v p.buf = .needMore) (hb : b.length ≤ 4096)
    (hw : GotWell v sent (p.got ++ b)) :
    Down v S { p with buf := p.buf ++ b, got := p.got ++ b } k := by
  obtain ⟨d, rs, whole, tail, h1, h2, hbuf, h3, h4, h5⟩ := h.parts
  have hsmall : p.buf.length ≤ 2 ^ 28 + 4 := by
    have hl := h.small
    rw [hbuf] at hn hl ⊢
    rcases clientParse_whole m h2 h5 (by omega) with ⟨_, e, _⟩ | ⟨q, qs, rest, _, _, e, _⟩
    · rw [e, List.nil_append]; exact h5.small
    · rw [e] at hn; cases hn
  obtain ⟨j, whole2, tail2, hj, w1, w2, w3⟩ := hw.parts hS
  have hkj : k ≤ j := by
    refine Classical.byContradiction fun hc => ?_
    have hle := h.le
    obtain ⟨d1, r1, t1, t2, t3⟩ := h1.split j
    rw [List.take_take, Nat.min_eq_left (by omega)] at t1
    have := t1.unique w1
    subst this
    have hlt : j < S.length := by omega
    have hd : (S.take k).drop j = S[j] :: (S.take k).drop (j + 1) := by
      rw [List.drop_eq_getElem_cons (by rw [List.length_take]; omega), List.getElem_take]
    have hd' : S.drop j = S[j] :: S.drop (j + 1) := List.drop_eq_getElem_cons hlt
    rw [hd] at t2
    have hlen := congrArg List.length w2
    rw [h4] at hlen
    simp only [t3, List.length_append] at hlen
    cases t2 with
    | @cons _ bytes _ bs hs he hf hr =>
      have hpos : 0 < bytes.length := List.length_pos_iff.mpr (encode_ne_nil he)
      rw [List.length_append] at hlen
      rcases w3 with rfl | ⟨q, T', bytes', e1, e2, e3, _⟩
      · rw [List.length_nil] at hlen; omega
      · rw [hd'] at e1
        cases e1
        cases e2 with
        | cons hs' he' hf' hr' =>
          cases hr'
          rw [he] at he'; cases he'
          rw [List.append_nil] at e3
          omega
  obtain ⟨d1, w', t1, t2, t3⟩ := w1.split k
  rw [List.take_take, Nat.min_eq_left hkj] at t1
  have := t1.unique h1
  subst this
  refine ⟨h.le, ⟨d1, (S.take j).drop k, w', tail2, h1, t2, ?_, ?_, ?_, ?_⟩, ?_, h.start, h.heard, h.events⟩
  · show p.buf ++ b = w' ++ tail2
    rw [h4, t3, List.append_assoc, List.append_assoc] at w2
    exact List.append_cancel_left w2
  · rw [List.drop_take]; exact List.take_prefix _ _
  · show p.got ++ b = d1 ++ (p.buf ++ b)
    rw [h4, List.append_assoc]
  · have : k + ((S.take j).drop k).length = j := by simp; omega
    rw [this]; exact w3
  · show (p.buf ++ b).length ≤ _
    rw [List.length_append]; omega

theorem loop_connecting {p : Peer} (h : p.phase = .connecting) : p.loop = none := by simp [Peer.loop, h]

/-- The client acts on a packet. -/
theorem Down.turn {m : Mode} {v : ProtocolVersion} {S : List Packet} {p : Peer} {k : Nat} (h : Down v S p k)
    (hi : PeerInv p) (hr : p.reading = true) {q : Packet} {rest : Buf} (hq : clientParse m v p.buf = .packet q rest)
    (ha : (({ p with buf := rest } : Peer).receive (.packet q) true).socketOpen = true) :
    Down v S (({ p with buf := rest } : Peer).receive (.packet q) true) (k + 1) := by
  obtain ⟨d, rs, whole, tail, h1, h2, hbuf, h3, h4, h5⟩ := h.parts
  have hsm0 := h.small
  rw [hbuf] at hq hsm0
  rcases clientParse_whole m h2 h5 (by omega) with ⟨_, _, e⟩ | ⟨s, ss, rest', e1, e2, e, hle, bytes, e5, e6⟩
  · rw [e] at hq; cases hq
  rw [e] at hq
  obtain ⟨rfl, rfl⟩ : s.receivedBy v = q ∧ rest' ++ tail = rest := by cases hq; exact ⟨rfl, rfl⟩
  subst e1
  generalize hrest : rest' ++ tail = rest at ha ⊢
  obtain ⟨t, ht⟩ := h3
  have hlt : k < S.length := by
    have := congrArg List.length ht
    simp only [List.length_append, List.length_cons, List.length_drop] at this
    omega
  have hk : S[k] = s := by
    have := congrArg List.head? ht
    simp only [List.cons_append, List.head?_cons, List.head?_drop] at this
    rw [List.getElem?_eq_getElem hlt] at this
    exact (Option.some.inj this).symm
  have htake : S.take (k + 1) = S.take k ++ [s] := by
    rw [List.take_succ_eq_append_getElem hlt, hk]
  have hdrop : ss <+: S.drop (k + 1) := by
    refine ⟨t, ?_⟩
    have := congrArg List.tail ht
    simpa [List.tail_drop] using this
  have hparts : ∃ d rs whole tail, SentTo v (S.take (k + 1)) d ∧ SentTo v rs whole ∧ rest = whole ++ tail ∧
      rs <+: S.drop (k + 1) ∧ p.got = d ++ rest ∧ Begun v (S.drop (k + 1 + rs.length)) tail :=
    ⟨d ++ bytes, ss, rest', tail, by rw [htake]; exact h1.append e5, e2, hrest.symm, hdrop,
      by rw [h4, hbuf, e6, ← hrest]; simp only [List.append_assoc],
      by rw [List.length_cons, show k + (ss.length + 1) = k + 1 + ss.length by omega] at h5; exact h5⟩
  have hsm : rest.length ≤ 2 ^ 28 + 4100 := by
    rw [← hrest]; rw [List.length_append] at hsm0 ⊢; omega
  have hh : p.heard ++ (heardOf (s.receivedBy v)).toList =
      ((S.take (k + 1)).map (Packet.receivedBy v)).filterMap heardOf := by
    rw [htake, List.map_append, List.filterMap_append, h.heard]
    cases hx : heardOf (s.receivedBy v) <;> simp [hx]
  have hv : p.socketOpen = true → p.events ++ (eventOf (s.receivedBy v)).toList =
      ((S.take (k + 1)).map (Packet.receivedBy v)).filterMap eventOf := by
    intro ho
    rw [htake, List.map_append, List.filterMap_append, h.events ho]
    cases hx : eventOf (s.receivedBy v) <;> simp [hx]
  have hph : p.phase = .connecting ∨ (∃ l, p.phase = .connected l) ∨ ∃ e, p.phase = .failed e := by
    cases p.phase with
    | connecting => exact Or.inl rfl
    | connected l => exact Or.inr (Or.inl ⟨l, rfl⟩)
    | failed e => exact Or.inr (Or.inr ⟨e, rfl⟩)
  rcases hph with hp | ⟨l, hp⟩ | ⟨_, hp⟩
  · have hhist := hi.idle (loop_connecting hp)
    have hrec : ({ p with buf := rest } : Peer).receive (.packet (s.receivedBy v)) true =
        { p with buf := rest, phase := match performConnect p.opts (.read (.packet (s.receivedBy v))) with
          | .connected _ _ => .connected {}
          | .failed e => .failed (some e)
          | .panicked => .failed none } := by
      unfold Peer.receive
      split
      · rfl
      · rename_i hx; simp [hp] at hx
      · rename_i hx; simp [hp] at hx
    rw [hrec] at ha ⊢
    cases hpc : performConnect p.opts (.read (.packet (s.receivedBy v))) with
    | failed e => rw [hpc] at ha; cases ha
    | panicked => rw [hpc] at ha; cases ha
    | connected a b =>
      have hno : heardOf (s.receivedBy v) = none := by
        cases hx : s.receivedBy v <;> first | rfl | (rw [hx] at hpc; cases hpc)
      have hno' : eventOf (s.receivedBy v) = none := by
        cases hx : s.receivedBy v <;> first | rfl | (rw [hx] at hpc; cases hpc)
      refine ⟨by omega, hparts, hsm, fun hc => (by cases hc), ?_, fun _ => ?_⟩
      · rw [← hh, hno]
        have e0 : p.heard = [] := by simp [heard_events, hhist, loop_connecting hp]
        rw [e0]
        simp [heard_events, hhist, Peer.loop]
      · rw [← hv (by simp [Peer.socketOpen, hp]), hno']
        have e0 : p.events = [] := by simp [Peer.events, hhist, loop_connecting hp]
        rw [e0]
        simp [Peer.events, hhist, Peer.loop]
  · have hrec : ({ p with buf := rest } : Peer).receive (.packet (s.receivedBy v)) true =
        ({ p with buf := rest } : Peer).act l (.read (.packet (s.receivedBy v)) true) := by
      simp [Peer.receive, hp]
    rw [hrec]
    have hrl : l.running = true ∧ ¬ l.blocked := by
      simp only [Peer.reading, hp, Bool.and_eq_true, Bool.not_eq_true', decide_eq_false_iff_not] at hr
      exact hr
    refine ⟨by omega, hparts, hsm, fun hc => (by cases hc), ?_, fun _ => ?_⟩
    · rw [← hh]
      exact heard_packet (p := { p with buf := rest }) hp hrl.1 hrl.2
    · rw [← hv (by simp [Peer.socketOpen, hp, hrl.1])]
      exact events_packet (p := { p with buf := rest }) hp hrl.1 hrl.2
  · simp [Peer.reading, hp] at hr

theorem Down.app {v : ProtocolVersion} {S : List Packet} {p : Peer} {k : Nat} (h : Down v S p k) {l : Client}
    {i : ClientIn} (hl : p.phase = .connected l) (hi : ∀ r ok, i ≠ .read r ok) : Down v S (p.act l i) k :=
  ⟨h.le, h.parts, h.small, fun hc => (by cases hc), (heard_app hl hi).trans h.heard, fun ho =>
    (events_app hl hi ho).trans (h.events (by
      have hr : p.socketOpen = l.running := by simp [Peer.socketOpen, hl]
      rw [hr]
      cases hx : l.running with
      | true => rfl
      | false =>
        have ho : (l.step i).1.running = true := ho
        unfold Client.step at ho
        split at ho
        · unfold Client.take at ho; split at ho <;> simp_all
        split at ho
        · rw [hx] at ho; exact ho
        rw [if_neg (by simp [hx])] at ho
        cases i <;> simp [Client.refuse, hx] at ho))⟩

/-- A client that loses its connection closes its socket. -/
theorem lost_closes {p : Peer} (hr : p.reading = true) {r : ReadOut} (h : ∀ q, r ≠ .packet q) (ok : Bool) :
    (p.receive r ok).socketOpen = false := by
  cases hp : p.phase with
  | connecting =>
    cases r with
    | packet q => exact absurd rfl (h q)
    | closed => simp [Peer.receive, hp, performConnect, Peer.socketOpen]
    | error e => cases e <;> simp [Peer.receive, hp, performConnect, Peer.socketOpen]
    | panicked => simp [Peer.receive, hp, performConnect, Peer.socketOpen]
  | connected l =>
    have hrl : l.running = true ∧ ¬ l.blocked := by
      simp only [Peer.reading, hp, Bool.and_eq_true, Bool.not_eq_true', decide_eq_false_iff_not] at hr
      exact hr
    have e : (l.step (.read r ok)) = l.turn (.read r ok) := by simp [Client.step, hrl.1, hrl.2]
    have e2 : (p.receive r ok).socketOpen = (l.step (.read r ok)).1.running := by
      simp [Peer.receive, hp, Peer.socketOpen, Peer.act]
    rw [e2, e]
    cases r with
    | packet q => exact absurd rfl (h q)
    | _ => rfl
  | failed e => simp [Peer.reading, hp] at hr

end Mercurio
