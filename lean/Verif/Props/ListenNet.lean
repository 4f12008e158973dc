import Verif.Props.Listen
import Verif.Props.PlainNet

/-! # C135 on byte streams -/

namespace Mercurio

open Spec Server Classical

/-- What the connections mean to say keeps the group apart from the others: all give client identifiers, the others have other ones
than the group, and nothing they publish or announce as will matches a filter of the group. -/
structure Spec.KeepApart (A : Nat → Prop) (say : Nat → List Packet) : Prop where
  given : ∀ c p, .connect p ∈ say c → p.payload.clientId ≠ []
  names : ∀ c d p q, A c → ¬ A d → .connect p ∈ say c → .connect q ∈ say d → p.payload.clientId ≠ q.payload.clientId
  wills : ∀ c p w, .connect p ∈ say c → willIn p = some w → ValidTopic w.topic
  publish : ∀ c d p q x, A c → ¬ A d → .subscribe p ∈ say c → x ∈ p.payload → .publish q ∈ say d → ¬ Matches x.topicFilter q.topicName
  announce : ∀ c d p q x w, A c → ¬ A d → .subscribe p ∈ say c → x ∈ p.payload → .connect q ∈ say d → willIn q = some w →
    ¬ Matches x.topicFilter w.topic

theorem among_conn {A : Nat → Prop} {c : Nat} (hc : A c) {e : Event} (h : e.conn = some c) : Among A e := by
  cases e <;> simp only [Event.conn, Option.some.injEq, reduceCtorEq] at h <;> first | (subst h; exact hc) | trivial

theorem plainSent_among {A : Nat → Prop} {c : Nat} (hc : A c) (tr : List (Event × Out)) :
    plainSent c (tr.filter fun x => Among A x.1) = plainSent c tr := by
  induction tr with
  | nil => rfl
  | cons x tr ih =>
    unfold plainSent at ih ⊢
    rw [List.filter_cons]
    by_cases h : Among A x.1
    · rw [if_pos (by simpa using h), List.flatMap_cons, List.flatMap_cons, ih]
    · rw [if_neg (by simpa using h), List.flatMap_cons, ih, if_neg (fun e => h (among_conn hc e))]
      rfl

theorem packetsOf_among {A : Nat → Prop} {c : Nat} (hc : A c) (tr : List (Event × Out)) :
    packetsOf c ((tr.filter fun x => Among A x.1).map (·.1)) = packetsOf c (tr.map (·.1)) := by
  induction tr with
  | nil => rfl
  | cons x tr ih =>
    unfold packetsOf at ih ⊢
    rw [List.filter_cons]
    by_cases h : Among A x.1
    · rw [if_pos (by simpa using h), List.map_cons, List.map_cons, List.filterMap_cons, List.filterMap_cons, ih]
    · rw [if_neg (by simpa using h), List.map_cons, List.filterMap_cons, ih]
      obtain ⟨e, o⟩ := x
      cases e with
      | first d _ _ _ =>
        have : d ≠ c := by rintro rfl; exact h hc
        simp [this]
      | recv d _ =>
        have : d ≠ c := by rintro rfl; exact h hc
        simp [this]
      | _ => rfl

/-- C135 for bytes: in every run of the server on byte streams in which the clients mean to say things that keep a group apart from
the others, what is written to the group is explained by a run of the plain broker with events of the group only. -/
theorem C135_bytes (m : Mode) (cfg : AuthConfig) (ns : List NetEvent) (hd : ShortChunks ns) (A : Nat → Prop) (say : Nat → List Packet)
    (hs : ∀ c w, (Net.init.run m cfg ns).wires.get c = some w → ∃ bs future, Sent (say c) bs ∧ w.rcvd ++ future = bs)
    (hk : KeepApart A say) :
    ∃ tr b, Plain.new.Goes cfg tr b ∧ (∀ x ∈ tr, Among A x.1) ∧
      ∀ c w, A c → (Net.init.run m cfg ns).wires.get c = some w → ShowsAt m cfg (Net.init.run m cfg ns) tr c w := by
  obtain ⟨es, h⟩ := netInv_run m cfg ns hd
  generalize hn : Net.init.run m cfg ns = n at h hs ⊢
  have said : ∀ c p, p ∈ packetsOf c es → ∃ q ∈ say c, q.received = p := by
    intro c p hin
    cases hwire : n.wires.get c with
    | none => rw [(h.unused c hwire).1] at hin; cases hin
    | some x =>
      obtain ⟨bs, future, hs, hf⟩ := hs c x hwire
      obtain ⟨k, h1, _⟩ := h.read c x hwire _ bs future hs.on hf
      rw [h1] at hin
      obtain ⟨y, hy, he⟩ := List.mem_map.mp hin
      exact ⟨y, List.mem_of_mem_take hy, he⟩
  have first : ∀ {c p u x}, .first c (.connect p) u x ∈ es → ∃ q, .connect q ∈ say c ∧ q.payload.clientId = p.payload.clientId ∧ willIn q = willIn p := by
    intro c p u x hm
    obtain ⟨y, hy, he⟩ := said c _ (first_packetsOf hm)
    cases y with
    | connect q =>
      cases he
      refine ⟨q, hy, ?_, (willIn_received q).symm⟩
      unfold ConnectPacket.received
      split <;> rfl
    | _ => cases he
  have recv : ∀ {c p}, .recv c p ∈ es → ∃ q ∈ say c, q.received = p := by
    intro c p hm
    refine said c p ?_
    simp only [packetsOf, List.mem_filterMap]
    exact ⟨_, hm, by simp⟩
  have sub : ∀ {c p}, .recv c (.subscribe p) ∈ es → ∃ q, .subscribe q ∈ say c ∧ q.payload = p.payload := by
    intro c p hm
    obtain ⟨y, hy, he⟩ := recv hm
    cases y with
    | subscribe q => cases he; exact ⟨q, hy, rfl⟩
    | _ => cases he
  have pub : ∀ {c p}, .recv c (.publish p) ∈ es → ∃ q, .publish q ∈ say c ∧ q.topicName = p.topicName := by
    intro c p hm
    obtain ⟨y, hy, he⟩ := recv hm
    cases y with
    | publish q => cases he; exact ⟨q, hy, rfl⟩
    | _ => cases he
  have hp : ProperWills es := by
    intro c p u x w hm hw
    obtain ⟨q, h1, _, h2⟩ := first hm
    exact hk.wills c q w h1 (h2.trans hw)
  have hnames : OwnNames A es := by
    intro c p u x d q v y hc hd h1 h2
    obtain ⟨p', hp1, hp2, _⟩ := first h1
    obtain ⟨q', hq1, hq2, _⟩ := first h2
    have e1 : p.payload.clientId ≠ [] := hp2 ▸ hk.given c p' hp1
    have e2 : q.payload.clientId ≠ [] := hq2 ▸ hk.given d q' hq1
    have e3 : p.payload.clientId ≠ q.payload.clientId := hp2 ▸ hq2 ▸ hk.names c d p' q' hc hd hp1 hq1
    simp only [keysOf, if_neg e1, if_neg e2, List.mem_cons, List.not_mem_nil, or_false]
    rintro k rfl
    exact e3
  have hun : Unheard A es := by
    have filt : ∀ {f}, FilterOf A es f → ∃ c p x, A c ∧ .subscribe p ∈ say c ∧ x ∈ p.payload ∧ x.topicFilter = f := by
      rintro f ⟨c, p, hc, hm, hf⟩
      obtain ⟨q, h1, h2⟩ := sub hm
      rw [← h2] at hf
      obtain ⟨x, hx, he⟩ := List.mem_map.mp hf
      exact ⟨c, q, x, hc, h1, hx, he⟩
    constructor
    · intro f d q hf hd hm
      obtain ⟨c, p, x, hc, h1, h2, rfl⟩ := filt hf
      obtain ⟨q', h3, h4⟩ := pub hm
      rw [← h4]
      exact hk.publish c d p q' x hc hd h1 h2 h3
    · intro f d q u y w hf hd hm hw
      obtain ⟨c, p, x, hc, h1, h2, rfl⟩ := filt hf
      obtain ⟨q', h3, _, h4⟩ := first hm
      exact hk.announce c d p q' x w hc hd h1 h2 h3 (h4.trans hw)
  obtain ⟨b, hb⟩ := C135_alone cfg es hp A hnames hun
  refine ⟨_, b, hb, fun x hx => by simpa using (List.mem_filter.mp hx).2, fun c w hc hw => ?_⟩
  have := shows_trace (m := m) h c w hw
  unfold ShowsAt at this ⊢
  rw [plainSent_among hc, packetsOf_among hc]
  exact this

/-! ## Example -/

/-- Client `x` of `exTwoPieces`, and another one that publishes to `z`. -/
def exNextDoor : List NetEvent :=
  exTwoPieces ++ [.accept 1, .data 1 [0x10, 21, 0, 4, 77, 81, 84, 84, 5, 6, 0, 60, 0, 0, 1, 121, 0, 0, 1, 103, 0, 1, 98, 0x30, 5, 0, 1],
    .turn 1 (str "u") true, .data 1 [122, 0, 49], .turn 1 (str "u") true]

/-- What they mean to say. -/
def exSay : Nat → List Packet
  | 0 => [.connect exWillConnect, .subscribe ⟨1, none, [⟨str "a", {}⟩]⟩]
  | _ => [.connect { exWillConnect with payload := { exWillConnect.payload with clientId := str "y" } },
          .publish { topicName := str "z", payload := some [49] }]

theorem exSay_sent (c : Nat) (w : Wire) (hw : (Net.init.run .debug {} exNextDoor).wires.get c = some w) :
    ∃ bs future, Sent (exSay c) bs ∧ w.rcvd ++ future = bs := by
  have ht : ∀ id p : _, p = { exWillConnect with payload := { exWillConnect.payload with clientId := id } } → TextField id →
      p.Consistent ∧ p.Admissible := by
    rintro id p rfl hid
    refine ⟨⟨rfl, rfl, by rintro ⟨⟩, by rintro ⟨⟩, (by intro h; cases h), fun _ => rfl, rfl, rfl⟩, ⟨hid, ?_, ?_, ?_, ?_, ?_, ?_⟩⟩ <;>
      intro q hq <;> cases hq <;> decide
  have h0 : Sent (exSay 0)
      ([16, 21, 0, 4, 77, 81, 84, 84, 5, 6, 0, 60, 0, 0, 1, 120, 0, 0, 1, 103, 0, 1, 98] ++ ([130, 7, 0, 1, 0, 0, 1, 97, 0] ++ [])) := by
    refine .cons (ht (str "x") _ rfl (by decide)) (by decide +kernel) (by unfold FitsMqtt; decide) (.cons ?_ (by decide +kernel) (by unfold FitsMqtt; decide) .nil)
    refine ⟨(by rintro q ⟨⟩), (by decide), fun e he => ?_⟩
    simp only [List.mem_cons, List.not_mem_nil, or_false] at he
    subst he
    exact ⟨by decide, (by unfold SubscriptionOptions.Admissible; decide)⟩
  have h1 : Sent (exSay 1)
      ([16, 21, 0, 4, 77, 81, 84, 84, 5, 6, 0, 60, 0, 0, 1, 121, 0, 0, 1, 103, 0, 1, 98] ++ ([48, 5, 0, 1, 122, 0, 49] ++ [])) := by
    refine .cons (ht (str "y") _ rfl (by decide)) (by decide +kernel) (by unfold FitsMqtt; decide) (.cons ?_ (by decide +kernel) (by unfold FitsMqtt; decide) .nil)
    exact ⟨by decide, by decide, by decide, by rintro q ⟨⟩⟩
  have hkeys : (Net.init.run .debug {} exNextDoor).wires.map (fun x => (x.1, x.2.rcvd)) =
      [(1, [16, 21, 0, 4, 77, 81, 84, 84, 5, 6, 0, 60, 0, 0, 1, 121, 0, 0, 1, 103, 0, 1, 98, 48, 5, 0, 1, 122, 0, 49]),
       (0, [16, 21, 0, 4, 77, 81, 84, 84, 5, 6, 0, 60, 0, 0, 1, 120, 0, 0, 1, 103, 0, 1, 98, 130, 7, 0, 1])] := by decide +kernel
  have hm : (c, w.rcvd) ∈ (Net.init.run .debug {} exNextDoor).wires.map (fun x => (x.1, x.2.rcvd)) :=
    List.mem_map.mpr ⟨(c, w), mem_of_get hw, rfl⟩
  rw [hkeys] at hm
  simp only [List.mem_cons, List.not_mem_nil, or_false, Prod.mk.injEq] at hm
  rcases hm with ⟨rfl, hm⟩ | ⟨rfl, hm⟩
  · exact ⟨_, [], h1, by rw [hm]; rfl⟩
  · exact ⟨_, [0, 0, 1, 97, 0], h0, by rw [hm]; rfl⟩

theorem exSay_apart : KeepApart (· = 0) exSay := by
  have hv : ValidTopic (str "g") := (C22_publish_topic_iff _).mp (by decide +kernel)
  have no : ∀ t, topicMatchesFilter t (splitLevels (str "a")) = false → ¬ Matches (str "a") t := by
    intro t ht hm
    rw [(topicMatches_iff _ _ ((C23_filter_iff (str "a")).mp (by decide +kernel))).mpr hm] at ht
    cases ht
  have hother : ∀ d, ¬ d = 0 → exSay d = exSay 1 := by
    intro d hd
    cases d with
    | zero => exact absurd rfl hd
    | succ d => rfl
  have hcon : ∀ c p, .connect p ∈ exSay c → (c = 0 ∧ p.payload.clientId = str "x" ∨ ¬ c = 0 ∧ p.payload.clientId = str "y") ∧
      ∀ w, willIn p = some w → w.topic = str "g" := by
    intro c p hp
    by_cases hc : c = 0
    · subst hc
      simp only [exSay, List.mem_cons, Packet.connect.injEq, reduceCtorEq, List.not_mem_nil, or_false] at hp
      subst hp
      exact ⟨Or.inl ⟨rfl, rfl⟩, fun w hw => by cases hw; rfl⟩
    · rw [hother c hc] at hp
      simp only [exSay, List.mem_cons, Packet.connect.injEq, reduceCtorEq, List.not_mem_nil, or_false] at hp
      subst hp
      exact ⟨Or.inr ⟨hc, rfl⟩, fun w hw => by cases hw; rfl⟩
  have hsub : ∀ c p x, .subscribe p ∈ exSay c → x ∈ p.payload → x.topicFilter = str "a" := by
    intro c p x hp hx
    by_cases hc : c = 0
    · subst hc
      simp only [exSay, List.mem_cons, Packet.subscribe.injEq, reduceCtorEq, List.not_mem_nil, or_false, false_or] at hp
      subst hp
      simp only [List.mem_cons, List.not_mem_nil, or_false] at hx
      subst hx; rfl
    · rw [hother c hc] at hp
      simp only [exSay, List.mem_cons, reduceCtorEq, List.not_mem_nil, or_false] at hp
  refine ⟨fun c p hp => ?_, fun c d p q hc hd hp hq => ?_, fun c p w hp hw => ?_, fun c d p q x hc hd hp hx hq => ?_,
    fun c d p q x w hc hd hp hx hq hw => ?_⟩
  · rcases (hcon c p hp).1 with ⟨_, h⟩ | ⟨_, h⟩ <;> rw [h] <;> decide
  · rcases (hcon c p hp).1 with ⟨_, h⟩ | ⟨h', _⟩
    · rcases (hcon d q hq).1 with ⟨h', _⟩ | ⟨_, h'⟩
      · exact absurd h' hd
      · rw [h, h']; decide
    · exact absurd hc h'
  · rw [(hcon c p hp).2 w hw]; exact hv
  · rw [hsub c p x hp hx]
    rw [hother d hd] at hq
    simp only [exSay, List.mem_cons, Packet.publish.injEq, reduceCtorEq, List.not_mem_nil, or_false, false_or] at hq
    subst hq
    exact no _ (by decide +kernel)
  · rw [hsub c p x hp hx, (hcon d q hq).2 w hw]
    exact no _ (by decide +kernel)

example : ∃ tr b, Plain.new.Goes {} tr b ∧ (∀ x ∈ tr, Among (· = 0) x.1) ∧
    ∀ c w, c = 0 → (Net.init.run .debug {} exNextDoor).wires.get c = some w → ShowsAt .debug {} (Net.init.run .debug {} exNextDoor) tr c w := by
  refine C135_bytes .debug {} exNextDoor (fun c b h => ?_) (· = 0) exSay exSay_sent exSay_apart
  simp only [exNextDoor, exTwoPieces, List.cons_append, List.nil_append, List.mem_cons, List.not_mem_nil, or_false, reduceCtorEq, false_or,
    NetEvent.data.injEq] at h
  rcases h with ⟨_, rfl⟩ | ⟨_, rfl⟩ | ⟨_, rfl⟩ | ⟨_, rfl⟩ <;> decide

/-- Both are served. -/
example : ((Net.init.run .debug {} exNextDoor).wires.map fun x => (x.1, x.2.running, x.2.sent)) =
    [(1, true, [0x20, 3, 0, 0, 0]), (0, true, [0x20, 3, 0, 0, 0])] := by decide +kernel

end Mercurio
