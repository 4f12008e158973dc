import Verif.Props.Broker
import Verif.Props.Session

/-!
# C83, C85: topics and filters beginning with a dollar sign
-/

namespace Mercurio

open Spec

/-- C83 is false, always: after any history, a subscription whose filter begins with a wildcard is given
every publication to a topic beginning with `$` that the filter would match if `$` were an ordinary
character. -/
theorem C83_live_false {T : Type} (before between : List (TreeOp T)) (f topic : Str) (v : T)
    (hv : ∀ p ∈ publications between, ValidTopic p.1) (ht : ValidTopic topic)
    (_hd : topic.head? = some 0x24) (_hw : f.head? = some 0x2b ∨ f.head? = some 0x23) (hm : Matches f topic) :
    let s := TopicTree.subscribe (TreeOp.run TopicTree.new before) f
    let t := TreeOp.run s.1 between
    pending (TopicTree.publish t topic v) s.2 = pending t s.2 ++ [v] := by
  intro s t
  rw [C24_one before between f topic v hv ht, if_pos hm]

/-- C83 is false for retained messages in the same way: a new subscriber to a filter that begins with a
wildcard is given those of topics beginning with `$`. -/
theorem C83_retained_false (ops : List BrokerOp) (f topic : Str) (m : Message) (hf : ValidFilter f)
    (_hd : topic.head? = some 0x24) (_hw : f.head? = some 0x2b ∨ f.head? = some 0x23) (hm : Matches f topic)
    (hr : retainedOf topic (BrokerOp.publications ops) = some m) :
    m ∈ ((BrokerOp.run ops).subscribe f).2.2 := by
  obtain ⟨ts, _, h2, h3⟩ := C29_subscriber_gets_retained ops f hf
  rw [h3, List.mem_filterMap]
  exact ⟨topic, (h2 topic).mpr ⟨hm, by rw [hr]; rfl⟩, hr⟩

/-- C83, what holds: a filter that does not begin with a wildcard matches only topics with the same first
level; so it matches topics beginning with `$` only if it begins with `$` itself. -/
theorem C83_first_level_partial (f topic l l' : Str) (fl tl : List Str) (hf : IsLevels f (l :: fl))
    (ht : IsLevels topic (l' :: tl)) (h1 : l ≠ plusLevel) (h2 : l ≠ hashLevel) (hm : Matches f topic) :
    l' = l := by
  obtain ⟨fl', tl', hf', ht', hm⟩ := hm
  rw [← hf.unique hf', ← ht.unique ht'] at hm
  cases hm with
  | same => rfl
  | plus => exact absurd rfl h1
  | hash => exact absurd rfl h2

/-- The cases exist: `#` and `+/monitor` match `$SYS/monitor`. -/
example : ValidTopic (str "$SYS/monitor") ∧ (str "$SYS/monitor").head? = some 0x24 ∧
    ValidFilter (str "#") ∧ Matches (str "#") (str "$SYS/monitor") ∧
    Matches (str "+/monitor") (str "$SYS/monitor") := by
  refine ⟨(C22_publish_topic_iff _).mp (by decide +kernel), by decide +kernel,
    (C23_filter_iff _).mp (by decide +kernel), ?_, ?_⟩
  · rw [← topicMatches_iff _ _ ((C23_filter_iff _).mp (by decide +kernel))]; decide +kernel
  · rw [← topicMatches_iff _ _ ((C23_filter_iff _).mp (by decide +kernel))]; decide +kernel

example : ∃ ops : List BrokerOp, (retainedOf (str "$SYS/monitor") (BrokerOp.publications ops)).isSome :=
  ⟨[.publish (str "$SYS/monitor") ⟨none, str "$SYS/monitor", false, .atMostOnce, true, some [1]⟩],
    by decide +kernel⟩

/-- C85 is false, always: a shared subscription (a filter with first level `$share`) is granted like any
other, but after any history it is given no publication to a topic whose first level is not literally
`$share`, whatever the rest of the filter. -/
theorem C85_shared_false {T : Type} (before between : List (TreeOp T)) (f topic l : Str) (v : T)
    (fl tl : List Str) (hf : IsLevels f (str "$share" :: fl)) (hvf : ValidFilter f)
    (hv : ∀ p ∈ publications between, ValidTopic p.1) (ht : ValidTopic topic)
    (hl : IsLevels topic (l :: tl)) (hne : l ≠ str "$share") :
    (∀ (cfg : AuthConfig) (srv : Server) (c : Nat) (s : Session), srv.at c = some s → ∀ id opts props,
      (srv.step cfg (.recv c (.subscribe ⟨id, props, [⟨f, opts⟩]⟩))).2.sent =
        [.subAck ⟨s.connect.protocolVersion, id, none, [.grantedQoS0]⟩]) ∧
    let s := TopicTree.subscribe (TreeOp.run TopicTree.new before) f
    let t := TreeOp.run s.1 between
    pending (TopicTree.publish t topic v) s.2 = pending t s.2 := by
  constructor
  · intro cfg srv c s hs id opts props
    rw [(C37_subscribe cfg srv c s hs ⟨id, props, [⟨f, opts⟩]⟩).1]
    simp [subscribeCode, hvf]
  · intro s t
    rw [C24_one before between f topic v hv ht, if_neg, List.append_nil]
    intro hm
    exact hne (C83_first_level_partial f topic _ _ _ _ hf hl (by decide) (by decide) hm)

/-- A shared subscription to `news/+` for the group `g`, and a publication to `news/today`. -/
example : IsLevels (str "$share/g/news/+") [str "$share", str "g", str "news", str "+"] ∧
    ValidFilter (str "$share/g/news/+") ∧ ValidTopic (str "news/today") ∧
    IsLevels (str "news/today") [str "news", str "today"] :=
  ⟨(isLevels_iff _ _).mpr (by decide +kernel), (C23_filter_iff _).mp (by decide +kernel), (C22_publish_topic_iff _).mp (by decide +kernel), (isLevels_iff _ _).mpr (by decide +kernel)⟩

end Mercurio
