import Verif.Lemmas.Listen
import Verif.Props.Order

/-! # C135: those nobody listens to -/

namespace Mercurio

open Spec Server Classical

theorem trace_among (cfg : AuthConfig) : ∀ (es : List Event) (srv : Server), ∀ x ∈ srv.trace cfg es, x.1 ∈ es
  | [], _, _, h => (by cases h)
  | e :: es, srv, x, h => by
    rcases List.mem_cons.mp h with rfl | h
    · exact List.mem_cons_self
    · exact List.mem_cons_of_mem _ (trace_among cfg es _ x h)

/-- C135: clients that nobody in a group listens to make no difference to the group.  In every history in which the others have names of
their own and publish (also as will) nothing that matches a filter the group subscribes to, what the group is sent is what a
plain broker may send that serves the group alone.  (The others may listen to the group.) -/
theorem C135_alone (cfg : AuthConfig) (es : List Event) (hp : ProperWills es) (A : Nat → Prop) (hn : OwnNames A es) (hu : Unheard A es) :
    ∃ b, Plain.new.Goes cfg ((Server.init.trace cfg es).filter fun x => Among A x.1) b := by
  obtain ⟨b, hb⟩ := C133_refines cfg es hp
  refine goes_apart cfg hn hu rfl rfl hb (trace_among cfg es _) ?_ ?_
  · exact ⟨fun c n h => (by cases h), fun k n h => (by cases h), fun n s f h => (by cases h), fun k fs f _ h => (by cases h),
      fun n s w h => (by cases h), fun k w _ h => (by cases h)⟩
  · exact ⟨fun _ _ => rfl, fun _ _ => rfl, fun _ _ => rfl, fun _ _ => rfl, fun _ _ => rfl, fun n s h => (by cases h), fun _ _ => rfl, fun _ _ => rfl⟩

/-- One client talks to itself, another one listens to everything and publishes elsewhere. -/
def exNeighbours : List Event :=
  [.first 0 (.connect (exConnect (str "x") true)) (str "uuid") true,
   .recv 0 (.subscribe ⟨1, none, [⟨str "a/+", {}⟩]⟩),
   .first 1 (.connect (exConnect (str "y") true)) (str "v") true,
   .recv 1 (.subscribe ⟨1, none, [⟨str "#", {}⟩]⟩),
   .recv 1 (.publish exElsewhere), .recv 0 (.publish exPublish), .deliver 0 (str "a/+"), .deliver 1 (str "#"), .close 1,
   .restart, .first 2 (.connect (exConnect (str "x") false)) (str "w") true]

theorem exNeighbours_proper : ProperWills exNeighbours := by
  have ht : ValidTopic (str "gone") := (C22_publish_topic_iff _).mp (by decide +kernel)
  intro c p uuid written w hm hw
  simp only [exNeighbours, List.mem_cons, Event.first.injEq, Packet.connect.injEq, reduceCtorEq, false_or, or_false, List.not_mem_nil] at hm
  rcases hm with ⟨_, rfl, _⟩ | ⟨_, rfl, _⟩ | ⟨_, rfl, _⟩ <;> (cases hw; exact ht)

theorem exNeighbours_names : OwnNames (· ≠ 1) exNeighbours := by
  intro c p u x d q v y hc hd h1 h2
  simp only [exNeighbours, List.mem_cons, Event.first.injEq, Packet.connect.injEq, reduceCtorEq, false_or, or_false, List.not_mem_nil] at h1 h2
  have hd : d = 1 := Classical.byContradiction hd
  rcases h1 with ⟨rfl, rfl, rfl, _⟩ | ⟨rfl, rfl, rfl, _⟩ | ⟨rfl, rfl, rfl, _⟩ <;>
    rcases h2 with ⟨rfl, rfl, rfl, _⟩ | ⟨rfl, rfl, rfl, _⟩ | ⟨rfl, rfl, rfl, _⟩ <;>
    first | (exact absurd rfl hc) | (cases hd; done) | decide +kernel

theorem exNeighbours_unheard : Unheard (· ≠ 1) exNeighbours := by
  have hf : ∀ f, FilterOf (· ≠ 1) exNeighbours f → f = str "a/+" := by
    rintro f ⟨c, p, hc, hm, hf⟩
    simp only [exNeighbours, List.mem_cons, Event.recv.injEq, Packet.subscribe.injEq, reduceCtorEq, false_or, or_false, and_false, List.not_mem_nil] at hm
    rcases hm with ⟨rfl, rfl⟩ | ⟨rfl, rfl⟩
    · simpa using hf
    · exact absurd rfl hc
  have no : ∀ t, topicMatchesFilter t (splitLevels (str "a/+")) = false → ¬ Matches (str "a/+") t := by
    intro t ht hm
    rw [(topicMatches_iff _ _ ((C23_filter_iff (str "a/+")).mp (by decide +kernel))).mpr hm] at ht
    cases ht
  constructor
  · intro f d q h hd hm
    rw [hf f h]
    simp only [exNeighbours, List.mem_cons, Event.recv.injEq, Packet.publish.injEq, reduceCtorEq, false_or, or_false, and_false, List.not_mem_nil] at hm
    rcases hm with ⟨rfl, rfl⟩ | ⟨rfl, rfl⟩
    · exact no _ (by decide +kernel)
    · exact absurd (by decide) hd
  · intro f d q u x w h hd hm hw
    rw [hf f h]
    simp only [exNeighbours, List.mem_cons, Event.first.injEq, Packet.connect.injEq, reduceCtorEq, false_or, or_false, List.not_mem_nil] at hm
    rcases hm with ⟨_, rfl, _⟩ | ⟨_, rfl, _⟩ | ⟨_, rfl, _⟩ <;> (cases hw; exact no _ (by decide +kernel))

example : ∃ b, Plain.new.Goes exCfg ((Server.init.trace exCfg exNeighbours).filter fun x => Among (· ≠ 1) x.1) b :=
  C135_alone exCfg exNeighbours exNeighbours_proper _ exNeighbours_names exNeighbours_unheard

/-- What the group is sent here: the CONNACK, the SUBACK, the answer and the message of its own, and after the restart the CONNACK and the unacknowledged message again. -/
example : ((Server.init.trace exCfg exNeighbours).filter fun x => x.1 matches .first 0 .. | .recv 0 _ | .deliver 0 _ | .first 2 ..).map
    (fun x => x.2.sent.length) = [1, 1, 1, 1, 2] ∧
    ((Server.init.trace exCfg exNeighbours).filter fun x => x.1 matches .deliver 1 _).map (fun x => x.2.sent.length) = [1] := by
  decide +kernel

end Mercurio
