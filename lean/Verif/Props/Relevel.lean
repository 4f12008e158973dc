import Verif.Lemmas.Relevel
import Verif.Props.Renaming

/-!
# C126: topics are only taken apart into levels and compared
-/

namespace Mercurio

open Spec Server

/-- C126: the levels of topics are nothing but names to the server: if they are renamed throughout a history, in
publications, wills, subscriptions and unsubscriptions, then the server sends exactly the same packets at the same events,
with the topics renamed in the same way. -/
theorem C126_levels (n : LevelNames) (cfg : AuthConfig) (es : List Event) :
    outputs cfg Server.init (es.map (relevelEvent n)) = (outputs cfg Server.init es).map (relevelOut n) := by
  have key : ∀ (es : List Event) (srv : Server),
      outputs cfg (srv.relevel n) (es.map (relevelEvent n)) = (outputs cfg srv es).map (relevelOut n) := by
    intro es
    induction es with
    | nil => intro srv; rfl
    | cons e es ih =>
      intro srv
      simp only [List.map_cons, outputs, relevel_step, ih]
  have := key es Server.init
  rwa [relevel_init] at this

/-! ## Example -/

/-- The levels "home" and "$SYS" are exchanged. -/
def exExchanged : LevelNames where
  level l := if l = str "home" then str "$SYS" else if l = str "$SYS" then str "home" else l
  topic t := [slash].intercalate
    ((splitLevels t).map fun l => if l = str "home" then str "$SYS" else if l = str "$SYS" then str "home" else l)
  inj a b h := by
    have hne : str "home" ≠ str "$SYS" := by decide +kernel
    by_cases h1 : a = str "home" <;> by_cases h2 : b = str "home" <;> by_cases h3 : a = str "$SYS" <;>
      by_cases h4 : b = str "$SYS" <;> simp_all
  length l := by
    split
    · next h => rw [h]; decide +kernel
    · split
      · next h => rw [h]; decide +kernel
      · rfl
  keeps l := by
    split
    · next h => rw [h]; decide +kernel
    · split
      · next h => rw [h]; decide +kernel
      · exact fun _ _ => Iff.rfl
  levelwise t ls h := by
    have hl := (isLevels_iff t ls).mp h
    subst hl
    refine ⟨by simpa using h.nonempty, ?_, rfl⟩
    intro l hl
    obtain ⟨l', h', rfl⟩ := List.mem_map.mp hl
    split
    · decide +kernel
    · split
      · decide +kernel
      · exact h.no_slash _ h'

/-- A client with a will subscribes, a retained message is published, another client subscribes late, the first is cut off. -/
def exHome : List Event :=
  [.first 0 (.connect (exConnect (str "x") true)) (str "i") true,
   .recv 0 (.subscribe ⟨7, none, [⟨str "home/+", {}⟩, ⟨str "home/#/a", {}⟩]⟩),
   .recv 0 (.publish { qos := .atLeastOnce, retain := true, topicName := str "home/a", packetId := some 9, payload := some [1] }),
   .deliver 0 (str "home/+"),
   .first 1 (.connect (exConnect (str "y") true)) (str "j") true,
   .recv 1 (.subscribe ⟨8, none, [⟨str "home/#", {}⟩]⟩),
   .deliver 1 (str "home/#"),
   .recv 1 (.unsubscribe ⟨10, none, [str "home/#", str "$SYS/#"]⟩)]

/-- What is sent to the two clients, and what is sent to them under the other topics. -/
example : (outputs exCfg Server.init exHome).flatMap (·.sent) =
      [.connAck { protocolVersion := .v5 },
       .subAck { protocolVersion := .v5, packetId := 7, payload := [.grantedQoS0, .topicFilterInvalid] },
       .pubAck { packetId := 9 },
       .publish { qos := .atLeastOnce, topicName := str "home/+", packetId := some 9, payload := some [1] },
       .connAck { protocolVersion := .v5 },
       .subAck { protocolVersion := .v5, packetId := 8, payload := [.grantedQoS0] },
       .publish { qos := .atLeastOnce, topicName := str "home/#", packetId := some 9, payload := some [1] },
       .unsubAck { protocolVersion := .v5, packetId := 10, payload := [.success, .noSubscriptionExisted] }] ∧
    (outputs exCfg Server.init (exHome.map (relevelEvent exExchanged))).flatMap (·.sent) =
      [.connAck { protocolVersion := .v5 },
       .subAck { protocolVersion := .v5, packetId := 7, payload := [.grantedQoS0, .topicFilterInvalid] },
       .pubAck { packetId := 9 },
       .publish { qos := .atLeastOnce, topicName := str "$SYS/+", packetId := some 9, payload := some [1] },
       .connAck { protocolVersion := .v5 },
       .subAck { protocolVersion := .v5, packetId := 8, payload := [.grantedQoS0] },
       .publish { qos := .atLeastOnce, topicName := str "$SYS/#", packetId := some 9, payload := some [1] },
       .unsubAck { protocolVersion := .v5, packetId := 10, payload := [.success, .noSubscriptionExisted] }] := by
  refine ⟨by decide +kernel, by decide +kernel⟩

end Mercurio
