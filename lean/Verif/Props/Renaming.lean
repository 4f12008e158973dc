import Verif.Lemmas.Renaming
import Verif.Props.Payloads

/-!
# C125: identifiers are only compared
-/

namespace Mercurio

open Spec Server

/-- C125: client identifiers and packet identifiers are nothing but names to the server: if they are renamed throughout a
history, different ones to different ones, then the server sends exactly the same packets at the same events, with the
identifiers renamed in the same way. -/
theorem C125_names (g : Renaming) (cfg : AuthConfig) (es : List Event) :
    outputs cfg Server.init (es.map (renameEvent g)) = (outputs cfg Server.init es).map (renameOut g) := by
  have key : ∀ (es : List Event) (srv : Server),
      outputs cfg (srv.rename g) (es.map (renameEvent g)) = (outputs cfg srv es).map (renameOut g) := by
    intro es
    induction es with
    | nil => intro srv; rfl
    | cons e es ih =>
      intro srv
      simp only [List.map_cons, outputs, rename_step, ih]
  have := key es Server.init
  rwa [rename_init] at this

/-! ## Example -/

/-- Client identifiers get a prefix, packet identifiers are moved by one. -/
def exPrefixed : Renaming where
  client s := if s = [] then [] else str "client-" ++ s
  packet i := i + 1
  client_inj a b h := by
    by_cases ha : a = [] <;> by_cases hb : b = []
    · rw [ha, hb]
    · rw [if_pos ha, if_neg hb] at h
      have := congrArg List.length h
      rw [List.length_append, show (str "client-").length = 7 by decide +kernel, List.length_nil] at this
      omega
    · rw [if_neg ha, if_pos hb] at h
      have := congrArg List.length h
      rw [List.length_append, show (str "client-").length = 7 by decide +kernel, List.length_nil] at this
      omega
    · rw [if_neg ha, if_neg hb] at h
      exact List.append_cancel_left h
  client_empty := by simp
  packet_inj a b h := by
    have := congrArg (fun x => x - 1) h
    simpa using this

/-- A client without identifier subscribes, another one publishes, and the message is forwarded. -/
def exChat : List Event :=
  [.first 0 (.connect (exConnect [] true)) (str "i") true,
   .recv 0 (.subscribe ⟨7, none, [⟨str "a/+", {}⟩]⟩),
   .first 1 (.connect (exConnect (str "y") true)) (str "j") true,
   .recv 1 (.publish { qos := .atLeastOnce, topicName := str "a/b", packetId := some 9, payload := some [1] }),
   .deliver 0 (str "a/+")]

/-- The identifiers in what is sent to the two clients, and to the renamed ones. -/
example : (outputs exCfg Server.init exChat).flatMap (·.sent) =
      [.connAck { protocolVersion := .v5, properties := some { assignedClientId := some (str "i") } },
       .subAck { protocolVersion := .v5, packetId := 7, payload := [.grantedQoS0] },
       .connAck { protocolVersion := .v5 },
       .pubAck { packetId := 9 },
       .publish { qos := .atLeastOnce, topicName := str "a/+", packetId := some 9, payload := some [1] }] ∧
    (outputs exCfg Server.init (exChat.map (renameEvent exPrefixed))).flatMap (·.sent) =
      [.connAck { protocolVersion := .v5, properties := some { assignedClientId := some (str "client-i") } },
       .subAck { protocolVersion := .v5, packetId := 8, payload := [.grantedQoS0] },
       .connAck { protocolVersion := .v5 },
       .pubAck { packetId := 10 },
       .publish { qos := .atLeastOnce, topicName := str "a/+", packetId := some 10, payload := some [1] }] := by
  refine ⟨by decide +kernel, by decide +kernel⟩

end Mercurio
