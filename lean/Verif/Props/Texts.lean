import Verif.Model.Texts

/-!
# C98: the texts of errors tell the errors apart
-/

namespace Mercurio

/-- All reason codes. -/
def reasonCodes : List ReasonCode :=
  [.success, .normalDisconnection, .grantedQoS0, .grantedQoS1, .grantedQoS2, .disconnectWithWillMessage,
   .noMatchingSubscribers, .noSubscriptionExisted, .continueAuthentication, .reAuthenticate, .unspecifiedError,
   .malformedPacket, .protocolError, .implementationSpecificError, .unsupportedProtocolVersion,
   .clientIdentifierNotValid, .badUserNameOrPassword, .notAuthorized, .serverUnavailable, .serverBusy, .banned,
   .serverShuttingDown, .badAuthenticationMethod, .keepAliveTimeout, .sessionTakenOver, .topicFilterInvalid,
   .topicNameInvalid, .packetIdentifierInUse, .packetIdentifierNotFound, .receiveMaximumExceeded,
   .topicAliasInvalid, .packetTooLarge, .messageRateTooHigh, .quotaExceeded, .administrativeAction,
   .payloadFormatInvalid, .retainNotSupported, .qoSNotSupported, .useAnotherServer, .serverMoved,
   .sharedSubscriptionsNotSupported, .connectionRateExceeded, .maximumConnectTime,
   .subscriptionIdentifiersNotSupported, .wildcardSubscriptionsNotSupported]

theorem text_injective : ∀ r r' : ReasonCode, r.text = r'.text → r = r' := by
  have h : ∀ r : ReasonCode, reasonCodes.find? (fun x => x.text == r.text) = some r := by
    intro r; cases r <;> decide +kernel
  intro r r' e
  have h1 := h r
  rw [e, h r'] at h1
  exact (Option.some.inj h1).symm

theorem name_injective : ∀ r r' : ReasonCode, r.name = r'.name → r = r' := by
  have h : ∀ r : ReasonCode, reasonCodes.find? (fun x => x.name == r.name) = some r := by
    intro r; cases r <;> decide +kernel
  intro r r' e
  have h1 := h r
  rw [e, h r'] at h1
  exact (Option.some.inj h1).symm

theorem take_tag (n : Nat) (tag rest : Str) (h : n ≤ tag.length) : (tag ++ rest).take n = tag.take n :=
  List.take_append_of_le_length h

/-- Texts that begin differently are different. -/
theorem begin_ne {tag tag' : Str} (n : Nat) (h : n ≤ tag.length ∧ n ≤ tag'.length ∧ tag.take n ≠ tag'.take n)
    (rest rest' : Str) : tag ++ rest ≠ tag' ++ rest' := by
  intro e
  have := congrArg (List.take n) e
  rw [take_tag _ _ _ h.1, take_tag _ _ _ h.2.1] at this
  exact h.2.2 this

theorem coreText_injective (e e' : CoreError) (h : e.text = e'.text) : e = e' := by
  have key : ∀ {a b : String} (n : Nat), n ≤ (str a).length ∧ n ≤ (str b).length ∧ (str a).take n ≠ (str b).take n →
      ∀ r r' : Str, str a ++ r = str b ++ r' → e = e' := fun n hn r r' h => absurd h (begin_ne n hn r r')
  have key0 : ∀ {a b : String} (n : Nat), n ≤ (str a).length ∧ n ≤ (str b).length ∧ (str a).take n ≠ (str b).take n →
      ∀ r : Str, str a ++ r = str b → e = e' := fun n hn r h =>
    absurd (show str _ ++ r = str _ ++ [] by rw [List.append_nil]; exact h) (begin_ne n hn r [])
  have key1 : ∀ {a b : String} (n : Nat), n ≤ (str a).length ∧ n ≤ (str b).length ∧ (str a).take n ≠ (str b).take n →
      ∀ r : Str, str a = str b ++ r → e = e' := fun n hn r h =>
    absurd (show str _ ++ [] = str _ ++ r by rw [List.append_nil]; exact h) (begin_ne n hn [] r)
  cases e <;> cases e' <;>
    first
    | rfl
    | exact congrArg CoreError.io (List.append_cancel_left h)
    | exact congrArg CoreError.storage (List.append_cancel_left h)
    | exact congrArg CoreError.mqtt (text_injective _ _ (List.append_cancel_left h))
    | exact key 1 (by decide +kernel) _ _ h
    | exact key0 1 (by decide +kernel) _ h
    | exact key1 1 (by decide +kernel) _ h

theorem apiText_injective (e e' : ApiError) (h : e.text = e'.text) : e = e' := by
  have key : ∀ {a b : String} (n : Nat), n ≤ (str a).length ∧ n ≤ (str b).length ∧ (str a).take n ≠ (str b).take n →
      ∀ r r' : Str, str a ++ r = str b ++ r' → e = e' := fun n hn r r' h => absurd h (begin_ne n hn r r')
  have key0 : ∀ {a b : String} (n : Nat), n ≤ (str a).length ∧ n ≤ (str b).length ∧ (str a).take n ≠ (str b).take n →
      ∀ r : Str, str a ++ r = str b → e = e' := fun n hn r h =>
    absurd (show str _ ++ r = str _ ++ [] by rw [List.append_nil]; exact h) (begin_ne n hn r [])
  have key1 : ∀ {a b : String} (n : Nat), n ≤ (str a).length ∧ n ≤ (str b).length ∧ (str a).take n ≠ (str b).take n →
      ∀ r : Str, str a = str b ++ r → e = e' := fun n hn r h =>
    absurd (show str _ ++ [] = str _ ++ r by rw [List.append_nil]; exact h) (begin_ne n hn [] r)
  have key2 : ∀ {a b : String}, str a ≠ str b → str a = str b → e = e' := fun hn h => absurd h hn
  cases e <;> cases e' <;>
    first
    | rfl
    | exact congrArg ApiError.io (List.append_cancel_left h)
    | exact congrArg ApiError.connectionFailed (List.append_cancel_left h)
    | exact congrArg ApiError.connectionRefused (name_injective _ _ (List.append_cancel_left h))
    | exact congrArg ApiError.protocol (List.append_cancel_left h)
    | exact congrArg ApiError.packet (coreText_injective _ _ (List.append_cancel_left h))
    | exact congrArg ApiError.invalidTopic (List.append_cancel_left h)
    | exact congrArg ApiError.tls (List.append_cancel_left h)
    | exact key 2 (by decide +kernel) _ _ h
    | exact key 12 (by decide +kernel) _ _ h
    | exact key0 2 (by decide +kernel) _ h
    | exact key1 2 (by decide +kernel) _ h
    | exact key2 (by decide +kernel) h

/-- C98: two reason codes, topic errors, protocol versions, errors of the library or errors of the client
with the same text are the same. -/
theorem C98_texts :
    (∀ r r' : ReasonCode, r.text = r'.text → r = r') ∧
    (∀ e e' : TopicError, e.text = e'.text → e = e') ∧
    (∀ v v' : ProtocolVersion, v.text = v'.text → v = v') ∧
    (∀ e e' : CoreError, e.text = e'.text → e = e') ∧
    (∀ e e' : ApiError, e.text = e'.text → e = e') := by
  refine ⟨text_injective, ?_, ?_, coreText_injective, apiText_injective⟩
  · intro e e' h
    cases e <;> cases e' <;> first | rfl | exact absurd h (by decide +kernel)
  · intro e e' h
    cases e <;> cases e' <;> first | rfl | exact absurd h (by decide +kernel)

/-- C98: an error names its cause: the text of a protocol error ends with that of its reason code, the
text of an I/O or storage error with that of the cause, and only an I/O error has one behind it; and this is so of the
errors that `?` makes of reason codes and I/O errors. -/
theorem C98_cause (e : CoreError) :
    (∀ r, e = .mqtt r → r.text <:+ e.text) ∧ (∀ s, e = .io s → s <:+ e.text ∧ e.source = some s) ∧
    (∀ s, e = .storage s → s <:+ e.text) ∧ (e.source ≠ none → ∃ s, e = .io s) ∧
    e.text <:+ (ApiError.packet e).text ∧ (∀ r, r.text <:+ (CoreError.ofReason r).text) ∧
    (∀ s, s <:+ (CoreError.ofIo s).text ∧ (CoreError.ofIo s).source = some s) := by
  refine ⟨?_, ?_, ?_, ?_, ?_, fun _ => ⟨_, rfl⟩, fun _ => ⟨⟨_, rfl⟩, rfl⟩⟩
  · rintro r rfl; exact ⟨_, rfl⟩
  · rintro s rfl; exact ⟨⟨_, rfl⟩, rfl⟩
  · rintro s rfl; exact ⟨_, rfl⟩
  · intro h
    cases e with
    | io s => exact ⟨s, rfl⟩
    | _ => exact absurd rfl h
  · exact ⟨_, rfl⟩

example : ApiError.text (.packet (.mqtt .protocolError)) = str "Packet error: MQTT Error: Protocol error" ∧
    ApiError.text (.connectionRefused .notAuthorized) = str "Connection refused: NotAuthorized" := by decide +kernel

/-- C21: the level byte of a version stands for that version; a byte that is no level stands for MQTT 5;
reason codes and AUTH exist in MQTT 5 only. -/
theorem C21_level_byte (v : ProtocolVersion) (b : UInt8) :
    ProtocolVersion.ofByte v.level = v ∧ (b ≠ 3 → b ≠ 4 → ProtocolVersion.ofByte b = .v5) ∧
    (v.supportsReasonCodes = true ↔ v = .v5) ∧ (v.supportsAuthPacket = true ↔ v = .v5) := by
  refine ⟨by cases v <;> decide +kernel, fun h3 h4 => ?_, by cases v <;> decide, by cases v <;> decide⟩
  simp [ProtocolVersion.ofByte, h3, h4]

example : ProtocolVersion.ofByte 4 = .v3_1_1 ∧ ProtocolVersion.ofByte 9 = .v5 := by decide +kernel

end Mercurio
