import Verif.Model.Cli
import Verif.Spec.Utf8

/-!
# Specification for the output of the command line tool
-/

namespace Mercurio.Spec

open Mercurio

/-- What the documentation of `String::from_utf8_lossy` says of it: valid UTF-8 stays as it is. -/
def KeepsText (lossy : Buf → Str) : Prop := ∀ b, IsUtf8 b → lossy b = b

/-- A message whose payload is a text, with no line feed in it nor in the topic it is given under, and no colon followed by a space in that
topic. -/
def PlainMessage : ClientEvent → Prop
  | .message t pl _ _ => IsUtf8 pl ∧ 10 ∉ pl ∧ 10 ∉ t ∧ ¬ str ": " <:+: t
  | .disconnected _ => False

/-- What the user wants to know of a message: its payload, and its topic if topics are asked for. -/
def whatArrived (withTopic : Bool) : ClientEvent → Option (Option Str × Buf)
  | .message t pl _ _ => some (if withTopic then some t else none, pl)
  | .disconnected _ => none

end Mercurio.Spec
