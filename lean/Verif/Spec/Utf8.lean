/-!
# Specification: valid UTF-8

Uses only Lean's own definition of the UTF-8 encoding of a character (Unicode scalar value).
-/

namespace Mercurio.Spec

/-- The bytes are the UTF-8 encoding of some sequence of Unicode scalar values. -/
def IsUtf8 (bytes : List UInt8) : Prop :=
  ∃ cs : List Char, bytes = cs.flatMap String.utf8EncodeChar

/-- A string that fits an MQTT text field: valid UTF-8, at most 65535 bytes. -/
def TextField (bytes : List UInt8) : Prop := IsUtf8 bytes ∧ bytes.length ≤ 65535

/-- A value that fits an MQTT binary field: at most 65535 bytes. -/
def BinaryField (bytes : List UInt8) : Prop := bytes.length ≤ 65535

end Mercurio.Spec
