import Verif.Spec.Grammar

/-!
# Specification: the bytes that abort the reader

Which packets end where the reader still wants a byte that it takes without looking.  `n` is the
announced length, `body` is all that is in the buffer after the length.
-/

namespace Mercurio.Spec

/-- What follows the length of a packet with first byte `c` ends in such a place.

* CONNACK: nothing at all, or flags and no reason code.
* PUBACK, PUBREC, PUBREL, PUBCOMP: two bytes, but another length than 2 was announced.
* SUBSCRIBE: the last filter begins within the announced length and ends with the buffer.
* DISCONNECT: nothing at all, although something was announced.
* AUTH: nothing at all. -/
def CutShort (c : UInt8) (n : Nat) (body : Buf) : Prop :=
  (c.toNat / 16 = 2 ∧ body ∈ [[], [0], [1]]) ∨
  (c.toNat / 16 ∈ [4, 5, 6, 7] ∧ body.length = 2 ∧ n ≠ 2) ∨
  (c.toNat / 16 = 8 ∧ ∃ i x q es us f t, body = (be16 i ++ x ++ us) ++ t ∧ i < 65536 ∧ SubscribeBlock q x ∧
    ListOf SubscribePayload.Of es us ∧ TextOf f t ∧ (be16 i ++ x ++ us).length < n ∧ n ≤ body.length) ∨
  (c.toNat = 0xe0 ∧ 1 ≤ n ∧ body = []) ∨
  (c.toNat = 0xf0 ∧ body = [])

/-- The buffer holds a whole packet according to the announced length, if that was written in as few
bytes as possible. -/
def Whole (n : Nat) (b : Buf) : Prop := 1 + (vbi n).length + n ≤ b.length

end Mercurio.Spec
