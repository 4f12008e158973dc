import Verif.Model.PasswordFile

/-!
# What the password file properties talk about
-/

namespace Mercurio.Spec

/-- The white space characters of Unicode. -/
def White (c : Char) : Prop :=
  c.toNat ∈ [0x9, 0xa, 0xb, 0xc, 0xd, 0x20, 0x85, 0xa0, 0x1680, 0x2000, 0x2001, 0x2002, 0x2003, 0x2004,
    0x2005, 0x2006, 0x2007, 0x2008, 0x2009, 0x200a, 0x2028, 0x2029, 0x202f, 0x205f, 0x3000]

/-- A user name and hash that fit a line of the file: the name has no colon and does not start with
white space or a hash sign, the hash does not end with white space, and neither has a line feed. -/
structure Storable (user hash : Text) : Prop where
  noColon : ':' ∉ user
  oneLine : '\n' ∉ user ∧ '\n' ∉ hash
  start : ∀ c, user.head? = some c → ¬ White c ∧ c ≠ '#'
  stop : ∀ c, hash.getLast? = some c → ¬ White c

/-- A hash map yields its entries in some order. -/
def IterationOf (m : Map Text Text) (l : List (Text × Text)) : Prop := l.Perm m

end Mercurio.Spec
