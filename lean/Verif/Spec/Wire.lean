/-!
# Specification: MQTT wire vocabulary

Definitions taken from the MQTT standard, independent of the model.
-/

namespace Mercurio.Spec

/-- Little-endian base-128 value of the low seven bits of the bytes (MQTT 5, 1.5.5). -/
def base128 : List UInt8 → Nat
  | [] => 0
  | b :: bs => b.toNat % 128 + 128 * base128 bs

/-- The byte announces that another byte follows (MQTT 5, 1.5.5). -/
def Continues (b : UInt8) : Prop := 128 ≤ b.toNat

instance (b : UInt8) : Decidable (Continues b) := inferInstanceAs (Decidable (_ ≤ _))

/-- The 43 reason code bytes assigned by MQTT 5, 2.4. -/
def assignedReasons : List Nat :=
  [0x00, 0x01, 0x02, 0x04, 0x10, 0x11, 0x18, 0x19] ++ (List.range 35).map (0x80 + ·)

/-- Big-endian two-byte length prefix followed by the data (MQTT 5, 1.5.4 and 1.5.6). -/
def field (x : List UInt8) : List UInt8 :=
  UInt8.ofNat (x.length / 256) :: UInt8.ofNat (x.length % 256) :: x

/-- Variable byte integer: seven bits per byte, least significant first, high bit set on all bytes but
the last (the encoding algorithm of MQTT 5, 1.5.5). -/
def vbi (n : Nat) : List UInt8 :=
  if n < 128 then [UInt8.ofNat n] else UInt8.ofNat (128 + n % 128) :: vbi (n / 128)
termination_by n

/-- Two byte integer, most significant byte first (MQTT 5, 1.5.2). -/
def be16 (n : Nat) : List UInt8 := [UInt8.ofNat (n / 256), UInt8.ofNat (n % 256)]

/-- Four byte integer, most significant byte first (MQTT 5, 1.5.3). -/
def be32 (n : Nat) : List UInt8 := be16 (n / 65536) ++ be16 (n % 65536)

end Mercurio.Spec
