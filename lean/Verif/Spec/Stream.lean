import Verif.Spec.Packets

/-! # Specification: packets in transit -/

namespace Mercurio

/-- A list of packets and the bytes they were sent as. -/
inductive Sent : List Packet → Buf → Prop
  | nil : Sent [] []
  | cons {p : Packet} {bytes : Buf} {ps : List Packet} {bs : Buf} : p.Survives →
      p.encode = .ok bytes → FitsMqtt bytes → Sent ps bs → Sent (p :: ps) (bytes ++ bs)

/-- Bytes of an unfinished packet: a strict prefix of the bytes of some packet. -/
def Unfinished (t : Buf) : Prop :=
  ∃ p bytes k, Packet.encode p = .ok bytes ∧ FitsMqtt bytes ∧ k < bytes.length ∧ t = bytes.take k

/-- Chunks as the network delivers them: none empty, none as large as 2 GiB. -/
def Chunks (cs : List Buf) : Prop := ∀ c ∈ cs, c ≠ [] ∧ c.length ≤ 2 ^ 31

end Mercurio
