import Verif.Props.Net

/-!
# C64: hostile peers, over any length of time
-/

namespace Mercurio

open Spec Server

/-- C64: however many other peers do whatever they like for however long, a connection stays as it is: the same bytes
are buffered and have been written, it stays open (or closed) with the same client, and its session is unchanged if
none of them gives, or is about to give in its CONNECT, the identifier of its client. -/
theorem C64_hostile_peers (m : Mode) (cfg : AuthConfig) (ns : List NetEvent) (c : Nat) (rest : List NetEvent)
    (hd : ShortChunks (ns ++ rest)) (hne : ∀ e ∈ rest, e.conn ≠ c) :
    let n := Net.init.run m cfg ns
    let n' := n.run m cfg rest
    n'.wires.get c = n.wires.get c ∧ n'.server.clientOf c = n.server.clientOf c ∧
    ∀ id, n.server.clientOf c = some id →
      (∀ r1 e r2, rest = r1 ++ e :: r2 → (n.run m cfg r1).server.clientOf e.conn ≠ some id ∧
        ∀ w p x, (n.run m cfg r1).wires.get e.conn = some w → parsePacket m w.buf = .packet (.connect p) x →
          p.payload.clientId ≠ id) →
      n'.server.at c = n.server.at c := by
  induction rest using snoc_induction with
  | h0 => exact ⟨rfl, rfl, fun _ _ _ => rfl⟩
  | hs l e ih =>
    have hd' : ShortChunks (ns ++ l) := fun c b h => hd c b (by
      rcases List.mem_append.mp h with h | h
      · exact List.mem_append_left _ h
      · exact List.mem_append_right _ (List.mem_append_left _ h))
    obtain ⟨h1, h2, h3⟩ := ih hd' (fun e he => hne e (List.mem_append_left _ he))
    have hrun : (Net.init.run m cfg ns).run m cfg l = Net.init.run m cfg (ns ++ l) := by simp [Net.run]
    have key := C64_hostile_peer m cfg (ns ++ l) hd' e c (Ne.symm (hne e (by simp)))
    rw [← hrun] at key
    obtain ⟨k1, k2, k3⟩ := key
    simp only
    rw [Net.run_snoc]
    refine ⟨k1.trans h1, k2.trans h2, fun id hid ho => ?_⟩
    obtain ⟨o1, o2⟩ := ho l e [] rfl
    exact (k3 id (h2.trans hid) o1 o2).trans
      (h3 id hid fun r1 e' r2 h => ho r1 e' (r2 ++ [e]) (by rw [h]; simp))

/-- Three peers: one sends rubbish and panics its handler, one sends half a packet, one connects under another name. -/
def exPeers : List NetEvent :=
  [.accept 1, .data 1 [0x20, 0], .accept 2, .turn 1 (str "v") true, .data 2 [0x10, 14, 0], .accept 3,
   .data 3 [0x10, 14, 0, 4, 77, 81, 84, 84, 5, 0, 0, 60, 0, 0, 1, 121], .turn 3 (str "v") true, .close 2]

/-- Whether the identifier of the client is not used by others, computed. -/
def othersB (m : Mode) (cfg : AuthConfig) (id : Str) : Net → List NetEvent → Bool
  | _, [] => true
  | n, e :: es => n.server.clientOf e.conn != some id &&
    (match n.wires.get e.conn with
      | some w => match parsePacket m w.buf with
        | .packet (.connect p) _ => p.payload.clientId != id
        | _ => true
      | none => true) && othersB m cfg id (n.step m cfg e) es

example : (∀ e ∈ exPeers, e.conn ≠ 0) ∧ (Net.init.run .debug {} exChunks).server.clientOf 0 = some (str "x") ∧
    othersB .debug {} (str "x") (Net.init.run .debug {} exChunks) exPeers = true ∧
    (((Net.init.run .debug {} exChunks).run .debug {} exPeers).server.at 0).map (·.filters) = some [str "a"] := by
  decide +kernel

end Mercurio
