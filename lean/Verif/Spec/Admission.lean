import Verif.Spec.Daemon
import Verif.Spec.System

/-! # Specification: who may use a broker that asks for credentials (C109) -/

namespace Mercurio.Spec

open Mercurio

/-- The credentials are accepted by this configuration. -/
def Accepts (cfg : AuthConfig) (user : Option Str) (password : Option Buf) : Prop :=
  ∃ u pw v, user = some u ∧ password = some pw ∧ cfg.validator = some v ∧ v u pw = true

/-- The first packet on connection `c` has arrived at the server, which has not acted on it yet; it is
this CONNECT. -/
def FirstIs (m : Mode) (n : Net) (c : Nat) (p : ConnectPacket) : Prop :=
  ∃ w rest, n.wires.get c = some w ∧ w.running = true ∧ w.begun = false ∧
    parsePacket m w.buf = .packet (.connect p) rest

/-- In this history nobody on connection `c` asks to be let in with accepted credentials. -/
def StaysOut (m : Mode) (cfg : AuthConfig) (ns : List NetEvent) (c : Nat) : Prop :=
  ∀ k p, FirstIs m (Net.init.run m cfg (ns.take k)) c p → ¬ Accepts cfg p.payload.userName p.payload.password

/-- The connection an event is about. -/
def conn : SysEvent → Nat
  | .connect c _ | .serverRead c _ | .serverTurn c _ _ | .deliver c _ | .serverClose c | .clientRead c _
  | .clientTurn c _ | .clientError c | .timeout c | .app c _ => c

/-- Connecting without disturbance: an application asks its client to connect with options `o`, the CONNECT
reaches the server, the server acts on it, its answer reaches the client, which acts on it. -/
def dialling (c : Nat) (o : ConnectOptions) (n n' : Nat) (uuid : Str) (ok : Bool) : List SysEvent :=
  [.connect c o, .serverRead c n, .serverTurn c uuid true, .clientRead c n', .clientTurn c ok]

/-- The password file of these settings gives this user this password: the last line for the user has the
password itself or a hash that verifies it. -/
def UserOf (m : Machine) (r : RawConfig) (user : Option Str) (password : Option Buf) : Prop :=
  ∃ path t ls u h pw, r.passwordFile = some path ∧ m.text path = some t ∧ LinesOf t ls ∧ Listed ls u h ∧
    user = some (Text.bytes u) ∧ password = some pw ∧ RightPassword m.verify h pw

end Mercurio.Spec
