import Verif.Model.Locks

/-! # Specification: waiting and being answered -/

namespace Mercurio

/-- The connection an action concerns. -/
def Act.conn : Act → Nat
  | .enter c | .touch c | .leave c | .listen c | .connect c _ _ | .wake c _ _ | .close c _
  | .fail c => c

/-- The runtime does it by itself: no client, timer or publication is needed. -/
def Act.Internal : Act → Prop
  | .enter _ | .touch _ | .leave _ | .listen _ => True
  | _ => False

/-- An action of the runtime that brings some client's request further (`listen` does not). -/
def Act.Progress : Act → Prop
  | .enter _ | .touch _ | .leave _ => True
  | _ => False

/-- The client identifiers of the CONNECTs of a run, with their clean start flags. -/
def Act.connects (as : List Act) : List (Str × Bool) :=
  as.filterMap fun | .connect _ id clean => some (id, clean) | _ => none

/-- The task still has something to do on behalf of its client. -/
def Task.Busy : Task → Prop
  | .rests _ | .listens _ => False
  | _ => True

/-- The CONNECT has been answered. -/
def Task.Answered : Task → Prop
  | .asks _ _ => False
  | .enters _ k => k ≤ 2
  | _ => True

/-- The session the task has to do with. -/
def Task.session : Task → Option Nat
  | .asks _ _ => none
  | .enters r _ | .rests r | .listens r | .works r _ _ | .ends r _ => some r

/-- An upper bound for the actions the runtime can do for a task by itself: seven for a CONNECT that
waits for the manager, one for each further use of a lock, and two to settle down. -/
def Task.patience : Task → Nat
  | .asks _ _ => 7
  | .enters _ k | .works _ k _ | .ends _ k => k + 2
  | .rests _ => 1
  | .listens _ => 0

namespace Locks

/-- Reachable from the start of the server. -/
def Reachable (s : Locks) : Prop := ∃ as, ({} : Locks).run as = some s

/-- Two connections share a session, and one waits for a message in it while the other has work to do. -/
def Crossed (s : Locks) : Prop :=
  ∃ a b r t, a ≠ b ∧ s.tasks.get a = some (.listens r) ∧ s.tasks.get b = some t ∧ t.session = some r ∧
    t.Busy

/-- An upper bound for the actions the runtime can do by itself: `Task.patience` for each task. -/
def patience (s : Locks) : Nat := (s.tasks.map fun ct => ct.2.patience).sum

end Locks

end Mercurio
