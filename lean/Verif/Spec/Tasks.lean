import Verif.Model.Tasks
import Verif.Spec.Delivery

/-! # Specification of connections handled at the same time -/

namespace Mercurio

/-- The connection an event belongs to. -/
def Tasks.Event.conn : Tasks.Event → Nat
  | .start c _ _ | .arrive c _ | .work c _ | .deliver c _ | .close c => c

namespace Spec

open Mercurio

/-- The packets sent on connection `c` in a history, in order. -/
def sentOn (cfg : AuthConfig) (c : Nat) (s : Tasks.State) : List Tasks.Event → List Packet
  | [] => []
  | e :: es =>
    match s.step cfg e with
    | none => []
    | some (s', out) => (if e.conn = c then out else []) ++ sentOn cfg c s' es

/-- Those among them that were sent for its subscription `f`. -/
def sentFor (cfg : AuthConfig) (c : Nat) (f : Str) (s : Tasks.State) : List Tasks.Event → List Packet
  | [] => []
  | e :: es =>
    match s.step cfg e with
    | none => []
    | some (s', out) => (if e = .deliver c f then out else []) ++ sentFor cfg c f s' es

/-- A packet is being handled. -/
def Busy : Tasks.Phase → Prop
  | .idle | .ended => False
  | _ => True

/-- Connection `c` is not handling a packet. -/
def Resting (s : Tasks.State) (c : Nat) : Prop := ∀ t, s.tasks.get c = some t → ¬ Busy t.phase

/-- The number of steps connection `c` takes in the handling of packets. -/
def worksOf (c : Nat) (es : List Tasks.Event) : Nat :=
  es.countP fun | .work k _ => decide (k = c) | _ => false

/-- The number of levels of a topic: one more than it has slashes. -/
def levelCount (t : Str) : Nat := t.count 0x2f + 1

/-- A bound on the steps a publication to topic `t` takes. -/
def publishBound (t : Str) : Nat := 5 * 2 ^ levelCount t

/-- A bound on the steps the publication of a will takes. -/
def willBound : Option StoredWill → Nat
  | none => 0
  | some w => publishBound w.topic

/-- A bound on the steps the handling of a packet takes on a connection with the given will, including the
publication of the will if the connection ends because of it. -/
def handlingBound (will : Option StoredWill) : Packet → Nat
  | .publish p => publishBound p.topicName + willBound will
  | .subscribe p => 2 * p.payload.length + 1
  | _ => willBound will

/-- The message a CONNECT leaves as its will, with its topic. -/
def announcedWill (p : ConnectPacket) : Option (Str × Message) :=
  match p.flags.willFlag, p.payload.willTopic with
  | true, some t => some (t, { packetId := none, topic := t, dup := false, qos := p.flags.willQos,
                               retain := p.flags.willRetain, payload := some (p.payload.willPayload.getD []) })
  | _, _ => none

open Classical in
/-- The messages that arrive on connection `c` with valid topics, in order. -/
noncomputable def arrivals (c : Nat) : List Tasks.Event → List (Str × Message)
  | [] => []
  | .arrive k (.publish p) :: es =>
    if k = c ∧ ValidTopic p.topicName then
      (p.topicName, { packetId := p.packetId, topic := p.topicName, dup := p.dup, qos := p.qos,
                      retain := p.retain, payload := p.payload }) :: arrivals c es
    else arrivals c es
  | _ :: es => arrivals c es

/-- The storage steps of the publications of `task` in a history, in order. -/
def storedBy (task : Nat) : List Calls.Event → List (Str × Message)
  | [] => []
  | .store k t m :: es => if k = task then (t, m) :: storedBy task es else storedBy task es
  | _ :: es => storedBy task es

/-- How many messages wait in the channel of the subscription `f` of connection `c`. -/
def backlog (s : Tasks.State) (c : Nat) (f : Str) : Nat :=
  match s.tasks.get c with
  | none => 0
  | some t =>
    match t.session.subscriptions.get f with
    | none => 0
    | some st => (channelOf s.calls.walk.tree st.rx).length - st.rx.next

/-- At no time in the history more than 16 messages wait. -/
def NeverBehind (cfg : AuthConfig) (c : Nat) (f : Str) (s : Tasks.State) : List Tasks.Event → Prop
  | [] => backlog s c f ≤ 16
  | e :: es => backlog s c f ≤ 16 ∧ ∀ s' out, s.step cfg e = some (s', out) → NeverBehind cfg c f s' es

end Spec

end Mercurio
