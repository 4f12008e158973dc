import Verif.Spec.Plain

/-!
# Events that have nothing to do with each other
-/

namespace Mercurio.Spec

open Mercurio

/-- The event concerns connection `c`: a packet arrives, a message is sent, or the connection ends. -/
def OfConn (c : Nat) (e : Event) : Prop := (∃ p, e = .recv c p) ∨ (∃ f, e = .deliver c f) ∨ e = .close c ∨ e = .abort c

/-- The topics an event of connection `c`, which works on session `s`, publishes to: that of a PUBLISH, and if the connection
ends that of the will. -/
def Voices (cfg : AuthConfig) (srv : Server) (c : Nat) (s : Session) (e : Event) (t : Str) : Prop :=
  (∃ p, e = .recv c (.publish p) ∧ t = p.topicName) ∨
  ((srv.step cfg e).1.at c = none ∧ ∃ w, s.will = some w ∧ t = w.topic)

/-- The filters whose messages an event of connection `c` looks at: those it subscribes to, and the one a message is sent
for. -/
def Heeds (c : Nat) (e : Event) (f : Str) : Prop :=
  (∃ p, e = .recv c (.subscribe p) ∧ f ∈ p.payload.map (·.topicFilter)) ∨ e = .deliver c f

/-- Two events have nothing to do with each other: they publish to different topics which no subscription has in common, and
neither publishes what the other looks at. -/
def Apart (cfg : AuthConfig) (srv : Server) (c1 : Nat) (s1 : Session) (e1 : Event) (c2 : Nat) (s2 : Session) (e2 : Event) : Prop :=
  (∀ t1 t2, Voices cfg srv c1 s1 e1 t1 → Voices cfg srv c2 s2 e2 t2 → t1 ≠ t2 ∧
    ∀ r s f, srv.heap.get r = some s → f ∈ s.filters → ¬ (Matches f t1 ∧ Matches f t2)) ∧
  (∀ t f, Voices cfg srv c1 s1 e1 t → Heeds c2 e2 f → ¬ Matches f t) ∧
  (∀ t f, Voices cfg srv c2 s2 e2 t → Heeds c1 e1 f → ¬ Matches f t)

end Mercurio.Spec
