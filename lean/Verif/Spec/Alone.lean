import Verif.Spec.Net
import Verif.Spec.Tasks

/-! # Specification: one event at a time as a special case of connections handled at the same time -/

namespace Mercurio.Spec

open Mercurio

/-- The state `s` of the tasks, none of which is handling anything, and the state `srv` of a server that
handles one event at a time are the same: the topic tree, the storage, the open connections and their
sessions. -/
structure SameState (s : Tasks.State) (srv : Server) : Prop where
  resting : ∀ c, Resting s c
  noCalls : s.calls.walk.calls = [] ∧ s.calls.stored = []
  broker : srv.world.broker = ⟨s.calls.walk.tree, s.calls.store⟩
  conns : ∀ c sess, srv.at c = some sess ↔ s.tasks.get c = some ⟨sess, .idle⟩

/-- No two open connections work on the same session. -/
def OwnSessions (srv : Server) : Prop :=
  ∀ c d k k', srv.conns.get c = some k → srv.conns.get d = some k' → k.session = k'.session → c = d

/-- The connection number of a first packet. -/
def opened : Event → Option Nat
  | .first c _ _ _ => some c
  | _ => none

/-- A history in which every connection is opened once, by a client that is let in with a clean start, and
whose tasks and process go on. -/
structure CleanHistory (cfg : AuthConfig) (es : List Event) : Prop where
  first : ∀ c p uuid written, .first c p uuid written ∈ es → ∃ q, p = .connect q ∧ q.flags.cleanStart = true ∧
    written = true ∧ (cfg.requireAuth = true → Server.authenticated cfg q = true)
  once : (es.filterMap opened).Nodup
  goesOn : .restart ∉ es ∧ ∀ c, .abort c ∉ es

end Mercurio.Spec
