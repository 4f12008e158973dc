import Verif.Model.Basic

/-!
# Timers: the server's keep-alive deadline, the client's ping interval, the listener's backoff

Times are natural numbers of milliseconds on the monotonic clock (tokio's timer resolution).
Which branch `tokio::select!` takes when two are ready is random; here it is an input.
-/

namespace Mercurio

/-- The largest second count of a `std::time::Instant` (an `i64`), external to /repo; used by
`mercurio-server/src/server.rs:392` (`Instant::now() + timeout_duration`). -/
def instantMaxSecs : Nat := 2 ^ 63 - 1

/-- `Instant::checked_add`, external to /repo; the addition in
`mercurio-server/src/server.rs:392` panics when this is `none`. -/
def instantAdd (now dur : Nat) : Option Nat :=
  if (now + dur) / 1000 ≤ instantMaxSecs then some (now + dur) else none

/-- tokio's `Instant::far_future`, external to /repo: thirty years from now. Used by `time::sleep`
in `mercurio-server/src/server.rs:326` when the addition overflows. -/
def farFuture (now : Nat) : Nat := now + 1000 * (86400 * 365 * 30)

/-- `mercurio-server/src/server.rs:320-324`: the keep-alive timeout, in milliseconds. -/
def keepAliveTimeout (k : UInt16) : Nat :=
  if k = 0 then 1000 * ((2 ^ 64 - 1) / 2) else 1000 * (k.toNat * 3 / 2)

/-- `mercurio-server/src/server.rs:326`: `time::sleep(timeout_duration)`; the deadline it waits
for. -/
def sleepUntil (now dur : Nat) : Nat :=
  match instantAdd now dur with
  | some t => t
  | none => farFuture now

/-- One packet reaching the loop of `mercurio-server/src/server.rs:329-441`, other than a
DISCONNECT. -/
structure Arrival where
  /-- when the loop finds the packet -/
  found : Nat
  /-- when it has been processed and the response written (the `Instant::now()` of line 392) -/
  finished : Nat
  /-- whether the loop takes the packet although the deadline has been reached as well; this
  happens when both fall together, or when the task was busy writing across the deadline -/
  preferred : Bool
deriving DecidableEq, Repr

/-- What has become of a connection's keep-alive timer. -/
inductive Timer where
  | running (deadline : Nat)
  | expired (at_ : Nat)
  | panicked (at_ : Nat)
deriving DecidableEq, Repr

/-- `mercurio-server/src/server.rs:326-327`: the timer when the loop starts. -/
def Timer.start (k : UInt16) (now : Nat) : Timer :=
  .running (sleepUntil now (keepAliveTimeout k))

/-- `mercurio-server/src/server.rs:330-432`: the loop up to and including the next packet: the
deadline branch if the deadline comes first, otherwise the packet is processed and the deadline
reset (line 392). Outgoing packets do not touch the deadline and are left out. -/
def Timer.packet (k : UInt16) : Timer → Arrival → Timer
  | .running d, a =>
    if a.found < d ∨ a.preferred = true then
      match instantAdd a.finished (keepAliveTimeout k) with
      | some d' => .running d'
      | none => .panicked a.finished
    else .expired d
  | s, _ => s

/-- `mercurio-server/src/server.rs:329-441`: the loop over a schedule of packets. -/
def Timer.packets (k : UInt16) (now : Nat) (l : List Arrival) : Timer :=
  l.foldl (Timer.packet k) (Timer.start k now)

/-- `mercurio-server/src/server.rs:422-432`: the timer at time `t` if no packet arrives before. -/
def Timer.wait (t : Nat) : Timer → Timer
  | .running d => if d ≤ t then .expired d else .running d
  | s => s

/-- `mercurio-client/src/client.rs:222-227`: the client's ping interval, in milliseconds.  For keep-alive 0
the code asks for `u64::MAX / 2` seconds, which no `Instant` has room for; `time::interval` then
waits until `Instant::far_future` instead (simplification: the clock has reached one second, and the first tick is
polled at once). -/
def pingInterval (k : UInt16) : Nat :=
  if k > 0 then 1000 * (max (k / 2) 1).toNat else farFuture 0

/-- `mercurio-client/src/client.rs:227-228,304`: when the client sends its `i`-th PINGREQ (`i ≥ 1`;
the tick number 0 is skipped), counted from the moment its event loop started. -/
def pingTime (k : UInt16) (start i : Nat) : Nat := start + i * pingInterval k

/-- What the listener does, as seen from outside. -/
inductive ListenEvent where
  | slept (secs : Nat)
  | handled
  | stopped
deriving DecidableEq, Repr

/-- The listener: `some backoff` while it runs, `none` once it has stopped. -/
abbrev Listening := Option Nat

/-- `mercurio-server/src/server.rs:192-193`: `accept` starts with a backoff of one second. -/
def Listening.init : Listening := some 1

/-- `mercurio-server/src/server.rs:125-178,192-209`: one outcome of the socket's `accept`. A
success returns from `accept`, the connection is spawned and `accept` is called again with a fresh
backoff; a failure sleeps and doubles the backoff or, above 64, ends `run`. -/
def Listening.step : Listening → Bool → Listening × List ListenEvent
  | some _, true => (some 1, [.handled])
  | some b, false => if b > 64 then (none, [.stopped]) else (some (b * 2), [.slept b])
  | none, _ => (none, [])

/-- `mercurio-server/src/server.rs:125-209`: the listener over a sequence of outcomes. -/
def Listening.run : Listening → List Bool → Listening × List ListenEvent
  | s, [] => (s, [])
  | s, o :: l =>
    let r := Listening.step s o
    let r' := Listening.run r.1 l
    (r'.1, r.2 ++ r'.2)

end Mercurio
