import Verif.Model.Client

/-!
# Callers of the client (mercurio-client/src/client.rs:210-320, 512-591)

`Verif.Model.Client` is the event loop: there a call is an input.  Here any number of callers make
calls at the same time: a call is put into the command channel and waits there for the event loop,
the caller waits for the response; a caller may give up waiting (its future is dropped, as by a
timeout around `publish`), and the application may drop its `MqttClient`.
Simplifications: those of `Verif.Model.Client`, except that the application need not keep its client.
Callers waiting for room in the command channel get it in the order in which they came (tokio's
documented fairness), so they are the entries of the queue beyond its capacity.
-/

namespace Mercurio

/-- Capacity of the command channel, mercurio-client/src/client.rs:73. -/
def commandCapacity : Nat := 32

/-- A `Command` (mercurio-client/src/client.rs:24-42) in the command channel or waiting for room in it, with the
name of its caller (bookkeeping).  `waiting`: the caller still waits, i.e. the receiver of `response` exists. -/
structure Queued where
  caller : Nat
  call : ClientIn
  waiting : Bool := true
  deriving DecidableEq, Repr

/-- A connected client with its callers (mercurio-client/src/client.rs:45-50, 210-228).  `answers`, `wrote`
and `told` are bookkeeping: the results the callers got, the packets written to the socket and the events
`recv` returned, in order. -/
structure Api where
  client : Client := {}
  queue : List Queued := []
  /-- the application has dropped its `MqttClient` -/
  dropped : Bool := false
  answers : List (Nat × CallResult) := []
  wrote : List Packet := []
  told : List ClientEvent := []
  deriving DecidableEq, Repr

/-- What can happen. -/
inductive ApiEvent where
  /-- caller `k` makes a call (client.rs:513-585, up to `response_rx.await`) -/
  | call (k : Nat) (i : ClientIn)
  /-- caller `k` gives up -/
  | cancel (k : Nat)
  /-- the event loop takes the next command (client.rs:262-300) -/
  | serve
  /-- the event loop wakes up for a packet or a tick of the ping timer (client.rs:232-259, 303-315) -/
  | wake (i : ClientIn)
  /-- the application takes the next event (client.rs:588-591) -/
  | recv
  /-- the application drops its client, which is only possible when no caller waits: the calls borrow it -/
  | drop
  deriving DecidableEq, Repr

/-- The calls that go through the command channel (mercurio-client/src/client.rs:24-42). -/
def ClientIn.isCommand : ClientIn → Bool
  | .publish .. | .subscribe .. | .unsubscribe .. | .disconnect .. => true
  | _ => false

/-- The other things the event loop wakes up for (mercurio-client/src/client.rs:232-259, 303-315). -/
def ClientIn.isWake : ClientIn → Bool
  | .read .. | .tick .. => true
  | _ => false

namespace Api

/-- A turn of the loop or a `recv`.  When the application has dropped its client, `event_tx.send` fails at
once and the result is ignored (mercurio-client/src/client.rs:246-248, 347-354 and others: `let _ =`), so no event waits. -/
def act (s : Api) (i : ClientIn) : Api :=
  let r := s.client.step i
  { s with
    client := if s.dropped then { r.1 with pending := [] } else r.1
    wrote := s.wrote ++ r.2.sent.toList
    told := s.told ++ r.2.event.toList }

/-- The event loop has ended: it is past its last `event_tx.send`, and the command channel is closed
(mercurio-client/src/client.rs:210-320). -/
def over (s : Api) : Bool := !s.client.running && !decide s.client.blocked

/-- When the event loop ends, the commands in the channel are dropped and their callers get `Disconnected`;
callers that have not got into the channel get `SendError` (mercurio-client/src/client.rs:519-585). -/
def settle (s : Api) : Api :=
  if s.over then
    { s with queue := [], answers := s.answers ++ (s.queue.filter (·.waiting)).map fun q => (q.caller, .failed .closed) }
  else s

/-- The event loop takes the next command and sends the response; if it panics, the caller gets
`Disconnected` (mercurio-client/src/client.rs:262-300). -/
def serveNext (s : Api) : Api :=
  match s.queue with
  | [] => s
  | q :: rest =>
    if s.client.running && !decide s.client.blocked then
      let r := (s.client.step q.call).2.result
      let s := s.act q.call
      { s with
        queue := rest
        answers := s.answers ++ if q.waiting then (r.map fun r => (q.caller, r)).toList else [] }
    else s

/-- A caller gives up: a command in the channel stays there, a caller still waiting for room leaves nothing
behind (tokio's `Sender::send` and `oneshot`; mercurio-client/src/client.rs:513-585). -/
def giveUp (k : Nat) : (room : Nat) → List Queued → List Queued
  | _, [] => []
  | 0, q :: qs => if q.caller = k then giveUp k 0 qs else q :: giveUp k 0 qs
  | n + 1, q :: qs => (if q.caller = k then { q with waiting := false } else q) :: giveUp k n qs

/-- One event (mercurio-client/src/client.rs:210-320, 512-591). -/
def step (s : Api) : ApiEvent → Api
  | .call k i =>
    if i.isCommand && !s.dropped then settle { s with queue := s.queue ++ [⟨k, i, true⟩] } else s
  | .cancel k => { s with queue := giveUp k commandCapacity s.queue }
  | .serve => s.serveNext.settle
  | .wake i => if i.isWake then (s.act i).settle else s
  | .recv => if s.dropped then s else (s.act .recv).settle
  | .drop =>
    if s.queue.all (fun q => !q.waiting) then
      settle { s with dropped := true, client := { s.client with pending := [] } }
    else s

/-- The client after a history (mercurio-client/src/client.rs:210-320, 512-591). -/
def run (s : Api) (es : List ApiEvent) : Api := es.foldl step s

end Api

end Mercurio
