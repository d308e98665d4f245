import Verif.Model.Client

/-!
# `TwistedStatsDClient` used from several threads (protocol.py:50-223)

`TransportGateway.write` hands over to the reactor's thread by `callFromThread`, so that `write` may be called in any thread. Here
the calls of `write` in other threads run step by step, one step per access to a shared attribute or list, interleaved with each
other and with the steps of the reactor's thread. Simplifications: the writes of the reactor's own thread are one step each (only
this thread assigns `transport`, `transport_gateway` and `_queue`); what a transport returns and the completion callbacks are left
out (`Verif.Model.Client` has them); `callFromThread` is one step.
-/

namespace Txstatsd

/-- Where a call of `write` is (protocol.py:193-203, 58-65, 87-94). -/
inductive WritePc
  /-- the thread is not in `write` -/
  | idle
  /-- before `self.transport_gateway is not None` -/
  | testGateway (m : Msg)
  /-- before `self.transport is not None` -/
  | testTransport (m : Msg)
  /-- before `self.transport_gateway.write` -/
  | getGateway (m : Msg)
  /-- before `self.reactor.callFromThread` -/
  | call (gateway : Nat) (m : Msg)
  /-- before `len(self._queue) < self._limit` -/
  | testLength (m : Msg)
  /-- before `self._queue.append` is looked up -/
  | getQueue (m : Msg)
  /-- before `append` of the list found is called -/
  | append (list : Nat) (m : Msg)
  deriving DecidableEq, Repr

/-- What the reactor's thread has still to do of the current call (protocol.py:179-223). -/
inductive Instr
  /-- `self.transport = transport` (protocol.py:182, 191) -/
  | setTransport (t : Option Nat)
  /-- `self.transport_gateway.transport = transport` if there is a gateway (protocol.py:183-184) -/
  | setGatewayTransport (t : Nat)
  /-- `self.transport_gateway = TransportGateway(self.transport, …)` (protocol.py:207-209) -/
  | setGateway (ip : Str)
  /-- `write` called by the connect or disconnect callback, or by `_flush_items` -/
  | write (m : Msg)
  /-- `items = self._queue` (protocol.py:69) -/
  | takeItems
  /-- `self._queue = []` (protocol.py:70) -/
  | newQueue
  /-- `for item in …` (protocol.py:219-221) over the list taken -/
  | iterate (list : Nat)
  /-- the reactor runs the oldest scheduled call -/
  | turn
  deriving DecidableEq, Repr

/-- The client and the threads using it. `lists` are the list objects that `_queue` was bound to, each without the items already
iterated over; `queue` is the one it is bound to now. `begun` and `dropped` record the writes begun and those refused for length; they
are not part of the program (protocol.py:54-56, 132-141). -/
structure Threaded where
  limit : Nat
  transport : Option Nat
  gateway : Option Nat
  gateways : List Gateway
  lists : List (List Msg)
  queue : Nat
  scheduled : List (Nat × Msg)
  sent : List Msg
  /-- messages whose call failed for want of a transport -/
  failed : List Msg
  threads : List WritePc
  prog : List Instr
  begun : List Msg
  dropped : List Msg

namespace Threaded

/-- A client just created for a host name (protocol.py:117-148), and `n` threads. -/
def init (limit n : Nat) : Threaded :=
  { limit := limit, transport := none, gateway := none, gateways := [], lists := [[]], queue := 0, scheduled := [], sent := [],
    failed := [], threads := List.replicate n .idle, prog := [], begun := [], dropped := [] }

/-- Thread `i` is now at `pc` (protocol.py:195-205). -/
def goto (c : Threaded) (i : Nat) (pc : WritePc) : Threaded := { c with threads := c.threads.set i pc }

/-- `list.append(m)` (protocol.py:65). -/
def push (c : Threaded) (list : Nat) (m : Msg) : Threaded := { c with lists := c.lists.modify list (· ++ [m]) }

/-- The current length of `_queue` (protocol.py:64). -/
def queueLength (c : Threaded) : Nat := (c.lists[c.queue]?.getD []).length

/-- One step of thread `i` (protocol.py:193-203, 58-65, 87-94). `getGateway` without a gateway, an `AttributeError`, cannot happen: the
gateway is never set back to `None`. -/
def advance (c : Threaded) (i : Nat) : Threaded :=
  match c.threads[i]? with
  | none => c
  | some .idle => c
  | some (.testGateway m) => c.goto i (if c.gateway.isSome then .testTransport m else .testLength m)
  | some (.testTransport m) => c.goto i (if c.transport.isSome then .getGateway m else .testLength m)
  | some (.getGateway m) =>
    match c.gateway with
    | some g => c.goto i (.call g m)
    | none => c.goto i (.testLength m)
  | some (.call g m) => { c.goto i .idle with scheduled := c.scheduled ++ [(g, m)] }
  | some (.testLength m) =>
    if c.queueLength < c.limit then c.goto i (.getQueue m) else { c.goto i .idle with dropped := c.dropped ++ [m] }
  | some (.getQueue m) => c.goto i (.append c.queue m)
  | some (.append l m) => (c.goto i .idle).push l m

/-- `write` in the reactor's thread (protocol.py:193-203). -/
def writeHere (c : Threaded) (m : Msg) : Threaded :=
  match c.gateway, c.transport with
  | some g, some _ => { c with scheduled := c.scheduled ++ [(g, m)] }
  | _, _ => if c.queueLength < c.limit then c.push c.queue m else { c with dropped := c.dropped ++ [m] }

/-- One step of the reactor's thread (protocol.py:67-71, 97-111, 181-193, 207-223). -/
def react (c : Threaded) : Threaded :=
  match c.prog with
  | [] => c
  | .setTransport t :: rest => { c with prog := rest, transport := t }
  | .setGatewayTransport t :: rest =>
    match c.gateway with
    | none => { c with prog := rest }
    | some g => { c with prog := rest, gateways := c.gateways.modify g fun gw => { gw with transport := some t } }
  | .setGateway ip :: rest =>
    { c with prog := rest, gateway := some c.gateways.length, gateways := c.gateways ++ [({ transport := c.transport, host := ip } : Gateway)] }
  | .write m :: rest => { c with prog := rest, begun := c.begun ++ [m] }.writeHere m
  | .takeItems :: rest => { c with prog := .newQueue :: .iterate c.queue :: rest }
  | .newQueue :: rest => { c with prog := rest, lists := c.lists ++ [[]], queue := c.lists.length }
  | .iterate l :: rest =>
    match c.lists[l]? with
    | some (m :: ms) => { c with lists := c.lists.set l ms }.writeHere m
    | _ => { c with prog := rest }
  | .turn :: rest =>
    match c.scheduled with
    | [] => { c with prog := rest }
    | (g, m) :: more =>
      match c.gateways[g]?.bind (·.transport) with
      | none => { c with prog := rest, scheduled := more, failed := c.failed ++ [m] }
      | some _ => { c with prog := rest, scheduled := more, sent := c.sent ++ [m] }

/-- The calls made in the reactor's thread, as the steps they consist of (protocol.py:179-223). -/
inductive Call
  | connect (t : Option Nat)
  | disconnect (bye : List Msg)
  | resolved (ip : Str) (hello : List Msg)
  | turn
  deriving DecidableEq, Repr

/-- The steps of a call (protocol.py:97-111, 181-193, 207-223). -/
def Call.steps : Call → List Instr
  | .connect none => [.takeItems]
  | .connect (some t) => [.setTransport (some t), .setGatewayTransport t, .takeItems]
  | .disconnect bye => bye.map .write ++ [.setTransport none]
  | .resolved ip hello => .setGateway ip :: (hello.map .write ++ [.takeItems])
  | .turn => [.turn]

/-- What the scheduler of the threads may let happen next (protocol.py:87-111, 181-223). -/
inductive Ev
  /-- thread `i` calls `write` -/
  | begin (i : Nat) (m : Msg)
  /-- thread `i` makes a step -/
  | advance (i : Nat)
  /-- a call in the reactor's thread begins -/
  | call (c : Call)
  /-- the reactor's thread makes a step -/
  | react
  deriving DecidableEq, Repr

/-- One event. A thread begins nothing before it is done (protocol.py:87-111, 181-223). -/
def step (c : Threaded) : Ev → Threaded
  | .begin i m => if c.threads[i]? = some .idle then { c.goto i (.testGateway m) with begun := c.begun ++ [m] } else c
  | .advance i => c.advance i
  | .call k => if c.prog = [] then { c with prog := k.steps } else c
  | .react => c.react

/-- A schedule (protocol.py:87-111, 181-223). -/
def run (c : Threaded) (es : List Ev) : Threaded := es.foldl step c

end Threaded
end Txstatsd
