import Verif.Model.Base

/-!
# TCP and UDP endpoints: the TCP redirect (server/router.py:92-160), Twisted's `LineReceiver`, and the
server protocols (server/protocol.py:27-85)
-/

namespace Txstatsd

/-! ## The TCP redirect client -/

/-- `TCPRedirectProtocol` (router.py:123-126); `wire` is what was handed to `transport.write`. -/
structure RedirectProto where
  paused : Bool := false
  lastPaused : Option ℤ := none
  dropped : Nat := 0
  wire : Str := []
  deriving DecidableEq, Repr

/-- `pauseProducing` / `stopProducing` (router.py:135-140). -/
def RedirectProto.pause (p : RedirectProto) (now : ℤ) : RedirectProto :=
  { p with lastPaused := some now, paused := true }

/-- `resumeProducing` (router.py:142-150): the name `log` is the module `twisted.python.log`, so
calling it raises `TypeError` (as does subtracting `None`, evaluated before the call) and the
assignments below it are never reached. -/
def RedirectProto.resume (p : RedirectProto) (_now : ℤ) : RedirectProto × Option PyErr :=
  (p, some .typeError)

/-- The last two characters, `line[-2:]` (server/router.py:155-159). -/
def lastTwo (line : Str) : Str := line.drop (line.length - 2)

/-- `TCPRedirectProtocol.write` (router.py:152-162). -/
def RedirectProto.write (p : RedirectProto) (line : Str) : RedirectProto × Option PyErr :=
  if p.paused then ({ p with dropped := p.dropped + 1 }, none)
  else if lastTwo line ≠ ['\r', '\n'] then
    match line.getLast? with
    | none => (p, some .indexError)
    | some c =>
      if c = '\r' then ({ p with wire := p.wire ++ (line ++ ['\n']) }, none)
      else ({ p with wire := p.wire ++ (line ++ ['\r', '\n']) }, none)
  else ({ p with wire := p.wire ++ line }, none)

/-- `TCPRedirectClientFactory` (router.py:92-112): the current protocol (`None` before the first
connection), and the protocols of earlier connections. The ready callback is not modelled. -/
structure RedirectFactory where
  proto : Option RedirectProto := none
  earlier : List RedirectProto := []
  deriving DecidableEq, Repr

/-- What happens to a redirect: a connection is established, the transport pauses or resumes the
producer, a message is redirected (server/router.py:101-160). -/
inductive RedirectEvent
  | connect
  | pause (now : ℤ)
  | resume (now : ℤ)
  | write (line : Str)
  deriving DecidableEq, Repr

/-- One event (router.py:101-112, 135-162). -/
def RedirectFactory.step (f : RedirectFactory) : RedirectEvent → RedirectFactory × Option PyErr
  | .connect => ({ proto := some {}, earlier := f.earlier ++ f.proto.toList }, none)
  | .pause now => ({ f with proto := f.proto.map (·.pause now) }, none)
  | .resume now =>
    match f.proto with
    | none => (f, none)   -- no transport yet
    | some p => ({ f with proto := some (p.resume now).1 }, (p.resume now).2)
  | .write line =>
    match f.proto with
    | none => (f, none)
    | some p => ({ f with proto := some (p.write line).1 }, (p.write line).2)

/-- A history of events; exceptions are caught by the caller (the reactor) (server/router.py:101-160). -/
def RedirectFactory.run (f : RedirectFactory) (es : List RedirectEvent) : RedirectFactory :=
  es.foldl (fun f e => (f.step e).1) f

/-! ## `twisted.protocols.basic.LineReceiver` (Twisted 11.1 to 15.4) -/

/-- `buffer.split("\r\n", 1)`; `none` when there is no delimiter (for server/protocol.py:51-71). -/
def splitCrlf : Str → Option (Str × Str)
  | [] => none
  | [_] => none
  | c :: d :: rest =>
    if c = '\r' ∧ d = '\n' then some ([], rest)
    else match splitCrlf (d :: rest) with
      | none => none
      | some (a, b) => some (c :: a, b)

theorem splitCrlf_length {s a b : Str} (h : splitCrlf s = some (a, b)) : b.length < s.length := by
  induction s generalizing a b with
  | nil => cases h
  | cons c s ih =>
    cases s with
    | nil => cases h
    | cons d rest =>
      unfold splitCrlf at h
      split at h
      · cases h; simp only [List.length_cons]; omega
      · split at h
        · cases h
        · next x y hxy => cases h; have := ih hxy; simp only [List.length_cons] at this ⊢; omega

/-- `LineReceiver.MAX_LENGTH` (for server/protocol.py:51-71). -/
def maxLength : Nat := 16384

/-- The receiving end of a connection: `LineReceiver`'s buffer, the protocol's own state, and whether
the connection is gone (for server/protocol.py:51-71). -/
structure Receiver (H : Type) where
  buffer : Str := []
  h : H
  closed : Bool := false

/-- The loop of `LineReceiver.dataReceived`. `lineReceived` is the protocol's handler; its second
result says whether it returned a true value, in which case `dataReceived` stops and returns it, and
the reactor closes the connection (for server/protocol.py:51-71). -/
def Receiver.drain {H : Type} (lineReceived : H → Str → H × Bool) (r : Receiver H) : Receiver H :=
  match hs : splitCrlf r.buffer with
  | none => if r.buffer.length > maxLength then { r with buffer := [], closed := true } else r
  | some (line, rest) =>
    if line.length > maxLength then { r with buffer := [], closed := true }
    else
      let x := lineReceived r.h line
      if x.2 then { buffer := rest, h := x.1, closed := true }
      else Receiver.drain lineReceived { r with buffer := rest, h := x.1 }
termination_by r.buffer.length
decreasing_by exact splitCrlf_length hs

/-- `LineReceiver.dataReceived(data)` on an open connection (for server/protocol.py:51-71). -/
def Receiver.feed {H : Type} (lineReceived : H → Str → H × Bool) (r : Receiver H) (data : Str) :
    Receiver H :=
  if r.closed then r else Receiver.drain lineReceived { r with buffer := r.buffer ++ data }

/-- A connection's bytes, in the chunks the network delivers them in (for server/protocol.py:51-71). -/
def Receiver.feedAll {H : Type} (lineReceived : H → Str → H × Bool) (r : Receiver H)
    (chunks : List Str) : Receiver H := chunks.foldl (Receiver.feed lineReceived) r

/-! ## The server protocols -/

/-- What a server protocol does with its data (server/protocol.py:40-48, 64-71). -/
inductive Reaction
  /-- `self.transport.write(self.monitor_response…)`. -/
  | answer (text : Str)
  /-- `callLater(0, self.processor.process, data)`. -/
  | schedule (data : Str)
  deriving DecidableEq, Repr

/-- The configuration of both server protocols (protocol.py:34-38, 58-62). -/
structure Monitor where
  message : Option Str
  response : Str

/-- `StatsDServerProtocol.datagramReceived` (protocol.py:40-48). -/
def Monitor.datagramReceived (mon : Monitor) (done : List Reaction) (data : Str) : List Reaction :=
  if mon.message = some data then done ++ [.answer mon.response]
  else done ++ [.schedule data]

/-- `StatsDTCPServerProtocol.lineReceived` (protocol.py:64-71): the scheduled `DelayedCall` is
returned, and it is a true value; `transport.write` returns `None`. -/
def Monitor.lineReceived (mon : Monitor) (done : List Reaction) (data : Str) : List Reaction × Bool :=
  if mon.message = some data then (done ++ [.answer mon.response], false)
  else (done ++ [.schedule data], true)

end Txstatsd
