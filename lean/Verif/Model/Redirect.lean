import Verif.Model.Tcp

/-!
# The life of a TCP redirect (server/router.py:71-112)

The service, the reconnecting factory and the protocols it makes. Of Twisted the following is used. `connectTCP` starts an
attempt. A failed attempt and a lost connection start another one as long as the factory may go on trying; `stopTrying` ends
the attempts and `resetDelay` allows them again. When a connection ends, its transport calls `stopProducing` of the registered
producer. What is written to a transport that is gone disappears. (`resumeProducing` raises; that the reactor then closes the
connection is a `lost` of its own.)
-/

namespace Txstatsd

/-- `TCPRedirectService` and its `TCPRedirectClientFactory` (router.py:71-112). -/
structure Redirect where
  /-- `running` of the service. -/
  running : Bool := false
  /-- The factory may reconnect. -/
  trying : Bool := true
  /-- An attempt to connect is under way or scheduled. -/
  pending : Bool := false
  /-- The transport of the current protocol is connected. -/
  up : Bool := false
  /-- `factory.protocol`; its `wire` is what the transport took. -/
  proto : Option RedirectProto := none
  /-- The protocols before it. -/
  earlier : List RedirectProto := []
  /-- `factory.callback is not None`. -/
  callback : Bool := true
  /-- How often the ready callback was scheduled. -/
  called : Nat := 0
  deriving DecidableEq, Repr

/-- What can happen to it (server/router.py:81-112, 126-160). -/
inductive LifeEvent
  /-- `startService`. -/
  | start
  /-- `stopService` at a time. -/
  | stop (now : ℤ)
  /-- The attempt succeeds. -/
  | connected
  /-- The attempt fails. -/
  | failed
  /-- The connection is lost at a time. -/
  | lost (now : ℤ)
  /-- The transport's buffer is full. -/
  | pause (now : ℤ)
  /-- The transport's buffer is empty again. -/
  | resume (now : ℤ)
  /-- A message is redirected. -/
  | write (line : Str)
  deriving DecidableEq, Repr

/-- The end of a connection: Twisted calls `stopProducing` (router.py:139-144). -/
def Redirect.close (r : Redirect) (now : ℤ) : Redirect := { r with up := false, proto := r.proto.map (·.pause now) }

/-- One event. Those that the reactor does not make in a state change nothing (server/router.py:81-112, 126-160). -/
def Redirect.step (r : Redirect) : LifeEvent → Redirect × Option PyErr
  -- router.py:81-83; a service is started only when it is not running
  | .start => (if r.running then r else { r with running := true, pending := true }, none)
  -- router.py:85-89; `loseConnection` on a transport that is gone does nothing
  | .stop now =>
    let r := { r with running := false, trying := false, pending := false }
    (if r.up then r.close now else r, none)
  -- router.py:101-108, 127-132
  | .connected =>
    if r.pending then
      ({ r with pending := false, trying := true, up := true, proto := some {}, earlier := r.earlier ++ r.proto.toList,
                called := r.called + (if r.callback then 1 else 0), callback := false }, none)
    else (r, none)
  | .failed => ({ r with pending := r.pending && r.trying }, none)
  | .lost now => (if r.up then { r.close now with pending := r.trying } else r, none)
  -- router.py:134-150
  | .pause now => (if r.up then { r with proto := r.proto.map (·.pause now) } else r, none)
  | .resume now =>
    if r.up then
      match r.proto with
      | none => (r, none)   -- unreachable
      | some p => ({ r with proto := some (p.resume now).1 }, (p.resume now).2)
    else (r, none)
  -- router.py:110-112, 152-161
  | .write line =>
    match r.proto with
    | none => (r, none)
    | some p =>
      let (p', e) := p.write line
      ({ r with proto := some (if r.up then p' else { p' with wire := p.wire }) }, e)

/-- A history (server/router.py:81-112, 126-160). -/
def Redirect.run (r : Redirect) (es : List LifeEvent) : Redirect := es.foldl (fun r e => (r.step e).1) r

end Txstatsd
