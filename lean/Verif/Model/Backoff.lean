import Verif.Model.Redirect
import Mathlib.Algebra.Order.Ring.Rat

/-!
# How long a TCP redirect waits before it connects again (server/router.py:71-112)

`TCPRedirectClientFactory` is a `ReconnectingClientFactory` that calls `resetDelay` when a connection is made. Of Twisted the following is
used, from its source. After a failed attempt or a lost connection `retry` multiplies the delay by a factor, up to a largest delay, then
replaces it by a normally distributed number around it, and schedules the next attempt after the result; `callLater` fails an assertion if
that is negative. `stopTrying` cancels a scheduled attempt. Time is exact; the normal draw is any number of standard deviations.
-/

namespace Txstatsd

/-- A redirect with its times (server/router.py:71-112). -/
structure Backoff where
  redirect : Redirect := {}
  /-- The factory's `delay`. -/
  delay : ℚ := 1
  now : ℚ := 0
  /-- When the scheduled attempt is due; none is scheduled while one is under way. -/
  due : Option ℚ := none
  deriving DecidableEq

/-- What can happen to it (server/router.py:81-112, 126-160); `z` is what the normal distribution gives, in standard deviations. -/
inductive BackoffEvent
  | start
  | stop (now : ℤ)
  | connected
  | failed (z : ℚ)
  | lost (now : ℤ) (z : ℚ)
  | pause (now : ℤ)
  | resume (now : ℤ)
  | write (line : Str)
  /-- Time passes. -/
  | wait (dt : ℚ)
  deriving DecidableEq

/-- The factory's `factor`, inherited (server/router.py:92). -/
def retryFactor : ℚ := 27182818284590451 / 10 ^ 16

/-- The factory's `jitter`, inherited (server/router.py:92). -/
def retryJitter : ℚ := 11962656472 / 10 ^ 11

/-- The factory's `maxDelay`, inherited (server/router.py:92). -/
def retryMax : ℚ := 3600

/-- The delay after the delay `d` (Twisted's `retry`; server/router.py:92). -/
def nextDelay (d z : ℚ) : ℚ := min (d * retryFactor) retryMax * (1 + retryJitter * z)

/-- Twisted's `retry` (server/router.py:92). -/
def Backoff.retry (b : Backoff) (z : ℚ) : Backoff × Option PyErr :=
  let d := nextDelay b.delay z
  if d < 0 then ({ b with delay := d, redirect := { b.redirect with pending := false } }, some .assertionError)
  else ({ b with delay := d, due := some (b.now + d) }, none)

/-- One event (server/router.py:81-112, 126-160). -/
def Backoff.step (b : Backoff) : BackoffEvent → Backoff × Option PyErr
  | .start => ({ b with redirect := (b.redirect.step .start).1 }, none)
  -- router.py:85-89
  | .stop t => ({ b with redirect := (b.redirect.step (.stop t)).1, due := none }, none)
  -- router.py:101-108: `resetDelay`
  | .connected =>
    if b.redirect.pending ∧ b.due = none then ({ b with redirect := (b.redirect.step .connected).1, delay := 1 }, none) else (b, none)
  | .failed z =>
    if b.redirect.pending ∧ b.due = none then
      let b' := { b with redirect := (b.redirect.step .failed).1 }
      if b.redirect.trying then b'.retry z else (b', none)
    else (b, none)
  | .lost t z =>
    if b.redirect.up then
      let b' := { b with redirect := (b.redirect.step (.lost t)).1 }
      if b.redirect.trying then b'.retry z else (b', none)
    else (b, none)
  | .pause t => ({ b with redirect := (b.redirect.step (.pause t)).1 }, none)
  | .resume t => ({ b with redirect := (b.redirect.step (.resume t)).1 }, (b.redirect.step (.resume t)).2)
  | .write l => ({ b with redirect := (b.redirect.step (.write l)).1 }, (b.redirect.step (.write l)).2)
  | .wait dt =>
    let now := b.now + max dt 0
    ({ b with now := now, due := if b.due.any (fun t => decide (t ≤ now)) then none else b.due }, none)

/-- A history (server/router.py:81-112, 126-160). -/
def Backoff.run (b : Backoff) (es : List BackoffEvent) : Backoff := es.foldl (fun b e => (b.step e).1) b

end Txstatsd
