import Verif.Model.Backoff
import Verif.Spec.Redirect

/-! What the claims about the waiting of TCP redirects talk about. -/

namespace Txstatsd.Spec

/-- All draws in the history are within `Z` standard deviations. -/
def DrawsWithin (Z : ℚ) (es : List BackoffEvent) : Prop :=
  ∀ e ∈ es, ∀ z, (e = .failed z ∨ ∃ t, e = .lost t z) → -Z ≤ z ∧ z ≤ Z

/-- The same event without its times. -/
def BackoffEvent.life : BackoffEvent → Option LifeEvent
  | .start => some .start
  | .stop t => some (.stop t)
  | .connected => some .connected
  | .failed _ => some .failed
  | .lost t _ => some (.lost t)
  | .pause t => some (.pause t)
  | .resume t => some (.resume t)
  | .write l => some (.write l)
  | .wait _ => none

/-- How many attempts were scheduled since the last connection. -/
def streak : Backoff → Nat → List BackoffEvent → Nat
  | _, n, [] => n
  | b, n, e :: es =>
    let b' := (b.step e).1
    streak b' (if b'.redirect.up then 0 else if b.due = none ∧ b'.due ≠ none then n + 1 else n) es

end Txstatsd.Spec
