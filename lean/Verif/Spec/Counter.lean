import Verif.Model.Text
import Verif.Spec.Text

/-!
# What a line of text means for the counters
-/

namespace Txstatsd.Spec
variable [Rounding]

/-- `r` is the sample rate denoted by the fields of a counter message after the value and type: 1 when
there is no third field, else the number written after the `@` as digits and dots (anything behind
them is ignored). -/
def Rate (extra : List Str) (r : PyFloat) : Prop :=
  (extra = [] ∧ r = rnd 1) ∨
  (∃ digits rest, extra = ['@' :: (digits ++ rest)] ∧ digits ≠ [] ∧
    (∀ c ∈ digits, c.isDigit = true ∨ c = '.') ∧
    (∀ c, rest.head? = some c → ¬ (c.isDigit = true ∨ c = '.')) ∧ parseFloat digits = some r)

/-- `msg` is an accepted counter message for `key` with the given value and (non-zero) rate. -/
def Increment (msg key : Str) (value rate : PyFloat) : Prop :=
  ∃ f0 extra, Parsed msg c!"c" key (f0 :: c!"c" :: extra) ∧
    parseFloat f0 = some value ∧ Rate extra rate ∧ rate ≠ .fin 0

/-- The accepted increments of `key` in a message history, in order. -/
inductive Increments (key : Str) : List Str → List (PyFloat × PyFloat) → Prop
  | nil : Increments key [] []
  | hit {msg msgs v r incs} : Increment msg key v r → Increments key msgs incs →
      Increments key (msg :: msgs) ((v, r) :: incs)
  | skip {msg msgs incs} : (∀ v r, ¬ Increment msg key v r) → Increments key msgs incs →
      Increments key (msg :: msgs) incs

/-- `1 / r` for a non-zero rate. -/
def inverse (r : PyFloat) : PyFloat :=
  match PyFloat.div (rnd 1) r with
  | .ok x => x
  | .error _ => .nan

/-- The running total of a counter: starting from the int 0, `value * (1 / rate)` is added for each
increment in turn (with the float arithmetic at hand). -/
def total (incs : List (PyFloat × PyFloat)) : Num :=
  incs.foldl (fun acc p => acc.add (.flt (p.1.mul (inverse p.2)))) (.int 0)

end Txstatsd.Spec
