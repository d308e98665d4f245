import Verif.Spec.Timer

/-!
# What the receive statistics should count
-/

namespace Txstatsd.Spec
variable [Rounding] {C T G PF PM : Type}

/-- The message types handled by the processor itself. -/
def builtinTypes : List Str := [c!"c", c!"ms", c!"g", c!"m"]

/-- In state `s` the message `msg` is a well-formed message of type `t`, some handler takes it, and handling it does not
raise. -/
def Handled (I : Impl C T G PF PM) (w : World) (s : PS C T G PF PM) (t msg : Str) : Prop :=
  (∃ key fields, Parsed msg t key fields) ∧ (t ∈ builtinTypes ∨ t ∈ s.plugins.keys) ∧ (process I w s msg).2.exc = none

open Classical in
/-- The number of messages of type `t` handled since the last completed flush, in a history from state `s` on, `n` being
the number of those before it. -/
noncomputable def handledSince (I : Impl C T G PF PM) (w : World) (t : Str) :
    PS C T G PF PM → Nat → List Op → Nat
  | _, n, [] => n
  | s, n, .msg m :: os =>
    handledSince I w t (process I w s m).1 (if Handled I w s t m then n + 1 else n) os
  | s, n, .flush i p :: os =>
    handledSince I w t (Txstatsd.flush I w i p s).1 (if (Txstatsd.flush I w i p s).2.2 = none then 0 else n) os

/-- `msg` makes the processor remember the metric name `key`: a counter message with a number and, if there is a third
field, an `@` followed by a digit or dot (even if the rate turns out to be unusable); a timer, gauge or meter message
with a number; or a message of a plugin type. -/
def Names (pluginTypes : List Str) (key msg : Str) : Prop :=
  ∃ t f0 extra, Parsed msg t key (f0 :: t :: extra) ∧
    ((t = c!"c" ∧ (parseFloat f0).isSome ∧ ∀ f2 ∈ extra, ∃ d r, f2 = '@' :: d :: r ∧ (d.isDigit = true ∨ d = '.')) ∨
     (t ∈ [c!"ms", c!"g", c!"m"] ∧ (parseFloat f0).isSome) ∨
     (t ∉ builtinTypes ∧ t ∈ pluginTypes))

end Txstatsd.Spec
