import Verif.Spec.Accounting

/-!
# How long the work takes, by the clock
-/

namespace Txstatsd.Spec
variable [Rounding] {C T G PF PM : Type}

/-- The time between the first and the last reading of the clock made on the way from one state to another. -/
def elapsed (w : World) (s s' : PS C T G PF PM) : ℚ := w.clk (s'.ticks - 1) - w.clk s.ticks

open Classical in
/-- The time spent since the last completed flush on messages that were handled, of the types in `P`; in a history from state `s` on,
`x` being the time spent before it. -/
noncomputable def workedSince (I : Impl C T G PF PM) (w : World) (P : Str → Prop) :
    PS C T G PF PM → ℚ → List Op → ℚ
  | _, x, [] => x
  | s, x, .msg m :: os =>
    workedSince I w P (process I w s m).1
      (if ∃ t, P t ∧ Handled I w s t m then x + elapsed w s (process I w s m).1 else x) os
  | s, x, .flush i p :: os =>
    workedSince I w P (Txstatsd.flush I w i p s).1 (if (Txstatsd.flush I w i p s).2.2 = none then 0 else x) os

/-- Stretches of clock readings, each beginning right after the end of the one before: the first begins with reading `a`, the last
ends before reading `b`. -/
inductive Tiles : Nat → List (Nat × Nat) → Nat → Prop
  | nil (a : Nat) : Tiles a [] a
  | cons {a j b : Nat} {ws : List (Nat × Nat)} (h : a < j) (hw : Tiles (j + 1) ws b) : Tiles a ((a, j) :: ws) b

/-- The five kinds of metrics a flush reports about, in the order in which it treats them. -/
def flushKinds : List Str := [c!"counter", c!"timer", c!"gauge", c!"meter", c!"plugin"]

end Txstatsd.Spec
