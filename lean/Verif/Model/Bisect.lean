import Verif.Model.Base

/-!
# The `bisect` module of the Python standard library

Used by hashing.py and exponentiallydecayingsample.py. Both functions are the published binary searches; `lt` is the
`<` of the elements.
-/

namespace Txstatsd
variable {α : Type}

/-- The loop of `bisect.bisect_right`: `while lo < hi`
(used in hashing.py:46, stats/exponentiallydecayingsample.py:91-94, 130). -/
def bisectRightLoop (lt : α → α → Bool) (a : List α) (x : α) (lo hi : Nat) : Nat :=
  if h : lo < hi then
    let mid := (lo + hi) / 2
    match a[mid]? with
    | none => lo   -- unreachable for `hi ≤ len(a)`
    | some y => if lt x y then bisectRightLoop lt a x lo mid else bisectRightLoop lt a x (mid + 1) hi
  else lo
termination_by hi - lo
decreasing_by all_goals omega

/-- `bisect.bisect_right(a, x)` (used in hashing.py:46, stats/exponentiallydecayingsample.py:91-94, 130). -/
def bisectRight (lt : α → α → Bool) (a : List α) (x : α) : Nat := bisectRightLoop lt a x 0 a.length

/-- The loop of `bisect.bisect_left` (used in hashing.py:56, 64). -/
def bisectLeftLoop (lt : α → α → Bool) (a : List α) (x : α) (lo hi : Nat) : Nat :=
  if h : lo < hi then
    let mid := (lo + hi) / 2
    match a[mid]? with
    | none => lo   -- unreachable for `hi ≤ len(a)`
    | some y => if lt y x then bisectLeftLoop lt a x (mid + 1) hi else bisectLeftLoop lt a x lo mid
  else lo
termination_by hi - lo
decreasing_by all_goals omega

/-- `bisect.bisect_left(a, x)` (used in hashing.py:56, 64). -/
def bisectLeft (lt : α → α → Bool) (a : List α) (x : α) : Nat := bisectLeftLoop lt a x 0 a.length

/-- `bisect.insort(a, x)` = `insort_right`: insert at `bisect_right(a, x)`
(used in hashing.py:46, stats/exponentiallydecayingsample.py:91-94, 130). -/
def insort (lt : α → α → Bool) (a : List α) (x : α) : List α := a.insertIdx (bisectRight lt a x) x

end Txstatsd
