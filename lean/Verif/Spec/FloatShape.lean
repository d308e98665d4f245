import Verif.Model.Base

/-!
# The two shapes of a float's text
-/

namespace Txstatsd.Spec

/-- Digits, a point, digits; no zeros that could be left out. -/
def PlainShape (t : Str) : Prop :=
  ∃ I F : Str, t = I ++ '.' :: F ∧ I ≠ [] ∧ F ≠ [] ∧ (∀ c ∈ I ++ F, c.isDigit = true) ∧
    (I = ['0'] ∨ I.head? ≠ some '0') ∧ (F = ['0'] ∨ F.getLast? ≠ some '0')

/-- One digit that is not zero, at most `n` more after a point, the last of them not zero, and an exponent with its sign and at
least two digits. -/
def ExpShape (n : ℕ) (t : Str) : Prop :=
  ∃ (d : Char) (F : Str) (s : Char) (X : Str), t = d :: ((if F = [] then [] else '.' :: F) ++ 'e' :: s :: X) ∧
    d.isDigit = true ∧ d ≠ '0' ∧ (∀ c ∈ F, c.isDigit = true) ∧ F.getLast? ≠ some '0' ∧ F.length ≤ n ∧
    (s = '+' ∨ s = '-') ∧ (∀ c ∈ X, c.isDigit = true) ∧ 2 ≤ X.length ∧ (X.length = 2 ∨ X.head? ≠ some '0')

/-- A minus sign where the number is negative. -/
def Signed (neg : Prop) (shape : Str → Prop) (t : Str) : Prop := (neg ∧ ∃ u, t = '-' :: u ∧ shape u) ∨ (¬ neg ∧ shape t)

end Txstatsd.Spec
