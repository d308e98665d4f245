import Verif.Spec.Configurable
import Verif.Model.Site

/-!
# What the web site should answer
-/

namespace Txstatsd.Spec

/-- The clock never goes back. -/
def ForwardClock (w : World) : Prop := ∀ i j, i ≤ j → w.clk i ≤ w.clk j

/-- A number as a rational; infinities and nan have none. -/
inductive Amount : Num → ℚ → Prop
  | int (z : ℤ) : Amount (.int z) z
  | flt (q : ℚ) : Amount (.flt (.fin q)) q

/-- The hexadecimal digit of a number. -/
def HexDigit (c : Char) (n : Nat) : Prop := c!"0123456789abcdef"[n]? = some c ∨ c!"0123456789ABCDEF"[n]? = some c

/-- The first text encodes the second: a percent sign and two hexadecimal digits stand for the character of that number, all else,
also a percent sign without two hexadecimal digits, for itself. The encoded text has no slash. -/
inductive Encodes : Str → Str → Prop
  | nil : Encodes [] []
  | plain (c : Char) (e p : Str) (h1 : c ≠ '%') (h2 : c ≠ '/') (h : Encodes e p) : Encodes (c :: e) (c :: p)
  | escape (a b : Char) (x y : Nat) (e p : Str) (ha : HexDigit a x) (hb : HexDigit b y) (h : Encodes e p) :
      Encodes ('%' :: a :: b :: e) (Char.ofNat (16 * x + y) :: p)
  | stray (e p : Str) (hn : ∀ a b r x y, e = a :: b :: r → HexDigit a x → ¬ HexDigit b y) (h : Encodes e p) :
      Encodes ('%' :: e) ('%' :: p)

/-- The path of a request made of these parts, each of them encoded. -/
def Path (path : Str) (parts : List Str) : Prop :=
  ∃ encs, List.Forall₂ Encodes encs parts ∧ parts ≠ [] ∧ path = '/' :: joinWith ['/'] encs

end Txstatsd.Spec
