import Verif.Spec.Distinct

/-!
# What the random hash should do
-/

namespace Txstatsd.Spec

/-- The table of an `SBoxHash`: 256 numbers of 32 bits. -/
def Table32 (T : Nat → Nat) : Prop := ∀ b, T b < 2 ^ 32

/-- The sum of the table entries of the bytes of an item. -/
def entrySum (T : Nat → Nat) (item : Str) : Nat := (item.map fun c => T c.toNat).sum

/-- The table with the lowest bit of one entry flipped. -/
def flipLow (T : Nat → Nat) (b : Nat) : Nat → Nat := fun i => if i = b then T i + 1 - 2 * (T i % 2) else T i

/-- Every byte occurs an even number of times. -/
def Paired (item : Str) : Prop := ∀ c, item.count c % 2 = 0

end Txstatsd.Spec
