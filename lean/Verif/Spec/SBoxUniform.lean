import Verif.Spec.SBox
import Mathlib.Data.Fintype.Pi
import Mathlib.Data.Fintype.BigOperators

/-!
# Chances over the random tables of the hash
-/

namespace Txstatsd.Spec

/-- The tables an `SBoxHash` could draw: one number of 32 bits for each byte. -/
abbrev Tables := Fin 256 → Fin (2 ^ 32)

/-- The table as it is indexed. -/
def entriesOf (t : Tables) : Nat → Nat := fun b => if h : b < 256 then t ⟨b, h⟩ else 0

/-- The hash of an item with the table. -/
def hashWith (t : Tables) (item : Str) : Nat := sboxHash (entriesOf t) item

/-- An item consists of bytes. -/
def Bytes (item : Str) : Prop := ∀ c ∈ item, c.toNat < 256

open Classical in
/-- How many elements of a finite type have a property. -/
noncomputable def howMany {Ω : Type} [Fintype Ω] (P : Ω → Prop) : ℕ := (Finset.univ.filter P).card

/-- How many numbers of 32 bits have a property. -/
noncomputable def howManyWords (P : ℕ → Prop) : ℕ := howMany fun x : Fin (2 ^ 32) => P x

/-- Some byte occurs an odd number of times in one of the items and an even number of times in the other. -/
def Unalike (a b : Str) : Prop := ∃ c, (a.count c + b.count c) % 2 = 1

/-- Items of bytes, no two alike, and none alike the empty one. -/
def AllUnalike (items : List Str) : Prop :=
  (∀ a ∈ items, Bytes a ∧ Unalike a []) ∧ items.Pairwise Unalike

/-- The tables of several hash functions, as a counter has them. -/
def tablesOf {k : ℕ} (T : Fin k → Tables) : List (Nat → Nat) := List.ofFn fun i => entriesOf (T i)

end Txstatsd.Spec
