import Verif.Model.SBoxDraw
import Verif.Spec.SBoxEstimate
import Verif.Props.SBoxEstimate

set_option linter.unusedSectionVars false
set_option linter.unusedSimpArgs false
set_option linter.unusedVariables false

/-!
# Random hashes: C153
-/

namespace Txstatsd
open Spec

theorem drawHashes_snd (rand : ℕ → ℕ) : ∀ (k start : ℕ), (drawHashes rand start k).2 = start + 256 * k
  | 0, start => rfl
  | k + 1, start => by
    rw [drawHashes]
    simp only [sboxInit]
    rw [drawHashes_snd rand k]
    omega

theorem drawHashes_get (rand : ℕ → ℕ) : ∀ (k start i : ℕ), (drawHashes rand start k).1[i]? =
    if i < k then some (fun b => if b < 256 then rand (start + 256 * i + b) else 0) else none
  | 0, start, i => by simp [drawHashes]
  | k + 1, start, i => by
    rw [drawHashes]
    simp only [sboxInit]
    cases i with
    | zero => simp
    | succ i =>
      rw [List.getElem?_cons_succ, drawHashes_get rand k]
      simp only [Nat.add_lt_add_iff_right]
      congr 4
      funext b
      congr 2
      omega

/-- C153: the hash functions of a counter use draws of their own: entry `b` of the table `i` is the draw `256 i + b` after those made
before, and the counter makes 256 draws for each hash function. -/
theorem C153_draws (rand : ℕ → ℕ) (start k n : ℕ) :
    (drawCounter rand start k n).2 = start + 256 * k ∧ (drawCounter rand start k n).1.nBuckets = n ∧
      (drawCounter rand start k n).1.rows.length = k ∧
      ∀ (i : ℕ) (r : HashRow), (drawCounter rand start k n).1.rows[i]? = some r →
        r.buckets = List.replicate n 0 ∧ ∀ b < 256, r.table b = rand (start + (256 * i + b)) := by
  have hlen : (drawHashes rand start k).1.length = k := by
    have h := drawHashes_get rand k start
    have h1 := h k
    rw [if_neg (lt_irrefl k), List.getElem?_eq_none_iff] at h1
    by_contra hc
    have h2 := h (drawHashes rand start k).1.length
    rw [if_pos (by omega), List.getElem?_eq_none_iff.2 le_rfl] at h2
    cases h2
  refine ⟨drawHashes_snd rand k start, rfl, by simp [drawCounter, DistinctCounter.init, hlen], fun i r h => ?_⟩
  simp only [drawCounter, DistinctCounter.init, List.getElem?_map, drawHashes_get] at h
  split_ifs at h with hi
  · simp only [Option.map_some, Option.some.injEq] at h
    subst h
    exact ⟨rfl, fun b hb => by simp [hb, Nat.add_assoc]⟩
  · simp at h

/-- C153: each choice of tables comes from exactly one sequence of draws, so that the shares of C151 and C152 are those of the draws. -/
theorem C153_choices (rand : ℕ → ℕ) (start k n : ℕ) (T : Fin k → Tables) :
    (drawCounter rand start k n).1 = .init n (tablesOf T) ↔ ∀ (i : Fin k) (b : Fin 256), rand (start + (256 * i + b)) = T i b := by
  constructor
  · intro h i b
    have h1 : (drawCounter rand start k n).1.rows[(i : ℕ)]? = (DistinctCounter.init n (tablesOf T)).rows[(i : ℕ)]? := by rw [h]
    simp only [drawCounter, DistinctCounter.init, List.getElem?_map, drawHashes_get, tablesOf, List.getElem?_ofFn, i.2, if_true,
      Option.map_some, dif_pos, Option.some.injEq, HashRow.mk.injEq, and_true] at h1
    have h2 := congrFun h1 b
    simp only [b.2, if_true, entriesOf, dif_pos] at h2
    rw [← h2, Nat.add_assoc]
  · intro h
    have : (drawHashes rand start k).1 = tablesOf T := by
      apply List.ext_getElem?
      intro i
      rw [drawHashes_get, tablesOf, List.getElem?_ofFn]
      by_cases hi : i < k
      · simp only [hi, if_true, dif_pos, Option.some.injEq]
        funext b
        unfold entriesOf
        split_ifs with hb
        · rw [Nat.add_assoc]
          exact h ⟨i, hi⟩ ⟨b, hb⟩
        · rfl
      · simp [hi]
    simp only [drawCounter, this]

/-- C153: the hash of the module draws a table for every call, and so does not depend on the data alone: whatever numbers are drawn,
the empty text has the hash 0; a text of one character has three times the number drawn for it, modulo `2^32`. -/
theorem C153_fresh (rand : ℕ → ℕ) (start : ℕ) (c : Char) (hc : c.toNat < 256) :
    freshHash rand start [] = (0, start + 256) ∧
      freshHash rand start [c] = (rand (start + c.toNat) * 3 % 2 ^ 32, start + 256) := by
  refine ⟨rfl, ?_⟩
  have h : freshHash rand start [c] = (((0 ^^^ rand (start + c.toNat)) * 3) &&& 0xFFFFFFFF, start + 256) := by
    simp [freshHash, sboxInit, sboxHash, hc]
  rw [h, Nat.zero_xor, show (0xFFFFFFFF : ℕ) = 2 ^ 32 - 1 by norm_num, Nat.and_two_pow_sub_one_eq_mod]

open Classical in
theorem pair_count {Ω : Type} [Fintype Ω] (f : Ω → ℕ) (W : ℕ) (h : ∀ x, howMany (fun y => f y = f x) * W = howMany (fun _ : Ω => True)) :
    howMany (fun T : Fin 2 → Ω => f (T 0) = f (T 1)) * W = howMany (fun _ : Fin 2 → Ω => True) := by
  have e1 : howMany (fun T : Fin 2 → Ω => f (T 0) = f (T 1)) = howMany (fun p : Ω × Ω => f p.1 = f p.2) := by
    rw [howMany_eq, howMany_eq]
    refine Finset.card_bij (fun T _ => (T 0, T 1)) ?_ ?_ ?_
    · simp
    · intro T _ T' _ he
      simp only [Prod.mk.injEq] at he
      exact funext (Fin.forall_fin_two.2 he)
    · intro p hp
      exact ⟨fun i => if i = 0 then p.1 else p.2, by simpa using hp, by simp⟩
  have e2 : howMany (fun p : Ω × Ω => f p.1 = f p.2) = ∑ x : Ω, howMany (fun y => f y = f x) := by
    rw [howMany_eq, Finset.card_filter, Fintype.sum_prod_type_right]
    refine Finset.sum_congr rfl fun x _ => ?_
    rw [howMany_eq, Finset.card_filter]
  rw [e1, e2, Finset.sum_mul, Finset.sum_congr rfl fun x _ => h x]
  simp only [Finset.sum_const, Finset.card_univ, smul_eq_mul, howMany_true, Fintype.card_pi, Finset.prod_const, Fintype.card_fin]
  ring

/-- C153: two instances give an item in which some byte occurs an odd number of times the same hash with one in `2^32` of their
tables. -/
theorem C153_two (a : Str) (ha : Bytes a) (ua : Unalike a []) :
    howMany (fun T : Fin 2 → Tables => hashWith (T 0) a = hashWith (T 1) a) * 2 ^ 32 = howMany (fun _ : Fin 2 → Tables => True) :=
  pair_count (fun t => hashWith t a) (2 ^ 32) fun t => C151_value a ha ua _ (hashWith_lt t a)

/-- C153, refuted: "Two instances of this class will hash differently." They can draw the same table, and the empty text has one hash
with all. -/
theorem C153_refuted : ¬ ∀ (rand : ℕ → ℕ) (start : ℕ), (∀ i, rand i ≤ 0xFFFFFFFF - 1) →
    ∃ data, (freshHash rand start data).1 ≠ (freshHash rand (start + 256) data).1 := by
  intro h
  obtain ⟨data, hd⟩ := h (fun _ => 7) 0 (by intro i; norm_num)
  exact hd rfl

/-- C153, refuted: the hash of the module gives the same data the same hash. -/
theorem C153_refuted_function : ¬ ∀ (rand : ℕ → ℕ) (start : ℕ) (data : Str), (∀ i, rand i ≤ 0xFFFFFFFF - 1) →
    (freshHash rand start data).1 = (freshHash rand (freshHash rand start data).2 data).1 := by
  intro h
  have := h (fun i => if i < 256 then 1 else 2) 0 c!"a" (by intro i; by_cases h : i < 256 <;> simp [h])
  revert this
  decide +kernel

/-- C153, the part that holds: two instances with tables that differ in an entry hash differently. -/
theorem C153_partial (rand : ℕ → ℕ) (start start' : ℕ) (c : Char) (hc : c.toNat < 256)
    (hd : rand (start + c.toNat) % 2 ^ 32 ≠ rand (start' + c.toNat) % 2 ^ 32) :
    ∃ data, (freshHash rand start data).1 ≠ (freshHash rand start' data).1 := by
  refine ⟨[c], ?_⟩
  rw [(C153_fresh rand start c hc).2, (C153_fresh rand start' c hc).2]
  intro he
  have h1 : rand (start + c.toNat) * 3 ≡ rand (start' + c.toNat) * 3 [MOD 2 ^ 32] := he
  exact hd (Nat.ModEq.cancel_right_of_coprime (Nat.Coprime.pow_left 32 (by decide)) h1)

example : ∃ rand : ℕ → ℕ, (∀ i, rand i ≤ 0xFFFFFFFF - 1) ∧ rand (0 + 'a'.toNat) % 2 ^ 32 ≠ rand (256 + 'a'.toNat) % 2 ^ 32 :=
  ⟨fun i => i % 1000, fun i => by have := Nat.mod_lt i (show 1000 > 0 by norm_num); norm_num; omega, by decide +kernel⟩

end Txstatsd
