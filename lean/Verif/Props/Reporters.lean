import Verif.Model.Reporters
import Mathlib.Tactic.Linarith
import Mathlib.Data.List.Induction

/-!
# C147: reporters of gauges and counters on their own
-/

namespace Txstatsd

/-- C147: a gauge reports the last value it was given, 0 before the first. -/
theorem C147_gauge (name pre : Str) (vs : List PyFloat) (ts : ℤ) :
    (vs.foldl GaugeRep.mark (GaugeRep.init name pre)).report ts =
      [⟨(if pre = [] then [] else pre ++ c!".") ++ name ++ c!".value",
        (match vs.getLast? with | none => .int 0 | some v => .flt v), ts⟩] := by
  have key : vs.foldl GaugeRep.mark (GaugeRep.init name pre) =
      ⟨name, dotted pre, match vs.getLast? with | none => .int 0 | some v => .flt v⟩ := by
    induction vs using List.reverseRecOn with
    | nil => rfl
    | append_singleton vs v ih => simp [List.foldl_append, ih, GaugeRep.mark]
  rw [key]
  cases pre <;> rfl

/-- C147: a counter reports the last count it was given, without its fraction; 0 before the first. An infinite count or a NaN makes
the report raise. -/
theorem C147_counter (name pre : Str) (vs : List PyFloat) (ts : ℤ) :
    match (vs.foldl CounterRep.mark (CounterRep.init name pre)).report ts with
    | .ok ps => ∃ z : ℤ, ps = [⟨(if pre = [] then [] else pre ++ c!".") ++ name ++ c!".count", .int z, ts⟩] ∧
        (match vs.getLast? with
          | none => z = 0
          | some v => ∃ q : ℚ, v = .fin q ∧ |q - z| < 1 ∧ |(z : ℚ)| ≤ |q|)
    | .error e => vs.getLast? = some .nan ∧ e = .valueError ∨ (∃ neg, vs.getLast? = some (.inf neg)) ∧ e = .overflowError := by
  have key : vs.foldl CounterRep.mark (CounterRep.init name pre) =
      ⟨name, dotted pre, match vs.getLast? with | none => .int 0 | some v => .flt v⟩ := by
    induction vs using List.reverseRecOn with
    | nil => rfl
    | append_singleton vs v ih => simp [List.foldl_append, ih, CounterRep.mark]
  have hd : dotted pre = (if pre = [] then [] else pre ++ c!".") := by cases pre <;> rfl
  rw [key, ← hd]
  cases hl : vs.getLast? with
  | none => exact ⟨0, rfl, rfl⟩
  | some v =>
    cases v with
    | nan => exact Or.inl ⟨rfl, rfl⟩
    | inf b => exact Or.inr ⟨⟨b, rfl⟩, rfl⟩
    | fin q =>
      refine ⟨truncQ q, rfl, q, rfl, ?_⟩
      unfold truncQ
      split
      · rename_i h
        have h1 := Int.floor_le q
        have h2 := Int.lt_floor_add_one q
        have h3 : (0 : ℚ) ≤ (⌊q⌋ : ℚ) := by exact_mod_cast Int.floor_nonneg.2 h
        rw [abs_of_nonneg h, abs_of_nonneg h3, abs_lt]
        exact ⟨⟨by linarith, by linarith⟩, h1⟩
      · rename_i h
        have h1 := Int.le_ceil q
        have h2 := Int.ceil_lt_add_one q
        have h3 : (⌈q⌉ : ℚ) ≤ 0 := by exact_mod_cast Int.ceil_le.2 (by push_cast; linarith)
        rw [Int.floor_neg, neg_neg, abs_of_neg (not_le.1 h), abs_of_nonpos h3, abs_lt]
        exact ⟨⟨by linarith, by linarith⟩, by linarith⟩

example : ([PyFloat.fin 3, .fin (-5 / 2)].foldl CounterRep.mark (CounterRep.init c!"a" c!"p")).report 7 = .ok [⟨c!"p.a.count", .int (-2), 7⟩] := by
  decide +kernel

example : ([].foldl GaugeRep.mark (GaugeRep.init c!"a" c!"")).report 7 = [⟨c!"a.value", .int 0, 7⟩] := rfl

end Txstatsd
