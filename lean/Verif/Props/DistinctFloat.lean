import Verif.Lemmas.DistinctFloat
import Verif.Lemmas.Ieee
import Verif.Props.Distinct

/-!
# The distinct counter in doubles: C140
-/

namespace Txstatsd
open Spec

section
variable [Rounding] [Ieee] [FloatPow] [FloatPowLaws]

/-- C140: in doubles too the count comes from the unbroken runs of hit levels: their mean `m` is not rounded at all, and the estimate is
the quotient of `2 ** m` by 0.77351 rounded down, but for a relative error below `2^-51` before the rounding down. -/
theorem C140_value (n : ℕ) (hn : 0 < n) (hn2 : n ≤ 1000) (j : ℕ) (hj : j ≤ 30) (tables : List (Nat → Nat)) (hl : tables.length = 2 ^ j)
    (since : ℚ) (hs : 0 ≤ since) (h : List (ℚ × Str)) (ho : Ordered h) :
    ∃ c runs w e, feed (.init n tables) h = .ok c ∧ List.Forall₂ (fun t r => IsRun n t since h r) tables runs ∧
      FloatPow.pow2 (.fin ((runs.sum : ℚ) / 2 ^ j)) = .fin w ∧ c.distinctFloat (.fin since) = .ok e ∧
      ⌊w / (77351 / 100000) * (1 - 1 / 2 ^ 51)⌋ ≤ e ∧ e ≤ ⌊w / (77351 / 100000) * (1 + 1 / 2 ^ 51)⌋ := by
  obtain ⟨c, hc, hw, hbk, hrows⟩ := C42_add n hn tables h
  have hlen : c.rows.length = 2 ^ j := by rw [← hl, ← hrows, List.length_map]
  obtain ⟨w, h1, h2, h3, h4⟩ := distinctFloat_eq c hw (by omega) j hj hlen since
  obtain ⟨e, h5, h6, h7⟩ := estimateFloat_near h2 h3
  refine ⟨c, c.rows.map (HashRow.least0 since), w, e, hc, ?_, ?_, h4.trans h5, h6, h7⟩
  · rw [feed_init hn tables h] at hc
    cases hc
    simp only [List.map_map, List.forall₂_map_right_iff]
    exact List.forall₂_same.2 fun t _ => least0_isRun hn t since hs h ho
  · simpa using h1

/-- C140: if the mean of the runs is a whole number `k`, as when all hash functions agree, the estimate is the exact one: the greatest
whole number that is at most `2^k / 0.77351`. -/
theorem C140_whole (n : ℕ) (hn : 0 < n) (hn2 : n ≤ 33) (j : ℕ) (hj : j ≤ 30) (tables : List (Nat → Nat)) (hl : tables.length = 2 ^ j)
    (since : ℚ) (hs : 0 ≤ since) (h : List (ℚ × Str)) (ho : Ordered h) (runs : List ℕ)
    (hr : List.Forall₂ (fun t r => IsRun n t since h r) tables runs) (k : ℕ) (hk : runs.sum = k * 2 ^ j) :
    ∃ c e, feed (.init n tables) h = .ok c ∧ c.distinctFloat (.fin since) = .ok e ∧
      (e : ℚ) ≤ 2 ^ k / (77351 / 100000) ∧ (2 : ℚ) ^ k / (77351 / 100000) < e + 1 := by
  obtain ⟨c, hc, hw, hbk, hrows⟩ := C42_add n hn tables h
  have hlen : c.rows.length = 2 ^ j := by rw [← hl, ← hrows, List.length_map]
  obtain ⟨w, h1, h2, h3, h4⟩ := distinctFloat_eq c hw (by omega) j hj hlen since
  have hruns : c.rows.map (HashRow.least0 since) = runs := by
    rw [feed_init hn tables h] at hc
    cases hc
    simp only [List.map_map]
    clear hw hrows hlen h1 h2 h3 h4 hl hk
    induction hr with
    | nil => rfl
    | @cons t r ts rs h1 _ ih =>
      have h2 := least0_isRun hn t since hs h ho
      exact List.cons_eq_cons.2 ⟨le_antisymm (isRun_le h2 h1 fun _ a => a) (isRun_le h1 h2 fun _ a => a), ih rfl⟩
  have hkn : k ≤ n := by
    have := runs_le c hw since
    rw [hruns, hk, hlen, hbk] at this
    exact Nat.le_of_mul_le_mul_right this (pow_pos (by norm_num) j)
  have hp : ((2 ^ j : ℕ) : ℚ) ≠ 0 := by exact_mod_cast (pow_pos (by norm_num) j : 0 < 2 ^ j).ne'
  have hm : ((runs.sum : ℕ) : ℚ) / ((2 ^ j : ℕ) : ℚ) = (k : ℚ) := by
    rw [hk, Nat.cast_mul, mul_div_assoc, div_self hp, mul_one]
  rw [hruns, hm, FloatPowLaws.whole k (by omega)] at h1
  simp only [PyFloat.fin.injEq] at h1
  rw [← h1, estimate_pow k (by omega)] at h4
  exact ⟨c, _, hc, h4, Int.floor_le _, Int.lt_floor_add_one _⟩

/-- C140: a window that begins earlier never counts less in doubles either, and counting does not raise. -/
theorem C140_windows (c : DistinctCounter) (hc : WellSized c) (hn : c.nBuckets ≤ 1000) (j : ℕ) (hj : j ≤ 30)
    (hl : c.rows.length = 2 ^ j) (a b : ℚ) (hab : a ≤ b) :
    ∃ x y, c.distinctFloat (.fin a) = .ok x ∧ c.distinctFloat (.fin b) = .ok y ∧ y ≤ x := by
  obtain ⟨w, h1, h2, h3, h4⟩ := distinctFloat_eq c hc hn j hj hl a
  obtain ⟨w', h1', h2', h3', h4'⟩ := distinctFloat_eq c hc hn j hj hl b
  have hsum : (c.rows.map (HashRow.least0 b)).sum ≤ (c.rows.map (HashRow.least0 a)).sum :=
    sum_map_le c.rows (HashRow.least0 b) (HashRow.least0 a) (fun r _ => least0_mono rfl fun j _ hj => lt_of_le_of_lt hab hj)
  have hle : (((c.rows.map (HashRow.least0 b)).sum : ℕ) : ℚ) / ((2 ^ j : ℕ) : ℚ) ≤
      (((c.rows.map (HashRow.least0 a)).sum : ℕ) : ℚ) / ((2 ^ j : ℕ) : ℚ) := by gcongr
  have := FloatPowLaws.mono hle
  rw [h1, h1'] at this
  obtain ⟨y, x, e1, e2, e3⟩ := estimateFloat_mono h2' (by simpa [PyFloat.le] using this) h3
  exact ⟨x, y, h4.trans e2, h4'.trans e1, e3⟩

/-- C140: with a clock that reads doubles, between a day after the epoch and `2^53`, the limits of the windows are computed without any
rounding, so that a flush reports the counts of exactly the last minute, hour and day, none smaller than the one before. -/
theorem C140_flush (r : DistinctReporter) (hc : WellSized r.counter) (hn : r.counter.nBuckets ≤ 1000) (j : ℕ) (hj : j ≤ 30)
    (hl : r.counter.rows.length = 2 ^ j) (now : ℚ) (hnow : rnd now = .fin now) (h1 : 86400 ≤ now) (h2 : now ≤ 2 ^ 53) (ts : ℤ) :
    ∃ all day hour min1 : ℤ, r.flushFloat (.fin now) ts = .ok
      [⟨r.pre ++ r.name ++ c!".count", .int all, ts⟩, ⟨r.pre ++ r.name ++ c!".count_1day", .int day, ts⟩,
       ⟨r.pre ++ r.name ++ c!".count_1hour", .int hour, ts⟩, ⟨r.pre ++ r.name ++ c!".count_1min", .int min1, ts⟩] ∧
      r.counter.distinctFloat (.fin (now - 86400)) = .ok day ∧ r.counter.distinctFloat (.fin (now - 3600)) = .ok hour ∧
      r.counter.distinctFloat (.fin (now - 60)) = .ok min1 ∧ r.counter.distinctFloat (.fin 0) = .ok all ∧
      min1 ≤ hour ∧ hour ≤ day ∧ day ≤ all := by
  obtain ⟨all, day, ea, ed, l1⟩ := C140_windows r.counter hc hn j hj hl 0 (now - 86400) (by linarith)
  obtain ⟨day', hour, ed', eh, l2⟩ := C140_windows r.counter hc hn j hj hl (now - 86400) (now - 3600) (by linarith)
  obtain ⟨hour', min1, eh', em, l3⟩ := C140_windows r.counter hc hn j hj hl (now - 3600) (now - 60) (by linarith)
  rw [ed] at ed'; cases ed'
  rw [eh] at eh'; cases eh'
  have sub : ∀ k : ℕ, k ≤ 86400 → (PyFloat.fin now).sub (Num.toFloat (.int k)) = .fin (now - k) := by
    intro k hk
    have hkq : (k : ℚ) ≤ 86400 := by exact_mod_cast hk
    have e : Num.toFloat (.int k) = .fin ((k : ℤ) : ℚ) := rnd_int (by
      rw [abs_of_nonneg (Int.natCast_nonneg _)]
      exact_mod_cast hk.trans (by norm_num))
    rw [e, Int.cast_natCast]
    exact sub_whole hnow h2 k (hkq.trans h1)
  refine ⟨all, day, hour, min1, ?_, ed, eh, em, ea, l3, l2, l1⟩
  have s1 : (PyFloat.fin now).sub (Num.toFloat (.int 60)) = .fin (now - 60) := by simpa using sub 60 (by norm_num)
  have s2 : (PyFloat.fin now).sub (Num.toFloat (.int (60 * 60))) = .fin (now - 3600) := by simpa using sub 3600 (by norm_num)
  have s3 : (PyFloat.fin now).sub (Num.toFloat (.int (60 * 60 * 24))) = .fin (now - 86400) := by simpa using sub 86400 (by norm_num)
  unfold DistinctReporter.flushFloat
  rw [s1, s2, s3, ea, em, eh, ed]
  rfl

end

/-! ## Examples -/

/-- Powers of two at the next lower whole number, as floats (for examples). -/
@[reducible] def exFloatPow : FloatPow := ⟨fun | .fin v => .fin (2 ^ ⌊v⌋.toNat) | x => x⟩

section
attribute [local instance] binary64 exFloatPow

theorem exFloatPow_laws : FloatPowLaws where
  whole k _ := by simp [FloatPow.pow2]
  mono {a b} h := by
    simp only [FloatPow.pow2, PyFloat.le, decide_eq_true_eq]
    exact pow_le_pow_right₀ (by norm_num) (Int.toNat_le_toNat (Int.floor_le_floor h))

/-- The counter of a reporter, after any history. -/
example (name pre : Str) (tables : Nat → Nat → Nat) (h : List (ℚ × Str)) :
    ∃ c, feed (DistinctReporter.init name pre tables).counter h = .ok c ∧ WellSized c ∧ c.nBuckets ≤ 1000 ∧ c.rows.length = 2 ^ 5 := by
  obtain ⟨c, h1, h2, h3, h4⟩ := C42_add 32 (by norm_num) ((List.range 32).map tables) h
  refine ⟨c, h1, h2, by omega, ?_⟩
  have := congrArg List.length h4
  simpa using this

example : ((feed (.init 4 [fun b => b, fun b => b + 1]) [(1, c!"a"), (6, c!"b"), (7, c!"a")]).toOption.bind
    fun c => (c.distinctFloat (.fin 5)).toOption) = some 5 := by decide +kernel

example : (0 : Nat) < 4 ∧ Ordered [(1, c!"a"), (6, c!"b"), (7, c!"a")] ∧ ([fun b => b, fun b => b + 1] : List (Nat → Nat)).length = 2 ^ 1 := by
  refine ⟨by decide, ?_, rfl⟩
  unfold Ordered
  decide +kernel

/-- A clock reading of the present century. -/
example : rnd 1789000000.5 = .fin 1789000000.5 ∧ (86400 : ℚ) ≤ 1789000000.5 ∧ (1789000000.5 : ℚ) ≤ 2 ^ 53 := by
  refine ⟨binary64_ieee.rep.2 ⟨⟨3578000001, -1, by norm_num, by norm_num, by norm_num⟩, ?_⟩, by norm_num, by norm_num⟩
  have h1 : |(1789000000.5 : ℚ)| ≤ 2 ^ (31 : ℤ) := by norm_num
  exact lt_of_le_of_lt h1 (zpow_lt_zpow_right₀ (by norm_num) (by norm_num))

end
end Txstatsd
