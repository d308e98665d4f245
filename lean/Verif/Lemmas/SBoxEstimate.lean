import Verif.Spec.SBoxEstimate
import Verif.Lemmas.Tails
import Mathlib.Algebra.BigOperators.Fin
import Mathlib.Algebra.Order.Ring.Pow
import Mathlib.Data.Nat.Log
import Verif.Lemmas.DistinctFloat
import Verif.Props.SBoxUniform
import Verif.Props.DistinctFloat

set_option linter.unusedSectionVars false
set_option linter.unusedSimpArgs false
set_option linter.unusedVariables false

/-!
# Lemmas about estimates with random tables
-/

namespace Txstatsd
open Spec

theorem run_exists (n : ℕ) (t : Nat → Nat) (since : ℚ) (h : List (ℚ × Str)) : ∃ r, IsRun n t since h r := by
  classical
  by_cases hex : ∃ r, r < n ∧ ¬ Hit n t since h r
  · refine ⟨Nat.find hex, (Nat.find_spec hex).1.le, fun j hj => ?_, fun _ => (Nat.find_spec hex).2⟩
    by_contra hc
    exact Nat.find_min hex hj ⟨hj.trans (Nat.find_spec hex).1, hc⟩
  · push Not at hex
    exact ⟨n, le_rfl, fun j hj => hex j hj, fun h => absurd h (lt_irrefl n)⟩

/-- The run of a table. -/
noncomputable def runOf (n : ℕ) (since : ℚ) (h : List (ℚ × Str)) (t : Tables) : ℕ := (run_exists n (entriesOf t) since h).choose

theorem runOf_spec (n : ℕ) (since : ℚ) (h : List (ℚ × Str)) (t : Tables) : IsRun n (entriesOf t) since h (runOf n since h t) :=
  (run_exists n (entriesOf t) since h).choose_spec

theorem run_unique {n : ℕ} {t : Nat → Nat} {since : ℚ} {h : List (ℚ × Str)} {r r' : ℕ} (h1 : IsRun n t since h r)
    (h2 : IsRun n t since h r') : r = r' :=
  le_antisymm (isRun_le h1 h2 fun _ a => a) (isRun_le h2 h1 fun _ a => a)

theorem runs_sum {n k : ℕ} {since : ℚ} {h : List (ℚ × Str)} {T : Fin k → Tables} {runs : List ℕ}
    (hr : List.Forall₂ (fun t r => IsRun n t since h r) (tablesOf T) runs) : runs.sum = ∑ i, runOf n since h (T i) := by
  have : runs = List.ofFn fun i => runOf n since h (T i) := by
    unfold tablesOf at hr
    induction k generalizing runs with
    | zero => simp at hr; simp [hr]
    | succ k ih =>
      rw [List.ofFn_succ] at hr ⊢
      cases hr with
      | cons h1 h2 => rw [run_unique h1 (runOf_spec n since h (T 0)), ih (T := fun i => T i.succ) h2]
  rw [this, List.sum_ofFn]

section
variable [Rounding] [Ieee] [FloatPow] [FloatPowLaws]

/-- The report and the runs. -/
theorem report_bounds {n j : ℕ} (hn : 0 < n) (hn2 : n ≤ 1000) (hj : j ≤ 30) {tables : List (Nat → Nat)} (hl : tables.length = 2 ^ j)
    {since : ℚ} (hs : 0 ≤ since) {h : List (ℚ × Str)} (ho : Ordered h) {e : ℤ} (he : Reports n tables h since e) :
    ∃ runs, List.Forall₂ (fun t r => IsRun n t since h r) tables runs ∧
      (∀ x ≤ 33, runs.sum ≤ 2 ^ j * x → (e : ℚ) ≤ 2 ^ x / (77351 / 100000)) ∧
      (∀ x ≤ 33, 2 ^ j * x ≤ runs.sum → (2 : ℚ) ^ x / (77351 / 100000) < e + 1) := by
  obtain ⟨c, hc, hd⟩ := he
  obtain ⟨c', hc', hw, hbk, hrows⟩ := C42_add n hn tables h
  rw [hc] at hc'; cases hc'
  have hlen : c.rows.length = 2 ^ j := by rw [← hl, ← hrows, List.length_map]
  obtain ⟨w, h1, h2, h3, h4⟩ := distinctFloat_eq c hw (by omega) j hj hlen since
  have hp : (0 : ℚ) < ((2 ^ j : ℕ) : ℚ) := by exact_mod_cast (pow_pos (by norm_num) j : 0 < 2 ^ j)
  refine ⟨c.rows.map (HashRow.least0 since), ?_, fun x hx hsum => ?_, fun x hx hsum => ?_⟩
  · rw [feed_init hn tables h] at hc
    cases hc
    simp only [List.map_map, List.forall₂_map_right_iff]
    exact List.forall₂_same.2 fun t _ => least0_isRun hn t since hs h ho
  · have hle : (((c.rows.map (HashRow.least0 since)).sum : ℕ) : ℚ) / ((2 ^ j : ℕ) : ℚ) ≤ (x : ℚ) := by
      rw [div_le_iff₀ hp, mul_comm]
      exact_mod_cast hsum
    have hm := FloatPowLaws.mono hle
    rw [h1, FloatPowLaws.whole x (by omega)] at hm
    have hwx : w ≤ 2 ^ x := by simpa [PyFloat.le] using hm
    have h33 : (2 : ℚ) ^ x ≤ 2 ^ 1000 := pow_le_pow_right₀ (by norm_num) (by omega)
    obtain ⟨a, b, ea, eb, hab⟩ := estimateFloat_mono h2 hwx h33
    rw [← h4, hd] at ea
    cases ea
    rw [estimate_pow x hx] at eb
    cases eb
    exact le_trans (by exact_mod_cast hab) (Int.floor_le _)
  · have hle : (x : ℚ) ≤ (((c.rows.map (HashRow.least0 since)).sum : ℕ) : ℚ) / ((2 ^ j : ℕ) : ℚ) := by
      rw [le_div_iff₀ hp, mul_comm]
      exact_mod_cast hsum
    have hm := FloatPowLaws.mono hle
    rw [h1, FloatPowLaws.whole x (by omega)] at hm
    have hwx : 2 ^ x ≤ w := by simpa [PyFloat.le] using hm
    obtain ⟨a, b, ea, eb, hab⟩ := estimateFloat_mono (one_le_pow₀ (by norm_num) : (1 : ℚ) ≤ 2 ^ x) hwx h3
    rw [← h4, hd] at eb
    cases eb
    rw [estimate_pow x hx] at ea
    cases ea
    have := Int.lt_floor_add_one ((2 : ℚ) ^ x / (77351 / 100000))
    have h5 : ((⌊(2 : ℚ) ^ x / (77351 / 100000)⌋ : ℤ) : ℚ) ≤ (e : ℚ) := by exact_mod_cast hab
    linarith

end

/-- Shares of a part of the elements. -/
theorem howMany_part {Ω : Type} [Fintype Ω] (P Q : Ω → Prop) {a b s u : ℕ} (h : howMany P * a ≤ b * howMany (fun _ : Ω => True))
    (hq : howMany (fun _ : Ω => True) * s ≤ u * howMany Q) : howMany (fun x => Q x ∧ P x) * (a * s) ≤ b * u * howMany Q := by
  have h1 : howMany (fun x => Q x ∧ P x) ≤ howMany P := howMany_mono fun x hx => hx.2
  generalize howMany (fun x => Q x ∧ P x) = x at *
  generalize howMany P = p at *
  generalize howMany Q = q at *
  generalize howMany (fun _ : Ω => True) = m at *
  calc x * (a * s) ≤ p * (a * s) := Nat.mul_le_mul_right _ h1
    _ = p * a * s := by ring
    _ ≤ b * m * s := Nat.mul_le_mul_right _ h
    _ = b * (m * s) := by ring
    _ ≤ b * (u * q) := Nat.mul_le_mul_left _ hq
    _ = b * u * q := by ring

open Classical in
theorem pi_count (k m W : ℕ) (P : Fin W → Prop) :
    howMany (fun T : Fin k → Fin m → Fin W => ∀ i b, P (T i b)) = (howMany P) ^ (m * k) := by
  rw [howMany_eq, howMany_eq]
  have : (Finset.univ.filter fun T : Fin k → Fin m → Fin W => ∀ i b, P (T i b)) =
      Fintype.piFinset fun _ : Fin k => Fintype.piFinset fun _ : Fin m => Finset.univ.filter P := by
    ext T
    simp [Fintype.mem_piFinset]
  rw [this, Fintype.card_piFinset]
  simp only [Fintype.card_piFinset, Finset.prod_const, Finset.card_univ, Fintype.card_fin]
  rw [← pow_mul]

theorem below_top (N : ℕ) : howMany (fun x : Fin (N + 1) => (x : ℕ) < N) = N := by
  have h := howMany_range (N + 1) (fun x => x < N)
  rw [h]
  have : (Finset.range (N + 1)).filter (fun x => x < N) = Finset.range N := by
    ext x
    simp only [Finset.mem_filter, Finset.mem_range]
    omega
  rw [this, Finset.card_range]

/-- Leaving out one of many numbers makes little difference. -/
theorem drawn_share (k m N : ℕ) (h : 2 * (m * k) ≤ N + 1) :
    howMany (fun _ : Fin k → Fin m → Fin (N + 1) => True) ≤ 2 * howMany (fun T : Fin k → Fin m → Fin (N + 1) => ∀ i b, (T i b : ℕ) < N) := by
  rw [pi_count k m (N + 1) (fun x => (x : ℕ) < N), below_top]
  have e : howMany (fun _ : Fin k → Fin m → Fin (N + 1) => True) = (N + 1) ^ (m * k) := by
    have := pi_count k m (N + 1) (fun _ => True)
    rw [howMany_true (Ω := Fin (N + 1)), Fintype.card_fin] at this
    rw [← this]
    exact howMany_congr fun _ => by simp
  rw [e]
  generalize m * k = p at *
  have hN : (0 : ℚ) < (N : ℚ) + 1 := by positivity
  have hb := one_add_mul_le_pow (a := -(1 / ((N : ℚ) + 1))) (by
    have : 1 / ((N : ℚ) + 1) ≤ 1 := by rw [div_le_one hN]; linarith [(Nat.cast_nonneg N : (0 : ℚ) ≤ N)]
    linarith) p
  have h1 : (1 : ℚ) / 2 ≤ 1 + (p : ℚ) * -(1 / ((N : ℚ) + 1)) := by
    have hq : 2 * (p : ℚ) ≤ (N : ℚ) + 1 := by exact_mod_cast h
    have : (p : ℚ) * (1 / ((N : ℚ) + 1)) ≤ 1 / 2 := by
      rw [mul_one_div, div_le_div_iff₀ hN (by norm_num)]
      linarith
    linarith
  have h2 : (1 : ℚ) + -(1 / ((N : ℚ) + 1)) = N / ((N : ℚ) + 1) := by field_simp; ring
  rw [h2, div_pow] at hb
  have h3 : (1 : ℚ) / 2 ≤ (N : ℚ) ^ p / ((N : ℚ) + 1) ^ p := h1.trans hb
  rw [div_le_div_iff₀ (by norm_num) (by positivity)] at h3
  have h4 : (((N + 1) ^ p : ℕ) : ℚ) ≤ ((2 * N ^ p : ℕ) : ℚ) := by push_cast; linarith
  exact_mod_cast h4

theorem drawn_half (W : ℕ) (hW : 16384 ≤ W) :
    howMany (fun _ : Fin 32 → Fin 256 → Fin W => True) ≤ 2 * howMany (fun T : Fin 32 → Fin 256 → Fin W => ∀ i b, (T i b : ℕ) + 1 < W) := by
  obtain ⟨N, rfl⟩ : ∃ N, W = N + 1 := ⟨W - 1, by omega⟩
  refine (drawn_share 32 256 N (by omega)).trans (Nat.mul_le_mul_left _ (howMany_mono fun T hT i b => ?_))
  have := hT i b
  omega

theorem top_word {x : ℕ} (h : x + 1 < 2 ^ 32) : x ≤ 0xFFFFFFFF - 1 := by
  norm_num at h ⊢
  omega

theorem drawn_most : howMany (fun _ : Fin 32 → Tables => True) ≤ 2 * howMany (fun T : Fin 32 → Tables => Drawn T) :=
  (drawn_half (2 ^ 32) (by norm_num)).trans (Nat.mul_le_mul_left _ (howMany_mono fun T hT i b => top_word (hT i b)))

theorem share_sum' {A B X M D a b c : ℕ} (ha : A * a ≤ b * M) (hb : B * a ≤ b * M) (hx : X ≤ A + B) (hd : M ≤ 2 * D)
    (h0 : 0 < a) (hab : 4 * b * c ≤ a) : X * c ≤ D := by
  refine Nat.le_of_mul_le_mul_left ?_ h0
  calc a * (X * c) ≤ a * ((A + B) * c) := Nat.mul_le_mul_left _ (Nat.mul_le_mul_right _ hx)
    _ = (A * a + B * a) * c := by ring
    _ ≤ (b * M + b * M) * c := Nat.mul_le_mul_right _ (Nat.add_le_add ha hb)
    _ = 2 * b * c * M := by ring
    _ ≤ 2 * b * c * (2 * D) := Nat.mul_le_mul_left _ hd
    _ = 4 * b * c * D := by ring
    _ ≤ a * D := Nat.mul_le_mul_right _ hab

theorem share_sum {A B X M D : ℕ} (ha : A * 3 ^ (32 * 3) ≤ 2 ^ (32 * (3 + 1)) * M) (hb : B * 3 ^ (32 * 3) ≤ 2 ^ (32 * (3 + 1)) * M)
    (hx : X ≤ A + B) (hd : M ≤ 2 * D) : X * 10 ^ 6 ≤ D :=
  share_sum' ha hb hx hd (Nat.pow_pos (by norm_num)) (by norm_num)

theorem not_above {m l : ℕ} {e : ℤ} (hl : 2 ^ l ≤ m) (h : 21 * (m : ℤ) < e) : (2 : ℚ) ^ (l + 1 + 3) / (77351 / 100000) < e := by
  have e1 : (2 : ℚ) ^ (l + 1 + 3) = 2 ^ l * 16 := by rw [add_assoc, pow_add]; norm_num
  have e2 : (2 : ℚ) ^ l ≤ m := by exact_mod_cast hl
  have e3 : 21 * (m : ℚ) < e := by exact_mod_cast h
  have hp : (0 : ℚ) < 2 ^ l := by positivity
  rw [e1]
  generalize (2 : ℚ) ^ l = z at *
  rw [div_lt_iff₀ (by norm_num)]
  nlinarith

theorem not_below {m l : ℕ} {e : ℤ} (h5 : 5 ≤ l) (hl : m < 2 ^ (l + 1)) (h : 50 * (e + 1) < (m : ℤ)) :
    (e : ℚ) + 1 ≤ (2 : ℚ) ^ (l - 5) / (77351 / 100000) := by
  have e1 : (2 : ℚ) ^ (l + 1) = 2 ^ (l - 5) * 64 := by
    rw [show l + 1 = l - 5 + 6 by omega, pow_add]; norm_num
  have e2 : (m : ℚ) < 2 ^ (l + 1) := by exact_mod_cast hl
  have e3 : 50 * ((e : ℚ) + 1) < (m : ℚ) := by exact_mod_cast h
  rw [e1] at e2
  have hp : (0 : ℚ) < 2 ^ (l - 5) := by positivity
  generalize (2 : ℚ) ^ (l - 5) = z at *
  rw [le_div_iff₀ (by norm_num)]
  nlinarith

theorem not_small {m l : ℕ} {e : ℤ} (h5 : ¬ 5 ≤ l) (hl : m < 2 ^ (l + 1)) (h : 50 * (e + 1) < (m : ℤ))
    (h1 : (2 : ℚ) ^ 0 / (77351 / 100000) < e + 1) : False := by
  have h32 : m < 32 := hl.trans_le (by
    calc 2 ^ (l + 1) ≤ 2 ^ 5 := Nat.pow_le_pow_right (by norm_num) (by omega)
      _ = 32 := by norm_num)
  have h2 : (0 : ℚ) < e := by norm_num at h1; linarith
  have h3 : 0 < e := by exact_mod_cast h2
  omega

theorem log_bounds {m : ℕ} (hm : 1 ≤ m) (hm2 : m ≤ 2 ^ 32) : ∃ l, 2 ^ l ≤ m ∧ m < 2 ^ (l + 1) ∧ l ≤ 32 := by
  have h1 : 2 ^ Nat.log 2 m ≤ m := Nat.pow_log_le_self 2 (by omega)
  exact ⟨Nat.log 2 m, h1, Nat.lt_pow_succ_log_self (by norm_num) _, (Nat.pow_le_pow_iff_right (by norm_num)).1 (h1.trans hm2)⟩

end Txstatsd
