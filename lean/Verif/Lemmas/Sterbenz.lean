import Verif.Lemmas.Float
import Verif.Lemmas.MetricsExt

set_option linter.unusedSectionVars false
set_option linter.unusedSimpArgs false
set_option linter.unusedVariables false

namespace Txstatsd
open Spec

section
variable [Rounding] [Ieee]

/-- A difference on a common grid that is not greater than one of its terms is not rounded. -/
theorem sub_exact {a b : ℚ} (ha : rnd a = .fin a) (hb : rnd b = .fin b) (b0 : 0 ≤ b) (hba : b ≤ a)
    (h : ∀ m e m' e' : ℤ, |m| ≤ 2 ^ 53 → -1074 ≤ e → a = m * 2 ^ e → |m'| ≤ 2 ^ 53 → -1074 ≤ e' → b = m' * 2 ^ e' → e' ≤ e → a - b ≤ b) :
    rnd (a - b) = .fin (a - b) := by
  obtain ⟨⟨m, e, hm, he, ea⟩, hbig⟩ := Ieee.rep.1 ha
  obtain ⟨⟨m', e', hm', he', eb⟩, _⟩ := Ieee.rep.1 hb
  refine Ieee.rep.2 ⟨?_, ?_⟩
  · rcases le_total e' e with hle | hle
    · have hd := h m e m' e' hm he ea hm' he' eb hle
      obtain ⟨z, z0, hz⟩ := places hle
      have hp := two_zpow_pos e'
      have e1 : a - b = ((m * z - m' : ℤ) : ℚ) * 2 ^ e' := by
        have : (2 : ℚ) ^ e = z * 2 ^ e' := by rw [← hz]; field_simp
        rw [ea, eb, this]; push_cast; ring
      refine ⟨m * z - m', e', ?_, he', e1⟩
      have h0 : 0 ≤ m * z - m' := by
        have : 0 ≤ ((m * z - m' : ℤ) : ℚ) * 2 ^ e' := by rw [← e1]; linarith
        exact_mod_cast nonneg_of_mul_nonneg_left this hp
      have h1 : ((m * z - m' : ℤ) : ℚ) ≤ m' := by
        have : ((m * z - m' : ℤ) : ℚ) * 2 ^ e' ≤ m' * 2 ^ e' := by rw [← e1, ← eb]; exact hd
        exact le_of_mul_le_mul_right this hp
      have h2 : m * z - m' ≤ m' := by exact_mod_cast h1
      rw [abs_of_nonneg h0]
      exact h2.trans ((le_abs_self _).trans hm')
    · obtain ⟨z, z0, hz⟩ := places hle
      have hp := two_zpow_pos e
      have e1 : a - b = ((m - m' * z : ℤ) : ℚ) * 2 ^ e := by
        have : (2 : ℚ) ^ e' = z * 2 ^ e := by rw [← hz]; field_simp
        rw [ea, eb, this]; push_cast; ring
      refine ⟨m - m' * z, e, ?_, he, e1⟩
      have h0 : 0 ≤ m - m' * z := by
        have : 0 ≤ ((m - m' * z : ℤ) : ℚ) * 2 ^ e := by rw [← e1]; linarith
        exact_mod_cast nonneg_of_mul_nonneg_left this hp
      have h1 : ((m - m' * z : ℤ) : ℚ) ≤ m := by
        have : ((m - m' * z : ℤ) : ℚ) * 2 ^ e ≤ m * 2 ^ e := by rw [← e1, ← ea]; linarith
        exact le_of_mul_le_mul_right this hp
      have h2 : m - m' * z ≤ m := by exact_mod_cast h1
      rw [abs_of_nonneg h0]
      exact h2.trans ((le_abs_self _).trans hm)
  · rw [abs_of_nonneg (by linarith)]
    have := (abs_lt.1 hbig).2
    linarith

/-- Sterbenz: the difference of doubles within a factor of two is exact. -/
theorem sterbenz {a b : ℚ} (ha : rnd a = .fin a) (hb : rnd b = .fin b) (h1 : b ≤ a) (h2 : a ≤ 2 * b) :
    rnd (a - b) = .fin (a - b) :=
  sub_exact ha hb (by linarith) h1 (fun _ _ _ _ _ _ _ _ _ _ _ => by linarith)

/-- A whole number taken from a double that is greater, up to `2^53`. -/
theorem sub_whole {a : ℚ} (ha : rnd a = .fin a) (h53 : a ≤ 2 ^ 53) (k : ℕ) (hk : (k : ℚ) ≤ a) : rnd (a - k) = .fin (a - k) := by
  obtain ⟨⟨m, e, hm, he, ea⟩, _⟩ := Ieee.rep.1 ha
  rcases le_total e 0 with h | h
  · -- both on the grid of a
    obtain ⟨z, z0, hz⟩ := places h
    have hp := two_zpow_pos e
    have e1 : a - k = ((m - k * z : ℤ) : ℚ) * 2 ^ e := by
      have : (1 : ℚ) = z * 2 ^ e := by rw [← hz, zpow_zero]; field_simp
      rw [ea]; push_cast
      rw [sub_mul, mul_assoc, ← this, mul_one]
    refine Ieee.rep.2 ⟨⟨m - k * z, e, ?_, he, e1⟩, ?_⟩
    · have h0 : 0 ≤ m - k * z := by
        have : 0 ≤ ((m - k * z : ℤ) : ℚ) * 2 ^ e := by rw [← e1]; linarith
        exact_mod_cast nonneg_of_mul_nonneg_left this hp
      have : (0 : ℤ) ≤ k * z := by positivity
      rw [abs_of_nonneg h0]
      exact (by linarith : m - k * z ≤ m).trans ((le_abs_self _).trans hm)
    · rw [abs_of_nonneg (sub_nonneg.2 hk)]
      have h0 : (0 : ℚ) ≤ k := Nat.cast_nonneg k
      rename_i hlt
      exact lt_of_le_of_lt (le_trans (sub_le_self a h0) (le_abs_self a)) hlt
  · -- a is a whole number
    have hw : a = ((m * 2 ^ e.toNat : ℤ) : ℚ) := by
      rw [ea]; push_cast
      have := zpow_int h
      push_cast at this
      rw [this]
    have : a - k = ((m * 2 ^ e.toNat - k : ℤ) : ℚ) := by rw [hw]; push_cast; ring
    rw [this]
    apply rnd_int
    have h0 : (0 : ℚ) ≤ ((m * 2 ^ e.toNat - k : ℤ) : ℚ) := by rw [← this]; exact sub_nonneg.2 hk
    have h1 : ((m * 2 ^ e.toNat - k : ℤ) : ℚ) ≤ 2 ^ 53 := by
      rw [← this]
      exact le_trans (sub_le_self a (Nat.cast_nonneg k)) h53
    rw [abs_of_nonneg (by exact_mod_cast h0)]
    exact_mod_cast h1

end

/-! ## Measured durations -/

section
variable [Rounding]

theorem measure_call_any {c : Client} (h : TInv c) (fmt : PyFloat → Str) (t t' : ℚ) (draw : ℚ) (n : Option Str) (r : Num)
    (hr : Unsampled r) (hl : c.lastTime = .flt (.fin t)) :
    (c.call fmt (.fin t') draw (.timing n none r)).2 =
      { out := some (qualified c.namespc n ++ c!":" ++ (fmt ((rnd (t' - t)).mul (rnd 1000)) ++ c!"|ms")) } ∧
    (c.call fmt (.fin t') draw (.timing n none r)).1.lastTime = .flt (.fin t') := by
  have hext : (c.calculateDuration (.fin t')).1.ext = false := h.ext
  have hd : (c.calculateDuration (.fin t')).2 = .flt (rnd (t' - t)) := by
    simp [Client.calculateDuration, hl, Num.sub, Num.toFloat, PyFloat.sub]
  have h' : TInv (c.calculateDuration (.fin t')).1 := ⟨h.conn, h.ext, h.wf, h.objs⟩
  have hns : (c.calculateDuration (.fin t')).1.namespc = c.namespc := rfl
  simp only [Client.call, fullyQualify_eq, hext, Bool.false_eq_true, if_false, hd, hns]
  have hobj : Unsampled ((c.calculateDuration (.fin t')).1.obtain (qualified c.namespc n) .plain r).2.rate := by
    rw [Client.obtain_obj]
    cases hf : (c.calculateDuration (.fin t')).1.metrics.find (qualified c.namespc n) with
    | none => exact hr
    | some m => exact h'.objs _ m hf
  constructor
  · simp only [Client.write, (Client.obtain_same _ _ _ _).1, h'.conn, if_true]
    rw [send_unsampled fmt draw hobj, Client.obtain_name h'.wf]
    simp [Arg.times1000, Num.mul, Num.toFloat, Arg.render, Num.render]
  · simp only [Client.write, Client.obtain_lastTime]
    rfl

/-- The times of the measuring calls. -/
def measureTimes (l : List Timed) : List ℚ := (l.filter fun p => measures p.1).map fun p => p.2.1

theorem measure_run_any (fmt : PyFloat → Str) (l : List Timed) {c : Client} (h : TInv c) (t0 : ℚ)
    (hl : c.lastTime = .flt (.fin t0)) (hr : ∀ p ∈ l, ∀ r, rateOf p.1 = some r → Unsampled r) (hn : ∀ p ∈ l, p.1 ≠ .resetTiming)
    (hex : List.IsChain (fun a b => rnd (b - a) = .fin (b - a)) (t0 :: measureTimes l)) :
    ∃ ds : List ℚ,
      List.Forall₂ (fun (p : Timed × CallEffect) d => ∃ n r, p.1.1 = .timing n none r ∧
        p.2 = { out := some (qualified c.namespc n ++ c!":" ++ (fmt ((PyFloat.fin d).mul (rnd 1000)) ++ c!"|ms")) })
        ((l.zip (c.run fmt (l.map Timed.step)).2).filter fun p => measures p.1.1) ds ∧
      ds.sum = lastMeasure t0 l - t0 := by
  induction l generalizing c t0 with
  | nil => exact ⟨[], .nil, by simp [lastMeasure]⟩
  | cons p l ih =>
    have hs := Client.call_same fmt c (.fin p.2.1) p.2.2 p.1
    have hi := h.call fmt (.fin p.2.1) p.2.2 (call := p.1) (hr p (by simp))
    have hr' : ∀ p ∈ l, ∀ r, rateOf p.1 = some r → Unsampled r := fun q hq => hr q (by simp [hq])
    have hn' : ∀ p ∈ l, p.1 ≠ .resetTiming := fun q hq => hn q (by simp [hq])
    simp only [List.map_cons, Client.run_cons, List.zip_cons_cons]
    have e : (c.call fmt p.step.now p.step.draw p.step.call) = c.call fmt (.fin p.2.1) p.2.2 p.1 := rfl
    rw [e]
    by_cases hm : measures p.1
    · obtain ⟨n, r, hc⟩ : ∃ n r, p.1 = .timing n none r := by
        revert hm
        cases p.1 with
        | timing n d r => cases d <;> simp [measures]
        | _ => simp [measures]
      have hmt : measureTimes (p :: l) = p.2.1 :: measureTimes l := by
        simp [measureTimes, List.filter_cons_of_pos, hm]
      rw [hmt, List.isChain_cons_cons] at hex
      obtain ⟨h1, h2⟩ := measure_call_any h fmt t0 p.2.1 p.2.2 n r (hr p (by simp) r (by rw [hc]; rfl)) hl
      rw [← hc] at h1 h2
      rw [hex.1] at h1
      obtain ⟨ds, h3, h4⟩ := ih hi p.2.1 h2 hr' hn' hex.2
      rw [hs.2.1] at h3
      refine ⟨(p.2.1 - t0) :: ds, ?_, ?_⟩
      · rw [List.filter_cons_of_pos (by simpa using hm)]
        exact .cons ⟨n, r, hc, h1⟩ h3
      · rw [List.sum_cons, h4]
        simp only [lastMeasure, List.foldl_cons, hm, if_true]; ring
    · have hm' : measures p.1 = false := by simpa using hm
      have hmt : measureTimes (p :: l) = measureTimes l := by
        simp [measureTimes, List.filter_cons_of_neg, hm']
      rw [hmt] at hex
      have h2 := lastTime_call fmt c (.fin p.2.1) p.2.2 hm' (hn p (by simp))
      obtain ⟨ds, h3, h4⟩ := ih hi t0 (h2.trans hl) hr' hn' hex
      rw [hs.2.1] at h3
      refine ⟨ds, ?_, ?_⟩
      · rw [List.filter_cons_of_neg (by simpa using hm)]
        exact h3
      · rw [h4]
        simp only [lastMeasure, List.foldl_cons, hm', Bool.false_eq_true, if_false]

end
end Txstatsd
