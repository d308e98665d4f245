import Verif.Lemmas.Watch
import Verif.Lemmas.MeterDouble
import Verif.Lemmas.FloatTimer
import Verif.Lemmas.ConfigurableStored
import Verif.Spec.Interleaved

set_option linter.unusedSectionVars false
set_option linter.unusedSimpArgs false
set_option linter.unusedVariables false

/-!
# Meters, watched through a schedule
-/

namespace Txstatsd
open Spec
section
variable [Rounding] {C T G PF PM : Type}

/-- What a dict of meters holds after the messages: meters that went through the accepted readings and some reports. -/
def MeterStore (ms : List Str) (d : Dict Meter) : Prop :=
  ∀ k (qs : List ℚ), Collect (Reading c!"m" k) ms (qs.map PyFloat.fin) →
    (d.find k = none → qs = []) ∧ ∀ x, d.find k = some x →
      ∃ name pre start h, x = (Meter.init name pre start).run h ∧ marks h = qs

theorem meterStore_nil : MeterStore [] [] := by
  intro k qs h
  cases qs with
  | nil => exact ⟨fun _ => rfl, fun x hx => by simp [Dict.find] at hx⟩
  | cons a b => cases h

theorem collect_fin_split {ms : List Str} {k m : Str} {qs : List ℚ}
    (h : Collect (Reading c!"m" k) (ms ++ [m]) (qs.map PyFloat.fin)) :
    ∃ qs1 qs2, qs = qs1 ++ qs2 ∧ Collect (Reading c!"m" k) ms (qs1.map PyFloat.fin) ∧
      Collect (Reading c!"m" k) [m] (qs2.map PyFloat.fin) := by
  obtain ⟨x, y, e, h1, h2⟩ := collect_split h
  obtain ⟨a, b, rfl, rfl, rfl⟩ := List.map_eq_append_iff.1 e
  exact ⟨a, b, rfl, h1, h2⟩

theorem meterStore_read {ms : List Str} {d : Dict Meter} (h : MeterStore ms d) (mp : Str) (now : ℚ) (m : Str) :
    MeterStore (ms ++ [m]) (applyRead (Meter.init · mp now) Meter.mark d (readEffect c!"m" m)) := by
  intro k qs hc
  obtain ⟨q1, q2, rfl, h1, h2⟩ := collect_fin_split hc
  obtain ⟨hn, hs⟩ := h k q1 h1
  rcases applyRead_find (new := (Meter.init · mp now)) (mark := Meter.mark) (d := d) (t := c!"m") (msg := m) (k := k) with
    ⟨v, hv, he⟩ | ⟨hnr, he⟩
  · rw [he]
    refine ⟨fun h => (Option.some_ne_none _ h).elim, ?_⟩
    have hq2 : ∃ q, v = .fin q ∧ q2 = [q] := by
      cases q2 with
      | nil => cases h2 with
        | skip h3 _ => exact absurd hv (h3 v)
      | cons q rest =>
        cases rest with
        | cons _ _ => cases h2 with
          | hit _ h3 => cases h3
          | skip _ h3 => cases h3
        | nil => cases h2 with
          | hit h3 _ => exact ⟨q, reading_unique hv h3, rfl⟩
          | skip _ h3 => cases h3
    obtain ⟨q, rfl, rfl⟩ := hq2
    intro x hx
    simp only [Option.some.injEq] at hx
    subst hx
    cases hd : d.find k with
    | none =>
      rw [hn hd]
      exact ⟨k, mp, now, [.mark q], rfl, rfl⟩
    | some y =>
      obtain ⟨name, pre, start, h, rfl, h2⟩ := hs y hd
      exact ⟨name, pre, start, h ++ [.mark q], by rw [meterRun_snoc]; rfl, by rw [marks_mark, h2]⟩
  · rw [he]
    have hq2 : q2 = [] := by
      cases q2 with
      | nil => rfl
      | cons q rest =>
        cases h2 with
        | hit h3 _ => exact absurd h3 (hnr _)
        | skip _ h3 => cases h3
    subst hq2
    simpa using ⟨hn, hs⟩

theorem meterStore_put {ms : List Str} {d : Dict Meter} (hw : Dict.Wf d) (h : MeterStore ms d) {k : Str} {m : Meter}
    (hm : (k, m) ∈ d) (ts : ℤ) : MeterStore ms (d.put k (m.report ts).1) := by
  intro k' qs hc
  obtain ⟨h1, h2⟩ := h k' qs hc
  by_cases hk : k' = k
  · subst hk
    rw [Dict.find_put_self]
    refine ⟨fun h => (Option.some_ne_none _ h).elim, ?_⟩
    intro x hx
    simp only [Option.some.injEq] at hx
    subst hx
    obtain ⟨name, pre, start, h, e1, e2⟩ := h2 m (Dict.find_of_mem hw hm)
    exact ⟨name, pre, start, h ++ [.report ts], by rw [meterRun_snoc, ← e1]; rfl, by rw [marks_report, e2]⟩
  · rw [Dict.find_put_ne _ _ hk]
    exact ⟨h1, h2⟩

theorem collect_double [Ieee] {t k : Str} {ms : List Str} {vs : List PyFloat} (h : Collect (Reading t k) ms vs) :
    ∀ v ∈ vs, IsDouble v := by
  induction h with
  | nil => simp
  | hit hr _ ih =>
    intro v hv
    rcases List.mem_cons.1 hv with rfl | hv
    · exact reading_double hr
    · exact ih v hv
  | skip _ _ ih => exact ih

/-- The count in a report is the total of the readings so far. -/
theorem meterStore_report {ms : List Str} {d : Dict Meter} (hw : Dict.Wf d) (h : MeterStore ms d) {k : Str}
    {m : Meter} (hm : (k, m) ∈ d) (ts : ℤ) {l : List Datapoint} (hl : (m.report ts).2 = .ok l) {p : Datapoint} (hp : p ∈ l)
    (hn : p.name = m.pre ++ m.name ++ c!".count") : MeterTotal k ms p.value := by
  have hkey : (m.report ts).1.value = .int 0 ∧ p.value = .flt (round6 (m.report ts).1.count.toFloat) := by
    rcases report_cases m ts with ⟨_, _, h3⟩ | ⟨_, h2, r, h3⟩
    · rw [h3 l hl] at hp; simp at hp
    · rw [hl] at h3
      simp only [Except.ok.injEq] at h3
      subst h3
      simp only [List.mem_cons, List.not_mem_nil, or_false] at hp
      rcases hp with rfl | rfl
      · exact ⟨h2, rfl⟩
      · simp only at hn
        have := List.append_cancel_left hn
        simp at this
  obtain ⟨hv, hval⟩ := hkey
  rw [hval]
  have hput := meterStore_put hw h hm ts
  have hrun : ∀ qs : List ℚ, Collect (Reading c!"m" k) ms (qs.map PyFloat.fin) →
      ∃ name pre start h, (m.report ts).1 = (Meter.init name pre start).run h ∧ marks h = qs :=
    fun qs hc => (hput k qs hc).2 _ (Dict.find_put_self _ _ _)
  clear hput hval hp hl hn hm h
  generalize (m.report ts).1 = x at *
  refine ⟨fun hE qs hc => ?_, fun hI qs hc hlen hsum => ?_, fun hI zs hc hsum => ?_⟩
  · obtain ⟨name, pre, start, h, rfl, rfl⟩ := hrun qs hc
    have hi := meter_inv name pre start h
    have hall := hi.all
    have e0 : Num.rat (.int 0) = 0 := by simp [Num.rat]
    rw [hv, e0, add_zero] at hall
    have hc' : _ = PyFloat.fin _ := hi.count
    rw [hc', hall]
    refine ⟨_, near6 _, ?_⟩
    simp [round6, Exact.rnd_eq]
  · obtain ⟨name, pre, start, h, rfl, rfl⟩ := hrun qs hc
    have hd : ∀ q ∈ marks h, rnd q = .fin q := fun q hq => collect_double hc (.fin q) (List.mem_map.2 ⟨q, hq, rfl⟩) q rfl
    obtain ⟨c, v, n, a1, a2, a3, a4, a5, a6, a7, a8⟩ := near_run name pre start h hd hlen hsum
    have hv0 : v = 0 := by
      rcases a2 with ⟨_, h⟩ | h
      · exact h
      · rw [hv] at h; cases h
    subst hv0
    rw [add_zero] at a8
    rw [abs_zero, add_zero] at a7
    have hu := unit_pow n (by omega)
    have hA := abs_sum_nonneg (marks h)
    have hn2 : (n : ℚ) / 2 ^ 52 ≤ ((marks h).length : ℚ) / 2 ^ 51 := by
      have : (n : ℚ) ≤ 2 * (marks h).length := by exact_mod_cast a5
      rw [div_le_div_iff₀ (by norm_num) (by norm_num)]
      linarith
    have hk : (n : ℚ) / 2 ^ 52 ≤ 1 := by
      rw [div_le_one (by norm_num)]; exact_mod_cast (by omega : n ≤ 2 ^ 52)
    have hcb : |c| ≤ 3 * 2 ^ (1000 : ℤ) := by
      have : (1 + 1 / 2 ^ 53 : ℚ) ^ n * ((marks h).map abs).sum ≤ 2 * ((marks h).map abs).sum :=
        mul_le_mul_of_nonneg_right (by linarith) hA
      generalize (2 : ℚ) ^ (1000 : ℤ) = M at *
      linarith
    obtain ⟨d, r, e1, e2, e3⟩ := round6_double hcb
    refine ⟨c, le_trans a8 (mul_le_mul_of_nonneg_right (by linarith) hA), d, r, e1, e2, ?_⟩
    rw [holds_toFloat rnd_zero a1, e3]
  · have hc' : Collect (Reading c!"m" k) ms ((zs.map (fun z : ℤ => (z : ℚ))).map PyFloat.fin) := by
      rw [List.map_map]; exact hc
    obtain ⟨name, pre, start, h, rfl, h2⟩ := hrun _ hc'
    obtain ⟨c, v, a1, a2, a3, a4⟩ := whole_run name pre start h zs h2 hsum
    have h0 : rnd 0 = .fin 0 := by
      have := IntExact.rnd_int (0 : ℤ) (by norm_num)
      simpa using this
    have hv0 : v = 0 := by
      rcases a2 with ⟨_, h⟩ | h
      · exact_mod_cast h
      · rw [hv] at h; cases h
    subst hv0
    rw [holds_toFloat h0 a1, round6_int (by simp at a4; omega)]
    rw [← a3]; simp

end
end Txstatsd
