import Verif.Lemmas.HostService
import Verif.Lemmas.Ieee
import Verif.Props.FloatStr
import Verif.Props.System

/-! Lemmas about CPU times on their way to the gauges. -/

set_option linter.unusedSectionVars false
set_option linter.unusedSimpArgs false
set_option linter.unusedVariables false

namespace Txstatsd
open Spec
variable [Rounding]

/-- Rounding does not overflow below 2^60. -/
theorem rnd_bounded [Ieee] {q : ℚ} (h : |q| ≤ 2 ^ 60) : ∃ r, rnd q = .fin r := by
  have hB : rnd ((2 : ℚ) ^ 60) = .fin (2 ^ 60) := Ieee.rep.2 ⟨⟨1, 60, by norm_num, by norm_num, by norm_num⟩, by
    rw [abs_of_nonneg (by norm_num)]
    exact_mod_cast (zpow_lt_zpow_right₀ (by norm_num : (1 : ℚ) < 2) (by norm_num : (60 : ℤ) < 1024))⟩
  have hB' : rnd (-(2 : ℚ) ^ 60) = .fin (-2 ^ 60) := by rw [Ieee.neg, hB]; rfl
  have h1 := Ieee.mono (abs_le.1 h).2
  have h2 := Ieee.mono (abs_le.1 h).1
  rw [hB] at h1
  rw [hB'] at h2
  cases hq : rnd q with
  | fin r => exact ⟨r, rfl⟩
  | nan => rw [hq] at h1; simp [PyFloat.le] at h1
  | inf s =>
    rw [hq] at h1 h2
    cases s <;> simp [PyFloat.le] at h1 h2

/-- A difference of CPU times as it arrives. -/
theorem cpu_close [Ieee] {d : ℚ} (h0 : 0 ≤ d) (hd : d ≤ 2 ^ 53) :
    ∃ v : ℚ, parseFloat (Num.render pyStr (.flt (rnd d))) = some (.fin v) ∧ |v - d| ≤ d * 6 / 10 ^ 12 + 2 ^ (-1070 : ℤ) := by
  obtain ⟨q, hq⟩ := rnd_bounded (q := d) (by rw [abs_of_nonneg h0]; exact hd.trans (by norm_num))
  have e1 := Ieee.err hq
  obtain ⟨y, hy, hp⟩ := C116_value q
  have e2 := C116_close q y hy
  have hs : (2 : ℚ) ^ (-1075 : ℤ) ≤ 1 := by
    rw [show (1 : ℚ) = 2 ^ (0 : ℤ) by norm_num]
    exact zpow_le_zpow_right₀ (by norm_num) (by norm_num)
  have hs0 : (0 : ℚ) < 2 ^ (-1075 : ℤ) := two_zpow_pos _
  have h32 : (2 : ℚ) ^ (-1070 : ℤ) = 32 * 2 ^ (-1075 : ℤ) := by
    rw [show (-1070 : ℤ) = 5 + -1075 by norm_num, zpow_add₀ (by norm_num)]; norm_num
  rw [abs_of_nonneg h0] at e1
  obtain ⟨s, hsd⟩ : ∃ s, s = (2 : ℚ) ^ (-1075 : ℤ) := ⟨_, rfl⟩
  rw [← hsd] at e1 hs hs0 h32
  have hqa : |q| ≤ d + d / 2 ^ 53 + s := by
    have := abs_sub_abs_le_abs_sub q d
    rw [abs_of_nonneg h0] at this
    linarith
  have hya : |y| ≤ |q| + |q| * 5 / 10 ^ 12 := by
    have := abs_sub_abs_le_abs_sub y q
    linarith
  have hyb : |y| ≤ 2 ^ 60 := by
    have : |q| ≤ 2 ^ 54 := by
      refine hqa.trans ?_
      norm_num at hd ⊢
      linarith
    norm_num at this ⊢
    linarith
  obtain ⟨v, hv⟩ := rnd_bounded hyb
  have e3 := Ieee.err hv
  refine ⟨v, ?_, ?_⟩
  · simp only [Num.render, hq, hp, hv]
  · rw [h32]
    have hv3 : |v - y| ≤ |y| / 2 ^ 53 + s := by rw [hsd]; exact e3
    have htri : |v - d| ≤ |v - y| + |y - q| + |q - d| := by
      have h1 := abs_sub_le v y d
      have h2 := abs_sub_le y q d
      linarith
    norm_num at e1 e2 hya hqa hv3 ⊢
    linarith

/-- A generator of differences returns well-formed dictionaries. -/
theorem diffs_wf (last : Dict Num) : ∀ (l : List (Str × Num)) (r out : Dict Num), r.Wf → diffs last r l = .ok out → out.Wf
  | [], r, out, hr, h => by simp only [diffs, Except.ok.injEq] at h; exact h ▸ hr
  | (k, v) :: l, r, out, hr, h => by
    unfold diffs at h
    split at h
    · cases h
    · exact diffs_wf last l _ out (Dict.wf_put hr _ _) h

theorem next_wf {g : CounterGen} {x : Except PyErr (Dict Num)} {r : Dict Num} (h : (g.next x).2 = .ok r) : r.Wf := by
  unfold CounterGen.next at h
  split at h
  · cases h
  · cases x with
    | error e => cases h
    | ok d =>
      simp only at h
      split at h
      · cases h; exact Dict.wf_nil
      · split at h
        · cases h
        · rename_i ho
          cases h
          exact diffs_wf _ _ _ _ Dict.wf_nil ho

/-- What a generator of differences says about a name. -/
theorem counter_says {A : Type} (rd : A → Dict Num) (val : A → Num) (name : Str) : ∀ (as : List A) (a0 : A),
    (∀ a ∈ a0 :: as, (rd a).Wf ∧ (rd a).find name = some (val a)) →
    (∀ a ∈ a0 :: as, ∀ b ∈ a0 :: as, ∀ k ∈ (rd b).keys, k ∈ (rd a).keys) →
    (({ last := some (rd a0) } : CounterGen).run (as.map fun a => .ok (rd a))).flatMap (saysOf name) =
      List.zipWith (fun a b => (val b).sub (val a)) (a0 :: as) as
  | [], _, _, _ => rfl
  | a1 :: as, a0, h, hk => by
    obtain ⟨w0, f0⟩ := h a0 (by simp)
    obtain ⟨w1, f1⟩ := h a1 (by simp)
    obtain ⟨r, hnext, h2⟩ := C72_difference (rd a0) (rd a1) w1 (hk a0 (by simp) a1 (by simp))
    have hr : r.find name = some ((val a1).sub (val a0)) := by rw [h2, f0, f1]
    rw [List.map_cons, CounterGen.run, hnext]
    simp only [List.flatMap_cons]
    rw [counter_says rd val name as a1 (fun a ha => h a (List.mem_cons_of_mem _ ha))
      (fun a ha b hb => hk a (List.mem_cons_of_mem _ ha) b (List.mem_cons_of_mem _ hb))]
    rw [show saysOf name (.ok r) = [(val a1).sub (val a0)] from filter_wf (next_wf (congrArg Prod.snd hnext)) hr]
    rfl

theorem run_cpuCounters (ms : List HostMoment) (g : HostGens) :
    g.run (ms.map fun m => (m, .cpuCounters)) =
      (g.cpu.run (ms.map fun m => getCpuCounters c!"proc" m.times)).map fun o => (HostReport.cpuCounters, o) := by
  induction ms generalizing g with
  | nil => rfl
  | cons m ms ih =>
    show (_, _) :: HostGens.run _ (ms.map fun m => (m, .cpuCounters)) = _
    rw [ih]
    rfl

theorem run_sysCpu (ms : List HostMoment) (g : HostGens) :
    g.run (ms.map fun m => (m, .sys .cpu)) =
      (g.sys.cpu.run (ms.map fun m => .ok (systemStats c!"sys" m.sys.times))).map fun o => (HostReport.sys .cpu, o) := by
  induction ms generalizing g with
  | nil => rfl
  | cons m ms ih =>
    show (_, _) :: HostGens.run _ (ms.map fun m => (m, .sys .cpu)) = _
    rw [ih]
    rfl

end Txstatsd
