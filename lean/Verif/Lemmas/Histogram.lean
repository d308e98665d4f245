import Verif.Spec.Histogram
import Verif.Lemmas.Sample
import Mathlib.Tactic.Ring
import Mathlib.Tactic.Linarith
import Mathlib.Tactic.FieldSimp
import Mathlib.Algebra.Order.Floor.Ring
import Mathlib.Data.List.Sort

set_option linter.unusedSectionVars false
set_option linter.unusedSimpArgs false
set_option linter.unusedVariables false

namespace Txstatsd
namespace Histogram
variable [Rounding]

theorem runOps_snoc (h : Histogram) (ops : List (StreamOp PyFloat)) (o : StreamOp PyFloat) :
    h.runOps (ops ++ [o]) = match o with | .update d v => (h.runOps ops).update d v | .clear => (h.runOps ops).clear := by
  unfold runOps; rw [List.foldl_append]; rfl

theorem update_fields (h : Histogram) (d : Nat) (v : PyFloat) :
    (h.update d v).sample = h.sample.update d v ∧ (h.update d v).count = h.count + 1 := by
  unfold update updateVariance setMin setMax
  simp only
  split <;> split <;> split_ifs <;> exact ⟨rfl, rfl⟩

theorem sample_runOps (n : Nat) (ops : List (StreamOp PyFloat)) :
    ((init n).runOps ops).sample = (UniformSample.init (.fin 0) n).runOps (.fin 0) ops := by
  induction ops using List.reverseRecOn with
  | nil => simp [Histogram.runOps, UniformSample.runOps, init, clear, UniformSample.init, UniformSample.clear]
  | append_singleton os o ih =>
    rw [runOps_snoc, UniformSample.runOps_snoc]
    cases o with
    | update d v => simp only; rw [(update_fields _ d v).1, ih]
    | clear => simp only [clear]; rw [ih]

theorem count_runOps (n : Nat) (ops : List (StreamOp PyFloat)) :
    ((init n).runOps ops).count = (streamValues ops).length := by
  induction ops using List.reverseRecOn with
  | nil => rfl
  | append_singleton os o ih =>
    rw [runOps_snoc, UniformSample.streamValues_snoc]
    cases o with
    | update d v => simp only; rw [(update_fields _ d v).2, ih]; simp
    | clear => rfl

/-! ## Order on floats other than nan -/

omit [Rounding] in
theorem lt_irrefl' (a : PyFloat) : a.lt a = false := by
  cases a with
  | nan => rfl
  | inf s => cases s <;> rfl
  | fin q => simp [PyFloat.lt]

omit [Rounding] in
theorem not_lt_trans {a b c : PyFloat} (hb : b ≠ .nan) (h1 : b.lt a = false) (h2 : c.lt b = false) : c.lt a = false := by
  cases a with
  | nan => cases c <;> simp [PyFloat.lt]
  | inf s => cases b with
    | nan => exact absurd rfl hb
    | inf t => cases c with
      | nan => simp [PyFloat.lt]
      | inf u => cases s <;> cases t <;> cases u <;> simp_all [PyFloat.lt]
      | fin q => cases s <;> cases t <;> simp_all [PyFloat.lt]
    | fin p => cases c with
      | nan => simp [PyFloat.lt]
      | inf u => cases s <;> cases u <;> simp_all [PyFloat.lt]
      | fin q => cases s <;> simp_all [PyFloat.lt]
  | fin r => cases b with
    | nan => exact absurd rfl hb
    | inf t => cases c with
      | nan => simp [PyFloat.lt]
      | inf u => cases t <;> cases u <;> simp_all [PyFloat.lt]
      | fin q => cases t <;> simp_all [PyFloat.lt]
    | fin p => cases c with
      | nan => simp [PyFloat.lt]
      | inf u => cases u <;> simp_all [PyFloat.lt]
      | fin q => simp_all [PyFloat.lt]; linarith

omit [Rounding] in
theorem lt_asymm' {a b : PyFloat} (h : a.lt b = true) : b.lt a = false := by
  cases a with
  | nan => simp [PyFloat.lt] at h
  | inf s => cases b with
    | nan => simp [PyFloat.lt]
    | inf t => cases s <;> cases t <;> simp_all [PyFloat.lt]
    | fin q => cases s <;> simp_all [PyFloat.lt]
  | fin p => cases b with
    | nan => simp [PyFloat.lt]
    | inf t => cases t <;> simp_all [PyFloat.lt]
    | fin q => simp_all [PyFloat.lt]; linarith

/-- What `min`, `max` hold. -/
structure Extremes (h : Histogram) (vs : List PyFloat) : Prop where
  none_ : vs = [] → h.max' = none ∧ h.min' = none
  some_ : vs ≠ [] → ∃ a b, h.max' = some a ∧ h.min' = some b ∧ a ∈ vs ∧ b ∈ vs ∧ ∀ v ∈ vs, a.lt v = false ∧ v.lt b = false

theorem update_extremes (h : Histogram) (d : Nat) (v : PyFloat) :
    (h.update d v).max' = some (match h.max' with | none => v | some a => pyMax a v) ∧
    (h.update d v).min' = some (match h.min' with | none => v | some a => pyMin a v) := by
  unfold update updateVariance setMin setMax Histogram.min Histogram.max
  cases hM : h.max' <;> cases hm : h.min' <;> simp only <;> split_ifs <;> simp_all

theorem extremes_run (n : Nat) (ops : List (StreamOp PyFloat)) (hn : ∀ v ∈ streamValues ops, v ≠ .nan) :
    Extremes ((init n).runOps ops) (streamValues ops) := by
  induction ops using List.reverseRecOn with
  | nil => exact ⟨fun _ => ⟨rfl, rfl⟩, fun h => absurd rfl h⟩
  | append_singleton os o ih =>
    rw [runOps_snoc, UniformSample.streamValues_snoc] at *
    cases o with
    | clear => exact ⟨fun _ => ⟨rfl, rfl⟩, fun h => absurd rfl h⟩
    | update d v =>
      simp only at hn ⊢
      have hv : v ≠ .nan := hn v (by simp)
      have ih := ih (fun x hx => hn x (by simp [hx]))
      obtain ⟨e1, e2⟩ := update_extremes ((init n).runOps os) d v
      refine ⟨fun h => by simp at h, fun _ => ?_⟩
      rw [e1, e2]
      by_cases hs : streamValues os = []
      · obtain ⟨g1, g2⟩ := ih.none_ hs
        rw [g1, g2, hs]
        refine ⟨v, v, rfl, rfl, by simp, by simp, ?_⟩
        intro x hx; simp at hx; subst hx; exact ⟨lt_irrefl' _, lt_irrefl' _⟩
      · obtain ⟨a, b, g1, g2, ha, hb, hall⟩ := ih.some_ hs
        rw [g1, g2]
        have han : a ≠ .nan := hn a (by simp [ha])
        have hbn : b ≠ .nan := hn b (by simp [hb])
        refine ⟨pyMax a v, pyMin b v, rfl, rfl, ?_, ?_, ?_⟩
        · unfold pyMax; split_ifs <;> simp [ha]
        · unfold pyMin; split_ifs <;> simp [hb]
        · intro x hx
          have hx' : x ∈ streamValues os ∨ x = v := by simpa using hx
          constructor
          · unfold pyMax
            split_ifs with hl
            · rcases hx' with hx' | rfl
              · exact not_lt_trans (a := x) (b := a) (c := v) han (hall x hx').1 (lt_asymm' hl)
              · exact lt_irrefl' _
            · rcases hx' with hx' | rfl
              · exact (hall x hx').1
              · simpa using hl
          · unfold pyMin
            split_ifs with hl
            · rcases hx' with hx' | rfl
              · exact not_lt_trans (a := v) (b := b) (c := x) hbn (lt_asymm' hl) (hall x hx').2
              · exact lt_irrefl' _
            · rcases hx' with hx' | rfl
              · exact (hall x hx').2
              · simpa using hl

/-! ## Sum and variance -/

theorem update_sum (h : Histogram) (d : Nat) (v : PyFloat) : (h.update d v).sum = h.sum.add (.flt v) := by
  unfold update updateVariance setMin setMax
  simp only
  split <;> split <;> split_ifs <;> rfl

theorem update_var (h : Histogram) (d : Nat) (v : PyFloat) :
    ((h.update d v).varM, (h.update d v).varS) =
      if h.varM = .fin (-1) then (v, .fin 0)
      else (h.varM.add ((v.sub h.varM).divInt (h.count + 1 : ℕ)),
            h.varS.add ((v.sub h.varM).mul (v.sub (h.varM.add ((v.sub h.varM).divInt (h.count + 1 : ℕ)))))) := by
  unfold update updateVariance setMin setMax
  simp only
  split <;> split <;> split_ifs <;> simp_all

variable [Exact]

theorem sum_run (n : Nat) (ops : List (StreamOp PyFloat)) (qs : List ℚ) (hq : streamValues ops = qs.map .fin) :
    ((init n).runOps ops).sum.toFloat = .fin qs.sum ∧ (qs ≠ [] → ∃ x, ((init n).runOps ops).sum = .flt x) := by
  induction ops using List.reverseRecOn generalizing qs with
  | nil =>
    have : qs = [] := by simpa [streamValues] using hq.symm
    subst this
    refine ⟨?_, fun h => absurd rfl h⟩
    show rnd ((0 : ℤ) : ℚ) = _
    rw [Exact.rnd_eq]; simp
  | append_singleton os o ih =>
    rw [runOps_snoc, UniformSample.streamValues_snoc] at *
    cases o with
    | clear =>
      simp only at hq
      have : qs = [] := by simpa using hq.symm
      subst this
      refine ⟨?_, fun h => absurd rfl h⟩
      show rnd ((0 : ℤ) : ℚ) = _
      rw [Exact.rnd_eq]; simp
    | update d v =>
      simp only at hq ⊢
      rcases List.eq_nil_or_concat qs with rfl | ⟨ps, p, rfl⟩
      · simp at hq
      · simp only [List.concat_eq_append, List.map_append, List.map_cons, List.map_nil] at hq
        obtain ⟨e1, e2⟩ := List.append_inj' hq rfl
        obtain ⟨e2, -⟩ := List.cons.inj e2
        subst e2
        obtain ⟨i1, _⟩ := ih ps e1
        rw [update_sum]
        have e3 : ((init n).runOps os).sum.add (.flt (.fin p)) = .flt (.fin (ps.sum + p)) := by
          unfold Num.add
          split
          · rename_i h1 h2; simp at h2
          · rw [i1]; simp only [Num.toFloat, PyFloat.add, Exact.rnd_eq]
        rw [e3]
        simp [Num.toFloat]

theorem snoc_cases (ops : List (StreamOp PyFloat)) (d : Nat) (v : PyFloat) (qs : List ℚ)
    (hq : streamValues ops ++ [v] = qs.map .fin) : ∃ ps p, qs = ps ++ [p] ∧ v = .fin p ∧ streamValues ops = ps.map .fin := by
  rcases List.eq_nil_or_concat qs with rfl | ⟨ps, p, rfl⟩
  · simp at hq
  · simp only [List.concat_eq_append, List.map_append, List.map_cons, List.map_nil] at hq
    obtain ⟨e1, e2⟩ := List.append_inj' hq rfl
    obtain ⟨e2, -⟩ := List.cons.inj e2
    exact ⟨ps, p, by simp, e2, e1⟩

/-- Welford's invariant. -/
theorem welford_run (n : Nat) (ops : List (StreamOp PyFloat)) (qs : List ℚ) (hq : streamValues ops = qs.map .fin)
    (hm : ∀ ps, ps <+: qs → ps ≠ [] → ps ≠ qs → meanOf ps ≠ -1) :
    (qs = [] → ((init n).runOps ops).varM = .fin (-1)) ∧
    (qs ≠ [] → ((init n).runOps ops).varM = .fin (meanOf qs) ∧
      ((init n).runOps ops).varS = .fin ((qs.map fun x => x ^ 2).sum - qs.sum ^ 2 / qs.length)) := by
  induction ops using List.reverseRecOn generalizing qs with
  | nil =>
    have : qs = [] := by simpa [streamValues] using hq.symm
    subst this
    exact ⟨fun _ => rfl, fun h => absurd rfl h⟩
  | append_singleton os o ih =>
    rw [runOps_snoc]
    rw [UniformSample.streamValues_snoc] at hq
    cases o with
    | clear =>
      simp only at hq
      have : qs = [] := by simpa using hq.symm
      subst this
      exact ⟨fun _ => rfl, fun h => absurd rfl h⟩
    | update d v =>
      simp only at hq ⊢
      obtain ⟨ps, p, rfl, rfl, e1⟩ := snoc_cases os d v qs hq
      have hc := count_runOps n os
      rw [e1, List.length_map] at hc
      have hv := update_var ((init n).runOps os) d (.fin p)
      rw [hc] at hv
      obtain ⟨i1, i2⟩ := ih ps e1 (by
        intro rs h1 h2 h3
        refine hm rs (h1.trans (List.prefix_append _ _)) h2 ?_
        rintro rfl
        have := h1.length_le
        simp at this)
      refine ⟨fun h => by simp at h, fun _ => ?_⟩
      by_cases hp : ps = []
      · subst hp
        rw [if_pos (i1 rfl)] at hv
        simp only [Prod.mk.injEq] at hv
        rw [hv.1, hv.2]
        simp [meanOf]
      · obtain ⟨j1, j2⟩ := i2 hp
        have hne : meanOf ps ≠ -1 := hm ps (List.prefix_append _ _) hp (by simp)
        have hL : (ps.length : ℚ) ≠ 0 := by
          have : ps.length ≠ 0 := by simpa using hp
          exact_mod_cast this
        have hL1 : (ps.length : ℚ) + 1 ≠ 0 := by positivity
        rw [j1, j2, if_neg (by simpa using hne)] at hv
        simp only [PyFloat.add, PyFloat.sub, PyFloat.mul, PyFloat.divInt, Exact.rnd_eq, Prod.mk.injEq] at hv
        rw [hv.1, hv.2]
        simp only [meanOf, List.sum_append, List.sum_cons, List.sum_nil, List.length_append, List.length_cons,
          List.length_nil, List.map_append, List.map_cons, List.map_nil, PyFloat.fin.injEq]
        push_cast
        constructor
        · field_simp; ring
        · field_simp; ring

omit [Rounding] [Exact] in
theorem sum_sq_dev (l : List ℚ) (m : ℚ) :
    (l.map fun x => (x - m) ^ 2).sum = (l.map fun x => x ^ 2).sum - 2 * m * l.sum + l.length * m ^ 2 := by
  induction l with
  | nil => simp
  | cons a l ih => simp only [List.map_cons, List.sum_cons, ih, List.length_cons]; push_cast; ring

theorem variance_run (n : Nat) (ops : List (StreamOp PyFloat)) (qs : List ℚ) (hq : streamValues ops = qs.map .fin)
    (hm : ∀ ps, ps <+: qs → ps ≠ [] → ps ≠ qs → meanOf ps ≠ -1) :
    ((init n).runOps ops).getVariance = .fin (varianceOf qs) := by
  have hc := count_runOps n ops
  rw [hq, List.length_map] at hc
  unfold getVariance varianceOf
  rw [hc]
  split_ifs with h1
  · rfl
  · have hne : qs ≠ [] := by rintro rfl; simp at h1
    obtain ⟨_, j2⟩ := (welford_run n ops qs hq hm).2 hne
    rw [j2]
    simp only [PyFloat.divInt, Exact.rnd_eq, PyFloat.fin.injEq]
    rw [sum_sq_dev]
    have hL : (qs.length : ℚ) ≠ 0 := by
      have : qs.length ≠ 0 := by simpa using hne
      exact_mod_cast this
    push_cast
    congr 1
    unfold meanOf
    field_simp
    ring

end Histogram
end Txstatsd
