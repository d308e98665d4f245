import Verif.Props.Metrics
import Verif.Spec.Sampling
import Mathlib.Algebra.Order.Floor.Semiring
import Mathlib.Data.Rat.Floor
import Mathlib.Tactic.FieldSimp
import Mathlib.Tactic.LinearCombination

/-!
# Sampling (C98)
-/

set_option linter.unusedSectionVars false

namespace Txstatsd
open Spec

theorem filter_le_range (x : ℚ) (hx : 0 ≤ x) (N : Nat) :
    ((List.range N).filter fun (k : Nat) => decide ((k : ℚ) ≤ x)).length = min N (⌊x⌋₊ + 1) := by
  induction N with
  | zero => simp
  | succ N ih =>
    rw [List.range_succ, List.filter_append, List.length_append, ih]
    by_cases h : (N : ℚ) ≤ x
    · have : N ≤ ⌊x⌋₊ := Nat.le_floor h
      simp only [List.filter_cons, h, decide_true, if_true, List.filter_nil, List.length_singleton]
      omega
    · have : ⌊x⌋₊ < N := by
        rw [Nat.floor_lt hx]; exact not_le.1 h
      simp only [List.filter_cons, h, decide_false, List.filter_nil]
      simp only [Bool.false_eq_true, if_false, List.length_nil]
      omega

theorem filter_draws (r : ℚ) (h0 : 0 ≤ r) (h1 : r < 1) (N : Nat) (hN : 0 < N) :
    ((List.range N).filter fun (k : Nat) => decide ((k : ℚ) / N ≤ r)).length = ⌊r * N⌋₊ + 1 := by
  have hNq : (0 : ℚ) < N := by exact_mod_cast hN
  have he : ∀ k : Nat, ((k : ℚ) / N ≤ r) ↔ ((k : ℚ) ≤ r * N) := fun k => div_le_iff₀ hNq
  simp only [he]
  rw [filter_le_range _ (by positivity)]
  have : ⌊r * N⌋₊ < N := by
    rw [Nat.floor_lt (by positivity)]
    nlinarith
  omega

/-- C98: of `N` equally spaced draws in `[0, 1)` exactly `⌊rate * N⌋ + 1` make a metric send its text: one more than the rate says. -/
theorem C98_count (fmt : PyFloat → Str) (m : MetricObj) (data : Str) (r : ℚ) (hr : m.rate.exact = .fin r) (h0 : 0 ≤ r) (h1 : r < 1)
    (N : Nat) (hN : 0 < N) :
    ((List.range N).filter fun (k : Nat) => (m.send fmt ((k : ℚ) / N) data).isSome).length = ⌊r * N⌋₊ + 1 := by
  rw [← filter_draws r h0 h1 N hN]
  congr 1
  apply List.filter_congr
  intro k _
  have := send_sampled fmt ((k : ℚ) / N) r m.kind m.name m.rate data hr
  show (MetricObj.send fmt ((k : ℚ) / N) ⟨m.kind, m.name, m.rate⟩ data).isSome = _
  rw [this]
  simp only [sampled, if_neg (not_le.2 h1)]
  by_cases h : (k : ℚ) / N ≤ r
  · rw [if_pos h, decide_eq_true h]; rfl
  · rw [if_neg h, decide_eq_false h]; rfl

/-- The metric object for `key`, if any, is a plain one of this rate. -/
def SampledAt (c : Client) (key : Str) (r : ℚ) : Prop :=
  c.conn = true ∧ c.ext = false ∧ (c.metrics.find key = none ∨ c.metrics.find key = some ⟨.plain, key, .flt (.fin r)⟩)

section
variable [Rounding]

theorem sampledAt_call (fmt : PyFloat → Str) (c : Client) (ns : Option Str) (hns : c.namespc = ns) (name : Option Str) (r : ℚ) (h1 : r < 1)
    (h : SampledAt c (qualified ns name) r) (now : PyFloat) (draw : ℚ) (z : ℤ) :
    let res := c.call fmt now draw (.increment name (.num (.int z)) (.flt (.fin r)))
    SampledAt res.1 (qualified ns name) r ∧ res.1.namespc = ns ∧
      res.2.out = if draw ≤ r then some (sampledIncrement (qualified ns name) z (fmt (.fin r))) else none := by
  obtain ⟨hc, he, hm⟩ := h
  have hob : (c.obtain (qualified ns name) .plain (.flt (.fin r))).2 = ⟨.plain, qualified ns name, .flt (.fin r)⟩ ∧
      (c.obtain (qualified ns name) .plain (.flt (.fin r))).1.metrics.find (qualified ns name) =
        some ⟨.plain, qualified ns name, .flt (.fin r)⟩ := by
    unfold Client.obtain
    rcases hm with hm | hm
    · rw [hm]; exact ⟨rfl, Dict.find_put_self _ _ _⟩
    · rw [hm]; exact ⟨rfl, hm⟩
  have hsame := Client.obtain_same c (qualified ns name) .plain (.flt (.fin r))
  intro res
  have hres : res = (c.obtain (qualified ns name) .plain (.flt (.fin r))).1.write fmt draw
      ⟨.plain, qualified ns name, .flt (.fin r)⟩ (intStr z ++ c!"|c") := by
    simp only [res, Client.call, he, Bool.false_eq_true, if_false, fullyQualify_eq, hns]
    rw [hob.1]
    rfl
  rw [hres]
  refine ⟨⟨?_, ?_, Or.inr hob.2⟩, ?_, ?_⟩
  · exact hsame.1.trans hc
  · exact hsame.2.2.trans he
  · exact hsame.2.1.trans hns
  · simp only [Client.write, hsame.1, hc, if_true]
    rw [send_sampled fmt draw r _ _ _ _ rfl]
    simp only [sampled, if_neg (not_le.2 h1)]
    split <;> simp [sampledIncrement, Num.render]

/-- What is counted for the increments sent. -/
def countedFor (r : ℚ) (zs : List ℤ) (ds : List ℚ) : List (ℚ × ℚ) :=
  (zs.zip ds).filterMap fun p => if p.2 ≤ r then some ((p.1 : ℚ), r) else none

theorem sampled_increments [IntExact] (fmt : PyFloat → Str) (ns name : Option Str) (r : ℚ) (h0 : 0 < r) (h1 : r < 1)
    (hk : ∀ x ∈ qualified ns name, Legal x) (hne : fmt (.fin r) ≠ [])
    (hd : ∀ x ∈ fmt (.fin r), x.isDigit = true ∨ x = '.') (hr : parseFloat (fmt (.fin r)) = some (.fin r)) :
    ∀ (zs : List ℤ) (ds : List ℚ) (c : Client), (∀ z ∈ zs, |z| ≤ 2 ^ 53) → c.namespc = ns → SampledAt c (qualified ns name) r →
    Increments (qualified ns name) (written (c.run fmt (sampledCalls name r zs ds)).2)
      ((countedFor r zs ds).map fun p => (.fin p.1, .fin p.2)) := by
  intro zs
  induction zs with
  | nil => intro ds c _ _ _; exact .nil
  | cons z zs ih =>
    intro ds c hz hns hc
    cases ds with
    | nil => exact .nil
    | cons d ds =>
      obtain ⟨s1, s2, s3⟩ := sampledAt_call fmt c ns hns name r h1 hc (.fin 0) d z
      have hrest := ih ds _ (fun z hz' => hz z (by simp [hz'])) s2 s1
      have hrun : written (c.run fmt (sampledCalls name r (z :: zs) (d :: ds))).2 =
          (c.call fmt (.fin 0) d (.increment name (.num (.int z)) (.flt (.fin r)))).2.out.toList ++
          written ((c.call fmt (.fin 0) d (.increment name (.num (.int z)) (.flt (.fin r)))).1.run fmt (sampledCalls name r zs ds)).2 := by
        simp only [sampledCalls, List.zipWith_cons_cons, Client.run, written, List.filterMap_cons]
        cases (c.call fmt (.fin 0) d (.increment name (.num (.int z)) (.flt (.fin r)))).2.out <;> rfl
      rw [hrun, s3]
      by_cases hdr : d ≤ r
      · rw [if_pos hdr]
        have hcf : countedFor r (z :: zs) (d :: ds) = ((z : ℚ), r) :: countedFor r zs ds := by simp [countedFor, hdr]
        rw [hcf]
        have hinc := C70_plain_rate_partial (qualified ns name) hk z (fmt (.fin r)) (.fin r) hne hd hr (by
          intro h; simp only [PyFloat.fin.injEq] at h; exact h0.ne' h)
        rw [IntExact.rnd_int z (hz z (by simp))] at hinc
        exact .hit hinc hrest
      · rw [if_neg hdr]
        have hcf : countedFor r (z :: zs) (d :: ds) = countedFor r zs ds := by simp [countedFor, hdr]
        rw [hcf]
        exact hrest

end

theorem sum_map_const {α : Type} (l : List α) (x : ℚ) : (l.map fun _ => x).sum = l.length * x := by
  induction l with
  | nil => simp
  | cons a l ih => simp only [List.map_cons, List.sum_cons, ih, List.length_cons]; push_cast; ring

theorem length_allDraws (N : Nat) : ∀ n, (allDraws N n).length = N ^ n := by
  intro n
  induction n with
  | zero => rfl
  | succ n ih =>
    simp only [allDraws, List.length_flatMap, List.length_map, ih, List.map_const', List.sum_replicate, List.length_range, smul_eq_mul,
      pow_succ]
    ring

theorem sum_flatMap_draws (l : List Nat) (L : List (List ℚ)) (g : Nat → ℚ) (x : Nat → ℚ) (F : List ℚ → ℚ) (f : List ℚ → ℚ)
    (hf : ∀ k ∈ l, ∀ ds ∈ L, f (x k :: ds) = g k + F ds) :
    ((l.flatMap fun k => L.map fun ds => x k :: ds).map f).sum = L.length * (l.map g).sum + l.length * (L.map F).sum := by
  induction l with
  | nil => simp
  | cons k l ih =>
    simp only [List.flatMap_cons, List.map_append, List.sum_append, List.map_map]
    rw [ih fun k' hk' => hf k' (by simp [hk'])]
    have : (L.map (f ∘ fun ds => x k :: ds)).sum = L.length * g k + (L.map F).sum := by
      have hh : L.map (f ∘ fun ds => x k :: ds) = L.map fun ds => g k + F ds :=
        List.map_congr_left fun ds hds => hf k (by simp) ds hds
      rw [hh, List.sum_map_add, sum_map_const]
    rw [this]
    simp only [List.map_cons, List.sum_cons, List.length_cons]
    push_cast
    ring

theorem sum_ite_filter (l : List Nat) (P : Nat → Bool) (x : ℚ) :
    (l.map fun k => if P k then x else 0).sum = (l.filter P).length * x := by
  induction l with
  | nil => simp
  | cons k l ih =>
    simp only [List.map_cons, List.sum_cons, ih, List.filter_cons]
    cases P k <;> simp
    ring

theorem mean_counted (r : ℚ) (h0 : 0 < r) (h1 : r < 1) (N : Nat) (hN : 0 < N) : ∀ zs : List ℤ,
    mean N zs.length (fun ds => ((countedFor r zs ds).map fun p => p.1 / p.2).sum) =
      (zs.sum : ℚ) * (((⌊r * N⌋₊ : ℚ) + 1) / (r * N)) := by
  have hNq : (N : ℚ) ≠ 0 := by exact_mod_cast hN.ne'
  intro zs
  induction zs with
  | nil => simp [mean, allDraws, countedFor]
  | cons z zs ih =>
    unfold mean at ih ⊢
    simp only [List.length_cons, allDraws]
    rw [sum_flatMap_draws (List.range N) (allDraws N zs.length) (fun k => if decide ((k : ℚ) / N ≤ r) then (z : ℚ) / r else 0)
      (fun k => (k : ℚ) / N) (fun ds => ((countedFor r zs ds).map fun p => p.1 / p.2).sum)]
    · rw [sum_ite_filter, filter_draws r h0.le h1 N hN, length_allDraws, List.length_range, List.sum_cons, pow_succ, add_div]
      have e : (N : ℚ) * ((allDraws N zs.length).map fun ds => ((countedFor r zs ds).map fun p => p.1 / p.2).sum).sum /
          ((N : ℚ) ^ zs.length * N) = (zs.sum : ℚ) * (((⌊r * N⌋₊ : ℚ) + 1) / (r * N)) := by
        rw [← ih]; field_simp
      rw [e]
      push_cast
      field_simp
    · intro k _ ds _
      by_cases h : (k : ℚ) / N ≤ r <;> simp [countedFor, h]

section
variable [Rounding]

/-- C98: increments of one name through a new `Metrics` object at a rate below one (whose text has digits and dots only and reads back
as itself). For every sequence of draws the texts written are increments of the counter, adding `f` of the draws to its total; and the
mean of `f` over all sequences of draws from the multiples of `1/N` is the sum of the increments times `(⌊rate N⌋ + 1) / (rate N)`. -/
theorem C98_expectation [IntExact] (fmt : PyFloat → Str) (c : Client) (hconn : c.conn = true) (hext : c.ext = false)
    (hnew : c.metrics = []) (name : Option Str) (hk : ∀ x ∈ qualified c.namespc name, Legal x) (r : ℚ) (h0 : 0 < r) (h1 : r < 1)
    (hne : fmt (.fin r) ≠ []) (hd : ∀ x ∈ fmt (.fin r), x.isDigit = true ∨ x = '.')
    (hr : parseFloat (fmt (.fin r)) = some (.fin r)) (zs : List ℤ) (hz : ∀ z ∈ zs, |z| ≤ 2 ^ 53) (N : Nat) (hN : 0 < N) :
    ∃ f : List ℚ → ℚ,
      (∀ ds, ∃ qs : List (ℚ × ℚ), Increments (qualified c.namespc name) (written (c.run fmt (sampledCalls name r zs ds)).2)
        (qs.map fun p => (.fin p.1, .fin p.2)) ∧ f ds = (qs.map fun p => p.1 / p.2).sum) ∧
      mean N zs.length f = (zs.sum : ℚ) * (((⌊r * N⌋₊ : ℚ) + 1) / (r * N)) :=
  ⟨fun ds => ((countedFor r zs ds).map fun p => p.1 / p.2).sum, fun ds => ⟨countedFor r zs ds,
    sampled_increments fmt c.namespc name r h0 h1 hk hne hd hr zs ds c hz rfl ⟨hconn, hext, Or.inl (by rw [hnew]; rfl)⟩, rfl⟩,
    mean_counted r h0 h1 N hN zs⟩

/-- C98, the part that holds of "sampling is unbiased": the mean is off by at most the `1 / (rate * N)`-th part (`N` is `2 ^ 53` for
`random.random`), always to the larger side. -/
theorem C98_bias_partial (r : ℚ) (h0 : 0 < r) (N : Nat) (hN : 0 < N) :
    1 < ((⌊r * N⌋₊ : ℚ) + 1) / (r * N) ∧ ((⌊r * N⌋₊ : ℚ) + 1) / (r * N) ≤ 1 + 1 / (r * N) := by
  have hNq : (0 : ℚ) < N := by exact_mod_cast hN
  have hpos : 0 < r * N := by positivity
  constructor
  · rw [lt_div_iff₀ hpos, one_mul]
    exact Nat.lt_floor_add_one _
  · rw [div_le_iff₀ hpos, add_mul, one_mul, div_mul_cancel₀ _ hpos.ne']
    have := Nat.floor_le hpos.le
    linarith

end

section
attribute [local instance] ratRounding

/-- C98, the expectation: on average over the draws a sampled counter counts what was counted. False, because a draw equal to the rate
still sends. -/
theorem C98_refuted : ¬ ∀ (fmt : PyFloat → Str) (r : ℚ) (zs : List ℤ) (f : List ℚ → ℚ), 0 < r → r < 1 →
    (∀ ds, ∃ qs : List (ℚ × ℚ),
      Increments c!"a" (written (({ conn := true, namespc := none, ext := false } : Client).run fmt (sampledCalls (some c!"a") r zs ds)).2)
        (qs.map fun p => (.fin p.1, .fin p.2)) ∧ f ds = (qs.map fun p => p.1 / p.2).sum) →
    mean (2 ^ 53) zs.length f = (zs.sum : ℚ) := by
  intro h
  have : IntExact := ⟨fun _ _ => rfl⟩
  obtain ⟨f, h1, h2⟩ := C98_expectation (fun _ => c!"0.5") { conn := true, namespc := none, ext := false } rfl rfl rfl (some c!"a")
    (by decide) (1 / 2) (by norm_num) (by norm_num) (by decide) (by decide) (by decide +kernel) [1] (by decide) (2 ^ 53) (by norm_num)
  have h3 := h (fun _ => c!"0.5") (1 / 2) [1] f (by norm_num) (by norm_num) h1
  rw [h2] at h3
  have := (C98_bias_partial (1 / 2) (by norm_num) (2 ^ 53) (by norm_num)).1
  simp only [List.sum_cons, List.sum_nil, add_zero, Int.cast_one, one_mul] at h3
  linarith

/-- The conditions are met by rate 0.5; with four draws three of them send. -/
example : parseFloat c!"0.5" = some (.fin (1 / 2)) ∧
    ((List.range 4).filter fun (k : Nat) =>
      ((⟨.plain, c!"a", .flt (.fin (1 / 2))⟩ : MetricObj).send (fun _ => c!"0.5") ((k : ℚ) / (4 : ℕ)) c!"1|c").isSome) = [0, 1, 2] := by
  decide +kernel

example : written (({ conn := true, namespc := none, ext := false } : Client).run (fun _ => c!"0.5")
    (sampledCalls (some c!"a") (1 / 2) [3, 4] [3 / 4, 1 / 4])).2 = [c!"a:4|c|@0.5"] := by decide +kernel

end
end Txstatsd
