import Verif.Spec.DurationsFloat
import Verif.Lemmas.Durations
import Verif.Lemmas.FloatSum
import Verif.Lemmas.Sterbenz
import Verif.Lemmas.Site

set_option linter.unusedSectionVars false
set_option linter.unusedSimpArgs false
set_option linter.unusedVariables false

/-!
# The durations of the summary in doubles
-/

namespace Txstatsd
open Spec
section
variable [Rounding] [Ieee]

/-- A double `v`, not negative, that `x` became after `k` roundings. -/
structure Near (k : ℕ) (v x : ℚ) : Prop where
  dbl : rnd v = .fin v
  val : 0 ≤ v
  exact : 0 ≤ x
  err : |v - x| ≤ ((1 + 1 / 2 ^ 53) ^ k - 1) * x

theorem near_refl {x : ℚ} (h : rnd x = .fin x) (h0 : 0 ≤ x) : Near 0 x x := ⟨h, h0, h0, by simp⟩

theorem near_mono {k l : ℕ} (h : k ≤ l) {v x : ℚ} (hn : Near k v x) : Near l v x :=
  ⟨hn.dbl, hn.val, hn.exact, hn.err.trans (mul_le_mul_of_nonneg_right
    (sub_le_sub_right (pow_le_pow_right₀ (by norm_num) h) _) hn.exact)⟩

theorem near_le {k : ℕ} {v x : ℚ} (h : Near k v x) : v ≤ (1 + 1 / 2 ^ 53) ^ k * x := by
  have := (abs_le.1 h.err).2
  nlinarith

theorem near_within {k : ℕ} {v x : ℚ} (h : Near k v x) (hk : k ≤ 2 ^ 52) : Within k v x := by
  unfold Within
  refine h.err.trans (mul_le_mul_of_nonneg_right ?_ h.exact)
  have := unit_pow k hk
  linarith

theorem near_add {k : ℕ} (hk : k ≤ 2 ^ 52) {a b x y : ℚ} (ha : Near k a x) (hb : Near k b y) (hs : x + y ≤ 2 ^ (1000 : ℤ)) :
    ∃ c, (Num.flt (.fin a)).add (.flt (.fin b)) = .flt (.fin c) ∧ Near (k + 1) c (x + y) := by
  have hp1 : (1 : ℚ) ≤ (1 + 1 / 2 ^ 53) ^ k := one_le_pow₀ (by norm_num)
  have hub : (1 + 1 / 2 ^ 53 : ℚ) ^ k ≤ 2 := by
    refine le_trans (unit_pow k hk) ?_
    have : (k : ℚ) ≤ 2 ^ 52 := by exact_mod_cast hk
    have : (k : ℚ) / 2 ^ 52 ≤ 1 := by rw [div_le_one (by norm_num)]; exact this
    linarith
  have h1 := near_le ha
  have h2 := near_le hb
  have hx := ha.exact
  have hy := hb.exact
  have hle : a + b ≤ 4 * 2 ^ (1000 : ℤ) := by
    generalize (2 : ℚ) ^ (1000 : ℤ) = M at *
    generalize (1 + 1 / 2 ^ 53 : ℚ) ^ k = p at *
    nlinarith
  obtain ⟨c, hc, hc0, _⟩ := rnd_between rnd_zero rep_two (add_nonneg ha.val hb.val) hle
  refine ⟨c, ?_, Ieee.idem hc, hc0, add_nonneg hx hy, ?_⟩
  · simp only [Num.add, Num.toFloat, PyFloat.add, hc]
  · have he := add_err ha.dbl hb.dbl hc
    rw [abs_of_nonneg (add_nonneg ha.val hb.val)] at he
    have ht : |c - (x + y)| ≤ |c - (a + b)| + (|a - x| + |b - y|) := by
      calc |c - (x + y)| = |(c - (a + b)) + ((a - x) + (b - y))| := by ring_nf
        _ ≤ _ := (abs_add_le _ _).trans (by gcongr; exact abs_add_le _ _)
    have e1 := ha.err
    have e2 := hb.err
    rw [pow_succ]
    have hdiv : (a + b) / 2 ^ 53 = (a + b) * (1 / 2 ^ 53) := by ring
    rw [hdiv] at he
    have hu : (0 : ℚ) ≤ 1 / 2 ^ 53 := by norm_num
    generalize (1 / 2 ^ 53 : ℚ) = u at *
    generalize (1 + u) ^ k = p at *
    nlinarith

theorem zero_add_dbl {v : ℚ} (h : rnd v = .fin v) : (Num.int 0).add (.flt (.fin v)) = .flt (.fin v) := by
  simp only [Num.add, Num.toFloat, Int.cast_zero, rnd_zero, PyFloat.add, zero_add, h]

/-- Multiplication by a positive whole number has a relative error only. -/
theorem scale_err {a r : ℚ} {n : ℤ} (hn : 0 < n) (ha : rnd a = .fin a) (h : rnd (a * n) = .fin r) : |r - a * n| ≤ |a * n| / 2 ^ 53 := by
  by_cases hb : 2 ^ (-1022 : ℤ) ≤ |a * n|
  · exact Ieee.norm hb h
  · push Not at hb
    obtain ⟨⟨m, e, hm, he, ea⟩, _⟩ := Ieee.rep.1 ha
    have hz : ∃ z : ℤ, a * n = z * 2 ^ (-1074 : ℤ) := by
      obtain ⟨z, z0, hz⟩ := places he
      refine ⟨m * z * n, ?_⟩
      rw [ea]
      have hp := two_zpow_pos (-1074)
      rw [div_eq_iff hp.ne'] at hz
      rw [hz]; push_cast; ring
    obtain ⟨z, hz⟩ := hz
    have hrep : rnd (a * n) = .fin (a * n) := by
      refine Ieee.rep.2 ⟨⟨z, -1074, ?_, le_refl _, hz⟩, hb.trans (zpow_lt_zpow_right₀ (by norm_num) (by norm_num))⟩
      rw [hz, abs_mul, abs_of_pos (two_zpow_pos _)] at hb
      have h3 : (2 : ℚ) ^ (-1022 : ℤ) = 2 ^ (52 : ℤ) * 2 ^ (-1074 : ℤ) := by rw [← zpow_add₀ (by norm_num)]; norm_num
      rw [h3] at hb
      have h4 := lt_of_mul_lt_mul_right hb (two_zpow_pos _).le
      have h5 : |(z : ℚ)| < 2 ^ 52 := by exact_mod_cast h4
      have h6 : |z| < 2 ^ 52 := by exact_mod_cast h5
      omega
    rw [hrep] at h
    cases h
    simp only [sub_self, abs_zero]
    positivity

theorem int_dbl {z : ℤ} (h0 : 0 ≤ z) (h : z ≤ 2 ^ 53) : rnd (z : ℚ) = .fin z := by
  have hz : (z : ℚ) ≤ 2 ^ 53 := by exact_mod_cast h
  refine Ieee.rep.2 ⟨⟨z, 0, by rw [abs_of_nonneg h0]; exact h, by norm_num, by simp⟩, ?_⟩
  rw [abs_of_nonneg (by exact_mod_cast h0)]
  refine lt_of_le_of_lt (b := (2 : ℚ) ^ (53 : ℤ)) ?_ (zpow_lt_zpow_right₀ (by norm_num) (by norm_num))
  exact_mod_cast hz

theorem near_scale {k : ℕ} (hk : k ≤ 2 ^ 52) {v x : ℚ} (h : Near k v x) (hs : x ≤ 2 ^ (900 : ℤ)) {z : ℤ} (hz : 0 < z)
    (hz' : z ≤ 2 ^ 53) :
    ∃ c, (Num.flt (.fin v)).mul (.int z) = .flt (.fin c) ∧ (Num.int z).mul (.flt (.fin v)) = .flt (.fin c) ∧ Near (k + 1) c (z * x) := by
  have hp1 : (1 : ℚ) ≤ (1 + 1 / 2 ^ 53) ^ k := one_le_pow₀ (by norm_num)
  have hub : (1 + 1 / 2 ^ 53 : ℚ) ^ k ≤ 2 := by
    refine le_trans (unit_pow k hk) ?_
    have : (k : ℚ) ≤ 2 ^ 52 := by exact_mod_cast hk
    have : (k : ℚ) / 2 ^ 52 ≤ 1 := by rw [div_le_one (by norm_num)]; exact this
    linarith
  have h1 := near_le h
  have hx := h.exact
  have hzd := int_dbl hz.le hz'
  have hzq : (0 : ℚ) < z := by exact_mod_cast hz
  have hzM : (z : ℚ) ≤ 2 ^ (100 : ℤ) := by
    have : (z : ℚ) ≤ 2 ^ 53 := by exact_mod_cast hz'
    exact this.trans (le_trans (by norm_num : (2 : ℚ) ^ 53 ≤ 2 ^ (53 : ℤ)) (zpow_mono (by norm_num)))
  have hle : v * z ≤ 4 * 2 ^ (1000 : ℤ) := by
    have e : (2 : ℚ) ^ (1000 : ℤ) = 2 ^ (100 : ℤ) * 2 ^ (900 : ℤ) := by rw [← zpow_add₀ (by norm_num)]; norm_num
    have h9 := two_zpow_pos 900
    rw [e]
    generalize (2 : ℚ) ^ (900 : ℤ) = M at *
    generalize (2 : ℚ) ^ (100 : ℤ) = N at *
    generalize (1 + 1 / 2 ^ 53 : ℚ) ^ k = p at *
    have : v ≤ 2 * M := by nlinarith
    have h3 : (z : ℚ) * M ≤ N * M := mul_le_mul_of_nonneg_right hzM h9.le
    have h4 : v * z ≤ 2 * M * z := mul_le_mul_of_nonneg_right this hzq.le
    have h5 : 0 < (z : ℚ) * M := mul_pos hzq h9
    have h6 : 2 * M * (z : ℚ) = 2 * (z * M) := by ring
    rw [h6] at h4
    clear e h1 hs h6 this hub hp1
    generalize (z : ℚ) * M = A at *
    generalize v * (z : ℚ) = B at *
    generalize N * M = D at *
    linarith
  obtain ⟨c, hc, hc0, _⟩ := rnd_between rnd_zero rep_two (mul_nonneg h.val hzq.le) hle
  refine ⟨c, ?_, ?_, Ieee.idem hc, hc0, by positivity, ?_⟩
  · simp only [Num.mul, Num.toFloat, hzd, PyFloat.mul, hc]
  · simp only [Num.mul, Num.toFloat, hzd, PyFloat.mul, mul_comm (z : ℚ) v, hc]
  · have he := scale_err hz h.dbl hc
    rw [abs_of_nonneg (mul_nonneg h.val hzq.le)] at he
    have ht : |c - z * x| ≤ |c - v * z| + z * |v - x| := by
      calc |c - z * x| = |(c - v * z) + z * (v - x)| := by ring_nf
        _ ≤ _ := (abs_add_le _ _).trans (by rw [abs_mul, abs_of_pos hzq])
    have e1 : (z : ℚ) * |v - x| ≤ z * (((1 + 1 / 2 ^ 53) ^ k - 1) * x) := mul_le_mul_of_nonneg_left h.err hzq.le
    rw [pow_succ]
    have hdiv : (v * z) / 2 ^ 53 = (v * z) * (1 / 2 ^ 53) := by ring
    rw [hdiv] at he
    have hu : (0 : ℚ) ≤ 1 / 2 ^ 53 := by norm_num
    generalize (1 / 2 ^ 53 : ℚ) = u at *
    generalize (1 + u) ^ k = p at *
    have h5 : v * z * u ≤ p * x * z * u :=
      mul_le_mul_of_nonneg_right (mul_le_mul_of_nonneg_right h1 hzq.le) hu
    nlinarith

/-- The time between two readings is exact. -/
theorem steady_sub {w : World} (hw : SteadyClock w) {i j : ℕ} (h : i ≤ j) :
    rnd (w.clk j - w.clk i) = .fin (w.clk j - w.clk i) ∧ 0 ≤ w.clk j - w.clk i ∧ w.clk j - w.clk i ≤ 2 ^ 60 := by
  refine ⟨sterbenz (hw.double j) (hw.double i) (hw.forward i j h) (hw.young i j h), sub_nonneg.2 (hw.forward i j h), ?_⟩
  have := hw.small j
  have h0 := hw.young i i (le_refl _)
  linarith

end

section
variable [Rounding] [Ieee] {C T G PF PM : Type}

/-- Handling a message takes two readings of the clock at least. -/
theorem process_after {I : Impl C T G PF PM} {w : World} {s : PS C T G PF PM} {t m : Str} (hI : I.Timed)
    (h : Handled I w s t m) : s.ticks ≤ (process I w s m).1.ticks - 1 := by
  obtain ⟨⟨k, f, hp⟩, hreg, hexc⟩ := h
  rw [parsed_iff] at hp
  have hd := dispatch_handled (I := I) (w := w) (s := { s with ticks := s.ticks + 1 }) (msg := m) (m := { mtype := t, key := k, fields := f })
  unfold process
  simp only [process, hp, processMessage] at hexc ⊢
  obtain ⟨r, hr⟩ := hd.2 hreg
  have hc := (dispatch_calm hI w hr).ticks
  simp only [hr, finish] at hexc ⊢
  simp only at hc
  cases he : r.2.exc <;> simp only [he, account] <;> omega

/-- The stored time of a type. -/
def TimeNear (s : PS C T G PF PM) (t : Str) (x : ℚ) (n : ℕ) : Prop :=
  (s.processTimings.find t = none ∧ x = 0 ∧ n = 0) ∨
  ∃ v, s.processTimings.find t = some (.flt (.fin v)) ∧ Near n v x ∧ x ≤ n * 2 ^ 60

theorem big_le {n : ℕ} (hn : n ≤ 2 ^ 52) {x : ℚ} (h : x ≤ n * 2 ^ 60) : x ≤ 2 ^ (900 : ℤ) := by
  have h1 : (n : ℚ) ≤ 2 ^ 52 := by exact_mod_cast hn
  have h2 : x ≤ 2 ^ (112 : ℤ) := by
    refine h.trans ?_
    rw [show (2 : ℚ) ^ (112 : ℤ) = 2 ^ 52 * 2 ^ 60 by norm_num]
    exact mul_le_mul_of_nonneg_right h1 (by norm_num)
  exact h2.trans (zpow_mono (by norm_num))

theorem time_near {I : Impl C T G PF PM} (w : World) (hw : SteadyClock w) (t : Str) (Q : PS C T G PF PM → Prop)
    (hI : I.Local) (hT : I.Timed) (hQm : ∀ s m, Q s → Q (process I w s m).1) (hQf : ∀ s i p, Q s → Q (flush I w i p s).1)
    (hf : ∀ s i p, Q s → ((flush I w i p s).2.2 = none → (flush I w i p s).1.processTimings = []) ∧
      ((flush I w i p s).2.2 ≠ none → (flush I w i p s).1.processTimings = s.processTimings))
    (os : List Op) (c : PS C T G PF PM × List Datapoint) (x : ℚ) (n : ℕ) (hc : Q c.1) (hx : TimeNear c.1 t x n)
    (hn : n + (messages os).length ≤ 2 ^ 52) :
    TimeNear (os.foldl (Op.apply I w) c).1 t (workedSince I w (· = t) c.1 x os) (handledSince I w t c.1 n os) := by
  classical
  induction os generalizing c x n with
  | nil => exact hx
  | cons o os ih =>
    rw [List.foldl_cons, workedSince_step (out := c.2)]
    cases o with
    | msg m =>
      have hlen : (messages (Op.msg m :: os)).length = (messages os).length + 1 := by simp [messages]
      rw [hlen] at hn
      simp only [handledSince]
      refine ih _ _ _ (hQm _ _ hc) ?_ (by split <;> omega)
      simp only [Op.apply, workedSince]
      obtain ⟨h1, h2⟩ := process_timings hI w c.1 m
      by_cases hh : Handled I w c.1 t m
      · rw [if_pos ⟨t, rfl, hh⟩, if_pos hh]
        obtain ⟨d1, d2, d3⟩ := steady_sub hw (process_after hT hh)
        change rnd (elapsed w c.1 (process I w c.1 m).1) = .fin (elapsed w c.1 (process I w c.1 m).1) at d1
        change 0 ≤ elapsed w c.1 (process I w c.1 m).1 at d2
        change elapsed w c.1 (process I w c.1 m).1 ≤ 2 ^ 60 at d3
        generalize elapsed w c.1 (process I w c.1 m).1 = e at *
        refine Or.inr ?_
        rw [h1 t hh, Dict.find_put_self, d1]
        rcases hx with ⟨e1, rfl, rfl⟩ | ⟨v, e1, e2, e3⟩
        · rw [e1]
          refine ⟨e, ?_, ?_, ?_⟩
          · simp only [Option.getD_none, zero_add_dbl d1]
          · simpa using near_mono (Nat.zero_le (0 + 1)) (near_refl d1 d2)
          · simpa using d3
        · rw [e1]
          have hb : x + e ≤ ((n + 1 : ℕ) : ℚ) * 2 ^ 60 := by push_cast; linarith
          obtain ⟨v', a1, a2⟩ := near_add (by omega) e2 (near_mono (Nat.zero_le n) (near_refl d1 d2))
            ((big_le (by omega) hb).trans (zpow_mono (by norm_num)))
          exact ⟨v', by rw [Option.getD_some, a1], a2, hb⟩
      · rw [if_neg (by rintro ⟨t', rfl, h⟩; exact hh h), if_neg hh]
        unfold TimeNear at hx ⊢
        by_cases ho : ∃ t', Handled I w c.1 t' m
        · obtain ⟨t', ht'⟩ := ho
          have hne : t' ≠ t := by rintro rfl; exact hh ht'
          rw [h1 t' ht', Dict.find_put_ne]
          · exact hx
          · first | exact hne | exact hne.symm
        · rw [h2 (by simpa using ho)]; exact hx
    | flush i p =>
      have hlen : (messages (Op.flush i p :: os)).length = (messages os).length := by simp [messages]
      rw [hlen] at hn
      simp only [handledSince]
      refine ih _ _ _ (hQf _ _ _ hc) ?_ (by split <;> omega)
      simp only [Op.apply, workedSince]
      by_cases h : (flush I w i p c.1).2.2 = none
      · unfold TimeNear; rw [(hf _ _ _ hc).1 h, if_pos h, if_pos h]; exact Or.inl ⟨rfl, rfl, rfl⟩
      · unfold TimeNear; rw [(hf _ _ _ hc).2 h, if_neg h, if_neg h]; exact hx

/-- The stored times of all types. -/
def TotalNear (s : PS C T G PF PM) (x : ℚ) (n : ℕ) : Prop :=
  ∃ ys : List ℚ, List.Forall₂ (fun (p : Str × Num) y => ∃ v, p.2 = .flt (.fin v) ∧ Near n v y) s.processTimings ys ∧
    ys.sum = x ∧ x ≤ n * 2 ^ 60 ∧ s.processTimings.length ≤ n

theorem forall₂_nonneg {α : Type} {f : α → Num} {n : ℕ} {l : List α} {ys : List ℚ}
    (h : List.Forall₂ (fun p y => ∃ v, f p = .flt (.fin v) ∧ Near n v y) l ys) : 0 ≤ ys.sum := by
  induction h with
  | nil => simp
  | cons h1 _ ih =>
    obtain ⟨v, _, hn⟩ := h1
    rw [List.sum_cons]
    have := hn.exact
    linarith

theorem put_near {n : ℕ} (hn : n ≤ 2 ^ 52) (t : Str) {e : ℚ} (d1 : rnd e = .fin e) (d2 : 0 ≤ e) :
    ∀ (d : Dict Num) (ys : List ℚ),
    List.Forall₂ (fun (p : Str × Num) y => ∃ v, p.2 = .flt (.fin v) ∧ Near n v y) d ys → ys.sum + e ≤ 2 ^ (1000 : ℤ) →
    ∃ ys', List.Forall₂ (fun (p : Str × Num) y => ∃ v, p.2 = .flt (.fin v) ∧ Near (n + 1) v y)
      (d.put t (((d.find t).getD (.int 0)).add (.flt (.fin e)))) ys' ∧ ys'.sum = ys.sum + e ∧
      (d.put t (((d.find t).getD (.int 0)).add (.flt (.fin e)))).length ≤ d.length + 1 := by
  intro d
  induction d with
  | nil =>
    intro ys h hb
    cases h
    refine ⟨[e], .cons ⟨e, ?_, near_mono (Nat.zero_le _) (near_refl d1 d2)⟩ .nil, by simp, by simp [Dict.put]⟩
    simp only [Dict.find, Option.getD_none, zero_add_dbl d1]
  | cons p d ih =>
    intro ys h hb
    cases h with
    | @cons _ y _ ys h1 h2 =>
      obtain ⟨k, u⟩ := p
      obtain ⟨v, rfl, hv⟩ := h1
      have hnn : 0 ≤ ys.sum := forall₂_nonneg h2
      rw [List.sum_cons] at hb
      by_cases hk : k = t
      · subst hk
        obtain ⟨c, c1, c2⟩ := near_add hn hv (near_mono (Nat.zero_le n) (near_refl d1 d2)) (by linarith)
        refine ⟨(y + e) :: ys, ?_, by simp only [List.sum_cons]; ring, by simp [Dict.put]⟩
        simp only [Dict.put, Dict.find, if_true, Option.getD_some]
        refine .cons ⟨c, c1, c2⟩ (h2.imp fun q z ⟨v, a, b⟩ => ⟨v, a, near_mono (by omega) b⟩)
      · obtain ⟨ys', i1, i2, i3⟩ := ih ys h2 (by have := hv.exact; linarith)
        refine ⟨y :: ys', ?_, by simp only [List.sum_cons, i2]; ring, ?_⟩
        · simp only [Dict.put, Dict.find, if_neg hk]
          exact .cons ⟨v, rfl, near_mono (by omega) hv⟩ i1
        · simp only [Dict.put, Dict.find, if_neg hk, List.length_cons] at i3 ⊢
          omega

theorem total_near {I : Impl C T G PF PM} (w : World) (hw : SteadyClock w) (Q : PS C T G PF PM → Prop)
    (hI : I.Local) (hT : I.Timed) (hQm : ∀ s m, Q s → Q (process I w s m).1) (hQf : ∀ s i p, Q s → Q (flush I w i p s).1)
    (hf : ∀ s i p, Q s → ((flush I w i p s).2.2 = none → (flush I w i p s).1.processTimings = []) ∧
      ((flush I w i p s).2.2 ≠ none → (flush I w i p s).1.processTimings = s.processTimings))
    (os : List Op) (c : PS C T G PF PM × List Datapoint) (x : ℚ) (n : ℕ) (hc : Q c.1) (hx : TotalNear c.1 x n)
    (hn : n + (messages os).length ≤ 2 ^ 52) :
    TotalNear (os.foldl (Op.apply I w) c).1 (workedSince I w (fun _ => True) c.1 x os) (n + (messages os).length) := by
  classical
  induction os generalizing c x n with
  | nil => exact hx
  | cons o os ih =>
    rw [List.foldl_cons, workedSince_step (out := c.2)]
    cases o with
    | msg m =>
      have hlen : (messages (Op.msg m :: os)).length = (messages os).length + 1 := by simp [messages]
      rw [hlen] at hn ⊢
      rw [show n + ((messages os).length + 1) = (n + 1) + (messages os).length by omega]
      refine ih _ _ _ (hQm _ _ hc) ?_ (by omega)
      simp only [Op.apply, workedSince]
      obtain ⟨h1, h2⟩ := process_timings hI w c.1 m
      obtain ⟨ys, y1, y2, y3, y4⟩ := hx
      by_cases hh : ∃ t, Handled I w c.1 t m
      · obtain ⟨t, ht⟩ := hh
        rw [if_pos ⟨t, trivial, ht⟩]
        obtain ⟨d1, d2, d3⟩ := steady_sub hw (process_after hT ht)
        change rnd (elapsed w c.1 (process I w c.1 m).1) = .fin (elapsed w c.1 (process I w c.1 m).1) at d1
        change 0 ≤ elapsed w c.1 (process I w c.1 m).1 at d2
        change elapsed w c.1 (process I w c.1 m).1 ≤ 2 ^ 60 at d3
        have hp := h1 t ht
        rw [d1] at hp
        generalize elapsed w c.1 (process I w c.1 m).1 = e at *
        have hb : x + e ≤ ((n + 1 : ℕ) : ℚ) * 2 ^ 60 := by push_cast; linarith
        obtain ⟨ys', i1, i2, i3⟩ := put_near (by omega : n ≤ 2 ^ 52) t d1 d2 _ _ y1
          (by rw [y2]; exact (big_le (by omega) hb).trans (zpow_mono (by norm_num)))
        unfold TotalNear
        rw [hp]
        exact ⟨ys', i1, by rw [i2, y2], hb, by omega⟩
      · rw [if_neg (by rintro ⟨t', _, h⟩; exact hh ⟨t', h⟩)]
        unfold TotalNear
        rw [h2 (by simpa using hh)]
        refine ⟨ys, y1.imp fun q z ⟨v, a, b⟩ => ⟨v, a, near_mono (by omega) b⟩, y2, ?_, by omega⟩
        push_cast; linarith
    | flush i p =>
      have hlen : (messages (Op.flush i p :: os)).length = (messages os).length := by simp [messages]
      rw [hlen] at hn ⊢
      refine ih _ _ _ (hQf _ _ _ hc) ?_ (by omega)
      simp only [Op.apply, workedSince]
      by_cases h : (flush I w i p c.1).2.2 = none
      · unfold TotalNear; rw [(hf _ _ _ hc).1 h, if_pos h]; exact ⟨[], .nil, rfl, by positivity, by simp⟩
      · unfold TotalNear; rw [(hf _ _ _ hc).2 h, if_neg h]; exact hx

/-- A sum of values near to others. -/
theorem fold_near {α : Type} (f : α → Num) {n : ℕ} : ∀ (l : List α) (ys : List ℚ),
    List.Forall₂ (fun p y => ∃ v, f p = .flt (.fin v) ∧ Near n v y) l ys →
    ∀ (a x : ℚ) (k : ℕ), Near k a x → n ≤ k → k + l.length ≤ 2 ^ 52 → x + ys.sum ≤ 2 ^ (1000 : ℤ) →
    ∃ c, l.foldl (fun (a : Num) p => a.add (f p)) (.flt (.fin a)) = .flt (.fin c) ∧ Near (k + l.length) c (x + ys.sum) := by
  intro l
  induction l with
  | nil =>
    intro ys h a x k ha _ _ _
    cases h
    exact ⟨a, rfl, by simpa using ha⟩
  | cons p l ih =>
    intro ys h a x k ha hk hl hb
    cases h with
    | @cons _ y _ ys h1 h2 =>
      obtain ⟨v, hv, hn⟩ := h1
      have hnn : 0 ≤ ys.sum := forall₂_nonneg h2
      rw [List.sum_cons] at hb ⊢
      simp only [List.length_cons] at hl ⊢
      obtain ⟨c, c1, c2⟩ := near_add (by omega) ha (near_mono hk hn) (by linarith)
      obtain ⟨c', d1, d2⟩ := ih ys h2 c (x + y) (k + 1) c2 (by omega) (by omega) (by linarith)
      refine ⟨c', ?_, ?_⟩
      · rw [List.foldl_cons, hv, c1]; exact d1
      · rw [show k + (l.length + 1) = k + 1 + l.length by omega, ← add_assoc]; exact d2

/-- From the int 0. -/
theorem fold_near_zero {α : Type} (f : α → Num) {n : ℕ} (l : List α) (ys : List ℚ) (hne : l ≠ [])
    (h : List.Forall₂ (fun p y => ∃ v, f p = .flt (.fin v) ∧ Near n v y) l ys) (hl : n + l.length ≤ 2 ^ 52)
    (hb : ys.sum ≤ 2 ^ (1000 : ℤ)) :
    ∃ c, l.foldl (fun (a : Num) p => a.add (f p)) (.int 0) = .flt (.fin c) ∧ Near (n + l.length) c ys.sum := by
  cases h with
  | nil => exact absurd rfl hne
  | @cons p y l ys h1 h2 =>
    obtain ⟨v, hv, hn⟩ := h1
    simp only [List.length_cons, List.sum_cons] at hl hb ⊢
    obtain ⟨c, c1, c2⟩ := fold_near f l ys h2 v y n hn (le_refl _) (by omega) hb
    refine ⟨c, ?_, near_mono (by omega) c2⟩
    rw [List.foldl_cons, hv, zero_add_dbl hn.dbl]
    exact c1

end
end Txstatsd
