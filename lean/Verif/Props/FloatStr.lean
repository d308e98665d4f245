import Verif.Lemmas.FloatStr
import Verif.Lemmas.FloatTimer
import Verif.Props.Metrics
import Verif.Props.SelfReport

/-!
# The texts of floats: C116, C117, C118
-/

namespace Txstatsd
open Spec

/-! ## C116: `str` of a float -/

section
variable [Rounding]

/-- C116: the text of a finite float is read as the nearest decimal number of twelve digits (as a float). -/
theorem C116_value (x : ℚ) : ∃ y, Nearest12 x y ∧ parseFloat (pyStr (.fin x)) = some (rnd y) :=
  ⟨shownAs x, shownAs_nearest x, parse_pyStr x⟩

/-- C116: the others are read as themselves. -/
theorem C116_special (b : Bool) : parseFloat (pyStr .nan) = some .nan ∧ parseFloat (pyStr (.inf b)) = some (.inf b) := by
  refine ⟨rfl, ?_⟩
  cases b <;> rfl

omit [Rounding] in
/-- C116: such a number differs by at most five in the twelfth digit. -/
theorem C116_close (x y : ℚ) (h : Nearest12 x y) : |y - x| ≤ |x| * 5 / 10 ^ 12 := nearest_close h

/-- C116: a number of at most twelve digits (an integer below 10^12, say) survives. -/
theorem C116_exact (x : ℚ) (h : Decimal12 x) : parseFloat (pyStr (.fin x)) = some (rnd x) := by
  rw [parse_pyStr, nearest_exact h (shownAs_nearest x)]

/-- C116: the text is always a number for the server and contains no separator. -/
theorem C116_accepted : NumberTexts pyStr := by
  intro x
  cases x with
  | nan => exact ⟨⟨_, (C116_special true).1⟩, by decide⟩
  | inf b => exact ⟨⟨_, (C116_special b).2⟩, by cases b <;> decide⟩
  | fin q =>
    refine ⟨⟨_, parse_pyStr q⟩, fun c hc => ?_⟩
    rcases pyStr_chars q c hc with h | rfl | rfl | rfl | rfl
    · have hw : isSpace c = false := isSpace_of_isDigit h
      refine ⟨?_, ?_, ?_⟩
      · rintro rfl; revert h; decide
      · rintro rfl; revert h; decide
      · rw [← isSpace_iff, hw]; simp
    all_goals decide

end

section
variable [Rounding] [Ieee]

/-- C116: the double nearest to a decimal number of at most twelve digits survives. -/
theorem C116_decimal (d x : ℚ) (hd : Decimal12 d) (hn : 2 ^ (-1022 : ℤ) ≤ |d|) (hx : rnd d = .fin x) :
    parseFloat (pyStr (.fin x)) = some (.fin x) := by
  rw [parse_pyStr, nearest_double hd (Ieee.norm hn hx) (shownAs_nearest x), hx]

/-- C116: what has passed through a text once survives from then on. -/
theorem C116_idempotent (x x' : ℚ) (hn : 2 ^ (-1000 : ℤ) ≤ |x|) (h : parseFloat (pyStr (.fin x)) = some (.fin x')) :
    parseFloat (pyStr (.fin x')) = some (.fin x') := by
  rw [parse_pyStr] at h
  simp only [Option.some.injEq] at h
  refine C116_decimal (shownAs x) x' (shownAs_nearest x).1 ?_ h
  have hc := nearest_close (shownAs_nearest x)
  have h1 : |x| - |shownAs x| ≤ |shownAs x - x| := by
    rw [abs_sub_comm]; exact abs_sub_abs_le_abs_sub _ _
  have h2 : (2 : ℚ) ^ (-1022 : ℤ) ≤ 2 ^ (-1000 : ℤ) / 2 := by
    rw [le_div_iff₀ (by norm_num), ← zpow_add_one₀ (by norm_num)]
    exact zpow_le_zpow_right₀ (by norm_num) (by norm_num)
  generalize (2 : ℚ) ^ (-1022 : ℤ) = a at *
  generalize (2 : ℚ) ^ (-1000 : ℤ) = b at *
  have : |x| * 5 / 10 ^ 12 ≤ |x| / 2 := by
    have := abs_nonneg x
    rw [div_le_div_iff₀ (by norm_num) (by norm_num)]
    nlinarith
  linarith

/-- C116: order is preserved. -/
theorem C116_monotone (x x' : ℚ) (h : x ≤ x') (v v' : PyFloat) (hv : parseFloat (pyStr (.fin x)) = some v)
    (hv' : parseFloat (pyStr (.fin x')) = some v') : v.le v' = true := by
  rw [parse_pyStr] at hv hv'
  simp only [Option.some.injEq] at hv hv'
  subst hv hv'
  refine Ieee.mono ?_
  rcases eq_or_lt_of_le h with rfl | hlt
  · exact le_refl _
  · by_contra hc
    push Not at hc
    have h1 := (shownAs_nearest x).2 _ (shownAs_nearest x').1
    have h2 := (shownAs_nearest x').2 _ (shownAs_nearest x).1
    generalize shownAs x = y at *
    generalize shownAs x' = y' at *
    rcases abs_cases (y - x) with ⟨a1, b1⟩ | ⟨a1, b1⟩ <;> rcases abs_cases (y' - x) with ⟨a2, b2⟩ | ⟨a2, b2⟩ <;>
    rcases abs_cases (y' - x') with ⟨a3, b3⟩ | ⟨a3, b3⟩ <;> rcases abs_cases (y - x') with ⟨a4, b4⟩ | ⟨a4, b4⟩ <;>
    rw [a1, a2] at h1 <;> rw [a3, a4] at h2 <;> linarith

end

section
attribute [local instance] binary64

/-- C116, refuted: not every double survives: 0.1 + 0.2 is printed as 0.3. -/
theorem C116_refuted : ¬ ∀ x : ℚ, rnd x = .fin x → parseFloat (pyStr (.fin x)) = some (.fin x) := by
  intro h
  have := h (1351079888211149 / 4503599627370496) (by decide +kernel)
  revert this
  decide +kernel

example : pyStr ((PyFloat.add (rnd (1 / 10)) (rnd (2 / 10)))) = c!"0.3" := by decide +kernel
example : pyStr (.fin 100000000000) = c!"1e+11" := by decide +kernel
example : pyStr (.fin 12345678901) = c!"12345678901.0" := by decide +kernel
example : pyStr (rnd (-1234567890123 / 10)) = c!"-1.23456789012e+11" := by decide +kernel
example : pyStr (rnd (1 / 10000)) = c!"0.0001" := by decide +kernel
example : pyStr (rnd (1 / 80000)) = c!"1.25e-05" := by decide +kernel
example : pyStr (.fin 0) = c!"0.0" := by decide +kernel
example : pyStr (rnd (9999999999996 / 10000000000000)) = c!"1.0" := by decide +kernel
/-- A decimal of twelve digits. -/
example : Decimal12 (1 / 10) := ⟨1, -1, by norm_num, by norm_num⟩

end

/-! ## C117: sample rates -/

section
variable [Rounding] [Ieee]

/-- C117: a sample rate from 0.0001 on, printed by the client, is read by the server as the nearest decimal number of twelve
digits. -/
theorem C117_rate (key : Str) (hk : ∀ x ∈ key, Legal x) (z : ℤ) (r : ℚ) (h0 : 1 / 10 ^ 4 ≤ r) (h1 : r < 1) :
    ∃ y, Nearest12 r y ∧ Increment (sampledIncrement key z (pyStr (.fin r))) key (rnd z) (rnd y) := by
  have hr : 0 < r := lt_of_lt_of_le (by norm_num) h0
  refine ⟨shownAs r, shownAs_nearest r, ?_⟩
  have hlog : -4 ≤ Int.log 10 r := by
    have : (10 : ℚ) ^ (-4 : ℤ) ≤ r := by norm_num at h0 ⊢; exact h0
    have := (Int.zpow_le_iff_le_log (b := 10) (by norm_num) hr).1 (by exact_mod_cast this)
    exact this
  have hlog' : Int.log 10 r < 0 := by
    have : r < (10 : ℚ) ^ (0 : ℤ) := by simpa using h1
    exact (Int.lt_zpow_iff_log_lt (b := 10) (by norm_num) hr).1 (by exact_mod_cast this)
  have he : -4 ≤ (sig12 r).2 ∧ (sig12 r).2 ≤ 0 := by
    unfold sig12
    simp only
    split_ifs <;> simp only <;> omega
  obtain ⟨ds, decpt, e, hd, hne, hv, hdp, _⟩ := posText_digits hr.le
  have hdp := hdp hr.ne'
  have ht : pyStr (.fin r) = layout 11 ds decpt := by
    unfold pyStr; simp only; rw [if_neg (by linarith), e]
  obtain ⟨_, c2, c3⟩ := layout_chars hd 11 decpt
  obtain ⟨c, cs, ec, _⟩ := c3 hne
  have hch := c2 (by omega)
  refine C70_plain_rate_partial key hk z _ _ (by rw [ht, ec]; simp) ?_ (parse_pyStr r) ?_
  · intro x hx
    rw [ht] at hx
    rcases hch x hx with h | h
    · left; simpa [isDigit, Char.isDigit, Char.le_def] using h
    · exact Or.inr h
  · intro hz
    have hy := dec12_pos hr
    have herr := abs_le.1 (dec12_err hr)
    rw [shownAs_pos hr] at hz
    have hbig : (2 : ℚ) ^ (-1022 : ℤ) ≤ |dec12 r| := by
      rw [abs_of_pos hy]
      have a1 : (2 : ℚ) ^ (-1022 : ℤ) ≤ 2 ^ (-20 : ℤ) := zpow_le_zpow_right₀ (by norm_num) (by norm_num)
      have a2 : (2 : ℚ) ^ (-20 : ℤ) = 1 / 1048576 := by norm_num
      rw [a2] at a1
      generalize (2 : ℚ) ^ (-1022 : ℤ) = a at *
      linarith
    have := Ieee.norm hbig hz
    rw [zero_sub, abs_neg] at this
    have hp : 0 < |dec12 r| := abs_pos.2 hy.ne'
    rw [le_div_iff₀ (by norm_num)] at this
    linarith

/-- C117: a sample rate below 0.0001 is printed with an exponent, which the server ignores: it takes the rate to be a number
from one to ten, and so counts at least a thousand times too little. -/
theorem C117_small (key : Str) (hk : ∀ x ∈ key, Legal x) (z : ℤ) (r : ℚ) (h0 : 0 < r) (h1 : r ≤ 1 / 10 ^ 4 - 1 / 10 ^ 16) :
    ∃ v, 1 ≤ v ∧ v < 10 ∧ Increment (sampledIncrement key z (pyStr (.fin r))) key (rnd z) (rnd v) := by
  have hlog : Int.log 10 r < -4 := by
    have : r < (10 : ℚ) ^ (-4 : ℤ) := by norm_num at h1 ⊢; linarith
    exact (Int.lt_zpow_iff_log_lt (b := 10) (by norm_num) h0).1 (by exact_mod_cast this)
  have he : (sig12 r).2 ≤ -5 := by
    unfold sig12
    simp only
    split_ifs with h
    · simp only
      by_contra hc
      have hl : Int.log 10 r = -5 := by omega
      rw [hl] at h
      have : nearestEven (r / (10 : ℚ) ^ (-5 - 11 : ℤ)) ≤ 10 ^ 12 - 1 := by
        apply nearestEven_le
        rw [div_le_iff₀ (ten_pos _)]
        norm_num at h1 ⊢
        linarith
      omega
    · simp only; omega
  obtain ⟨g1, g2, _⟩ := sig12_spec h0
  obtain ⟨ds, decpt, e, hd, hne, hv, hdp, _⟩ := posText_digits h0.le
  have hdp := hdp h0.ne'
  have ht : pyStr (.fin r) = layout 11 ds decpt := by
    unfold pyStr; simp only; rw [if_neg (by linarith), e]
  have hlay : layout 11 ds decpt = (ds.take 1 ++ (if ds.length = 1 then [] else '.' :: ds.drop 1)) ++ 'e' :: expText (decpt - 1) := by
    unfold layout; rw [if_pos (by omega)]
  have htd : ∀ c ∈ ds.take 1, isDigit c = true := fun c hc => hd c (List.mem_of_mem_take hc)
  have hdd : ∀ c ∈ ds.drop 1, isDigit c = true := fun c hc => hd c (List.mem_of_mem_drop hc)
  have hlen : 1 ≤ ds.length := List.length_pos_iff.2 hne
  have htne : ds.take 1 ≠ [] := by
    intro hh; have := congrArg List.length hh; simp at this; exact hne this
  -- the mantissa
  have hpm : parseFloat (ds.take 1 ++ (if ds.length = 1 then [] else '.' :: ds.drop 1)) =
      some (rnd ((digitsVal ds : ℚ) * 10 ^ (1 - (ds.length : ℤ)))) := by
    split_ifs with hl
    · rw [List.append_nil, List.take_of_length_le (by omega), (parseFloat_digits hd hne).1, hl]; norm_num
    · rw [parseFloat_frac htd htne hdd]
      congr 2
      have hs : digitsVal ds = digitsVal (ds.take 1) * 10 ^ (ds.drop 1).length + digitsVal (ds.drop 1) := by
        rw [← digitsVal_append, List.take_append_drop]
      have hz : (1 - (ds.length : ℤ)) = -((ds.drop 1).length : ℤ) := by
        rw [List.length_drop]; omega
      rw [hz, zpow_neg, zpow_natCast, hs]
      push_cast
      field_simp
  have hval : (digitsVal ds : ℚ) * 10 ^ (1 - (ds.length : ℤ)) = (sig12 r).1 / 10 ^ 11 := by
    have h2 : (digitsVal ds : ℚ) * 10 ^ (decpt - ds.length) = (sig12 r).1 * 10 ^ ((sig12 r).2 - 11) := by
      rw [hv]; unfold shown; rw [if_neg h0.ne']; rfl
    have e1 : (10 : ℚ) ^ (1 - (ds.length : ℤ)) = 10 ^ (decpt - ds.length) * 10 ^ (-(sig12 r).2) := by
      rw [← zpow_add₀ (by norm_num)]; congr 1; omega
    have e2 : (10 : ℚ) ^ ((sig12 r).2 - 11) * 10 ^ (-(sig12 r).2) = 1 / 10 ^ 11 := by
      rw [← zpow_add₀ (by norm_num), show (sig12 r).2 - 11 + -(sig12 r).2 = -11 by ring]; norm_num
    rw [e1, ← mul_assoc, h2, mul_assoc, e2]; ring
  rw [hval] at hpm
  have hm1 : (10 ^ 11 : ℚ) ≤ (sig12 r).1 := by exact_mod_cast g1
  have hm2 : ((sig12 r).1 : ℚ) < 10 ^ 12 := by exact_mod_cast g2
  have hv1 : 1 ≤ ((sig12 r).1 : ℚ) / 10 ^ 11 := by rw [le_div_iff₀ (by norm_num)]; linarith
  refine ⟨((sig12 r).1 : ℚ) / 10 ^ 11, hv1, by rw [div_lt_iff₀ (by norm_num)]; linarith, ?_⟩
  rw [ht, hlay]
  have tod : ∀ x, isDigit x = true → x.isDigit = true := fun x h => by
    simpa [isDigit, Char.isDigit, Char.le_def] using h
  refine C70_exponent key hk z _ _ _ (by simp [htne]) ?_ ?_ hpm ?_
  · intro x hx
    rcases List.mem_append.1 hx with h | h
    · exact Or.inl (tod x (htd x h))
    · split_ifs at h
      · cases h
      · rcases List.mem_cons.1 h with rfl | h
        · exact Or.inr rfl
        · exact Or.inl (tod x (hdd x h))
  · intro x hx
    unfold expText at hx
    rw [if_pos (by omega)] at hx
    rcases List.mem_cons.1 hx with rfl | hx
    · exact Or.inr rfl
    · left
      apply tod
      split_ifs at hx
      · rcases List.mem_cons.1 hx with rfl | hx
        · decide
        · exact natStr_digits _ x hx
      · exact natStr_digits _ x hx
  · intro hz
    have hbig : (2 : ℚ) ^ (-1022 : ℤ) ≤ |((sig12 r).1 : ℚ) / 10 ^ 11| := by
      rw [abs_of_pos (by linarith)]
      have a1 : (2 : ℚ) ^ (-1022 : ℤ) ≤ 2 ^ (0 : ℤ) := zpow_le_zpow_right₀ (by norm_num) (by norm_num)
      rw [zpow_zero] at a1
      linarith
    have := Ieee.norm hbig hz
    rw [zero_sub, abs_neg, abs_of_pos (by linarith)] at this
    rw [le_div_iff₀ (by norm_num)] at this
    linarith

end

section
attribute [local instance] binary64
example : sampledIncrement c!"a" 7 (pyStr (rnd (1 / 80000))) = c!"a:7|c|@1.25e-05" := by decide +kernel
example : (1 : ℚ) / 80000 ≤ 1 / 10 ^ 4 - 1 / 10 ^ 16 := by norm_num
end

/-! ## C118: floats reported by clients -/

section
variable [Rounding]

/-- C118: a gauge, meter reading or timing of a float reported under a new name by a connected client is read by the server
under the qualified name; the value is the nearest decimal number of twelve digits (for timings, of the product with 1000). -/
theorem C118_reading (c : Client) (hconn : c.conn = true) (hns : ∀ s, c.namespc = some s → ∀ x ∈ s, Legal x) (now : PyFloat)
    (draw : ℚ) (n : Str) (hn : ∀ x ∈ n, Legal x) (hnew : c.metrics.find (qualified c.namespc (some n)) = none) (x : ℚ)
    (rate : Num) (r : ℚ) (hr : rate.exact = .fin r) (hr1 : 1 ≤ r) :
    let key := qualified c.namespc (some n)
    (∃ msg y, (c.call pyStr now draw (.gauge (some n) (.num (.flt (.fin x))) rate)).2 = { out := some msg } ∧ Nearest12 x y ∧
      ∀ k v, Reading c!"g" k msg v ↔ k = key ∧ v = rnd y) ∧
    (∃ msg y, (c.call pyStr now draw (.meter (some n) (.num (.flt (.fin x))) rate)).2 = { out := some msg } ∧ Nearest12 x y ∧
      ∀ k v, Reading c!"m" k msg v ↔ k = key ∧ v = rnd y) ∧
    (∀ p, PyFloat.mul (.fin x) (rnd 1000) = .fin p →
      ∃ msg y, (c.call pyStr now draw (.timing (some n) (some (.num (.flt (.fin x)))) rate)).2 = { out := some msg } ∧
        Nearest12 p y ∧ ∀ k v, Reading c!"ms" k msg v ↔ k = key ∧ v = rnd y) := by
  intro key
  have hkey : ∀ c ∈ key, Legal c := qualified_legal hns hn
  have rd : ∀ (t : Str) (ht : t ∈ [c!"g", c!"m", c!"ms"]) (q : ℚ) (k : Str) (v : PyFloat),
      Reading t k (key ++ c!":" ++ (pyStr (.fin q) ++ c!"|" ++ t)) v ↔ k = key ∧ v = rnd (shownAs q) := by
    intro t ht q k v
    obtain ⟨_, h2⟩ := C116_accepted (.fin q)
    have hbar : '|' ∉ pyStr (.fin q) := fun h => (h2 _ h).2.1 rfl
    have hp := parse_two (n := key) (text := pyStr (.fin q)) (t := t) hkey hbar
      (by simp only [List.mem_cons, List.not_mem_nil, or_false] at ht; rcases ht with rfl | rfl | rfl <;> decide)
      (by
        simp only [List.mem_cons, List.not_mem_nil, or_false] at ht
        rcases ht with rfl | rfl | rfl <;> (intro c hc; simp at hc; subst hc; decide))
      (by simp only [List.mem_cons, List.not_mem_nil, or_false] at ht; rcases ht with rfl | rfl | rfl <;> simp)
    rw [reading_iff, hp]
    constructor
    · rintro ⟨_, h, _, h3, h4⟩
      simp only [Option.some.injEq] at h
      subst h
      simp only [List.headD_cons] at h4
      rw [parse_pyStr] at h4
      exact ⟨h3.symm, by simpa using h4.symm⟩
    · rintro ⟨rfl, rfl⟩
      exact ⟨_, rfl, rfl, rfl, parse_pyStr q⟩
  have hs : ∀ text rt, sampled r draw rt text = some text := fun text rt => by simp [sampled, hr1]
  refine ⟨⟨_, shownAs x, ?_, shownAs_nearest x, rd c!"g" (by simp) x⟩, ⟨_, shownAs x, ?_, shownAs_nearest x, rd c!"m" (by simp) x⟩,
    fun p hp => ⟨_, shownAs p, ?_, shownAs_nearest p, rd c!"ms" (by simp) p⟩⟩
  · rw [C66_sampling pyStr c hconn now draw (.gauge (some n) (.num (.flt (.fin x))) rate) key (pyStr (.fin x) ++ c!"|g") rate r rfl hnew rfl hr rfl
      (by intro n; simp [kindOf]), hs]
    simp
  · rw [C66_sampling pyStr c hconn now draw (.meter (some n) (.num (.flt (.fin x))) rate) key (pyStr (.fin x) ++ c!"|m") rate r rfl hnew rfl hr rfl
      (by intro n; simp [kindOf]), hs]
    simp
  · rw [C66_sampling pyStr c hconn now draw (.timing (some n) (some (.num (.flt (.fin x)))) rate) key (pyStr (.fin p) ++ c!"|ms") rate r rfl hnew rfl hr
      (by
        have : (Num.flt (.fin x)).mul (.int 1000) = .flt (.fin p) := by
          rw [← hp]; simp [Num.mul, Num.toFloat]
        simp [payload, this, Num.render])
      (by intro n; cases h : c.ext <;> simp [kindOf, h]), hs]
    simp

/-- C118: what a service reports about itself: a float in a report ends up in the gauge of its name as the nearest decimal
number of twelve digits. -/
theorem C118_self (inst name : Str) (hi : ∀ c ∈ inst, Legal c) (hn : ∀ c ∈ name, Legal c) (x : ℚ) :
    ∃ y, Nearest12 x y ∧ ∀ k v, Reading c!"g" k (gaugeText pyStr inst (name, .flt (.fin x))) v ↔
      k = reportedAs inst name ∧ v = rnd y := by
  refine ⟨shownAs x, shownAs_nearest x, fun k v => ?_⟩
  rw [gaugeText_reading C116_accepted hi hn]
  simp only [Num.render]
  rw [parse_pyStr]
  constructor
  · rintro ⟨a, b⟩; exact ⟨a, by simpa using b.symm⟩
  · rintro ⟨a, b⟩; exact ⟨a, by rw [b]⟩

end

section
attribute [local instance] binary64
example : ((({ conn := true, namespc := some c!"ns", ext := false } : Client).call pyStr (.fin 0) 0
    (.gauge (some c!"a") (.num (.flt (rnd (1 / 3)))) (.int 1))).2).out = some c!"ns.a:0.333333333333|g" := by decide +kernel
example : parseFloat c!"0.333333333333" ≠ some (rnd (1 / 3)) := by decide +kernel
end

end Txstatsd
