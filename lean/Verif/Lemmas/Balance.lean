import Verif.Lemmas.FloatSum
import Verif.Lemmas.Relay
import Verif.Spec.Balance

/-!
# Counts that add up in the arithmetic at hand
-/

set_option linter.unusedSectionVars false
set_option linter.unusedSimpArgs false
set_option linter.unusedVariables false

namespace Txstatsd
open Spec
variable [Rounding] {PF PM R : Type}

/-! ## Sums -/

omit [Rounding] in
theorem sizes_perm {a b : List (ℚ × ℚ)} (h : a.Perm b) : sizes a = sizes b := (h.map _).sum_eq
omit [Rounding] in
theorem sizes_append (a b : List (ℚ × ℚ)) : sizes (a ++ b) = sizes a + sizes b := by simp [sizes]
omit [Rounding] in
theorem sizes_nonneg (a : List (ℚ × ℚ)) : 0 ≤ sizes a := by
  apply List.sum_nonneg
  intro x hx
  obtain ⟨p, _, rfl⟩ := List.mem_map.1 hx
  exact abs_nonneg _
omit [Rounding] in
theorem sizes_subperm {a b : List (ℚ × ℚ)} (h : a.Subperm b) : sizes a ≤ sizes b := by
  obtain ⟨l, hp, hs⟩ := h
  rw [← sizes_perm hp]
  clear hp
  induction hs with
  | slnil => exact le_refl _
  | cons x _ ih => exact le_trans ih (by simp [sizes])
  | cons_cons x _ ih => have := ih; simp only [sizes, List.map_cons, List.sum_cons] at this ⊢; linarith

omit [Rounding] in
theorem sumOf_perm {a b : List Num} (h : a.Perm b) {x : ℚ} (hx : SumOf a x) : SumOf b x := by
  obtain ⟨qs, h1, h2⟩ := hx
  obtain ⟨qs', h3, h4⟩ := List.perm_comp_forall₂ h.symm h1
  exact ⟨qs', h3, by rw [← h2]; exact h4.sum_eq⟩

omit [Rounding] in
theorem sumOf_append {a b : List Num} {x y : ℚ} (hx : SumOf a x) (hy : SumOf b y) : SumOf (a ++ b) (x + y) := by
  obtain ⟨q, h1, h2⟩ := hx
  obtain ⟨q', h3, h4⟩ := hy
  exact ⟨q ++ q', List.rel_append h1 h3, by rw [List.sum_append, h2, h4]⟩

omit [Rounding] in
/-- The sum is that of `Num.rat`. -/
theorem sumOf_rat {a : List Num} {x : ℚ} (h : SumOf a x) : (a.map Num.rat).sum = x := by
  obtain ⟨qs, h1, h2⟩ := h
  rw [← h2]
  clear h2
  induction h1 with
  | nil => rfl
  | @cons v q _ _ h _ ih =>
    rw [List.map_cons, List.sum_cons, List.sum_cons, ih]
    congr 1
    cases v with
    | int z => simp only [Num.exact, PyFloat.fin.injEq] at h; exact h
    | flt x => simp only [Num.exact] at h; rw [h]; rfl

theorem addsUp_subperm {c : ℚ} {a b : List (ℚ × ℚ)} (h : a.Subperm b) (hb : AddsUp c b) : AddsUp c a :=
  fun d hd => hb d (hd.trans h)

/-- Blocks of increments. -/
theorem blocks_sum {c : ℚ} {qs : List (ℚ × ℚ)} (hc : AddsUp c qs) {blocks : List (List (PyFloat × PyFloat))} {last : List (PyFloat × PyFloat)}
    (h : qs.map (fun p => ((.fin p.1, .fin p.2) : PyFloat × PyFloat)) = blocks.flatten ++ last) :
    ∃ x, SumOf (blocks.map total ++ [total last]) x ∧ |x - amount qs| ≤ c * sizes qs := by
  induction blocks generalizing qs with
  | nil =>
    obtain ⟨t, h1, h2⟩ := hc qs (List.Subperm.refl qs)
    refine ⟨t, ⟨[t], ?_, by simp⟩, h2⟩
    simp only [List.flatten_nil, List.nil_append] at h
    rw [h] at h1
    exact .cons h1 .nil
  | cons b blocks ih =>
    rw [List.flatten_cons, List.append_assoc] at h
    obtain ⟨q1, q2, rfl, h1, h2⟩ := List.map_eq_append_iff.1 h
    obtain ⟨x, h3, h4⟩ := ih (addsUp_subperm (List.sublist_append_right q1 q2).subperm hc) h2
    obtain ⟨t, h5, h6⟩ := hc q1 (List.sublist_append_left q1 q2).subperm
    rw [h1] at h5
    refine ⟨t + x, sumOf_append (a := [total b]) ⟨[t], .cons h5 .nil, by simp⟩ h3, ?_⟩
    rw [amount_append, sizes_append]
    rw [show t + x - (amount q1 + amount q2) = (t - amount q1) + (x - amount q2) by ring, mul_add]
    exact le_trans (abs_add_le _ _) (add_le_add h6 h4)

/-- The balance of a server. -/
theorem schedule_balance (ops : PluginOps PF PM) (hq : Quiet ops c!"stats_counts.") (plugins : List PF) (w : World)
    (es : List Event) (hw : WholeSecondSpawns es) (key : Str) (c : ℚ) (qs : List (ℚ × ℚ))
    (hinc : FiniteIncrements key (arrivals es) qs) (hc : AddsUp c qs) :
    let v := (startUp (MPState.init ops plugins)).run (messageProcessor ops) w es
    ∃ x, SumOf (countsAt key v.out v.gens v.ps) x ∧ |x - amount qs| ≤ c * sizes qs := by
  intro v
  obtain ⟨_, _, blocks, last, h1, h2, h3, _⟩ := schedule_conservation ops hq plugins w es hw key
  have hu := increments_unique hinc h1
  obtain ⟨x, h4, h5⟩ := blocks_sum hc hu
  refine ⟨x, ?_, h5⟩
  unfold countsAt
  refine sumOf_perm ?_ h4
  have : (v.ps.counters.find key).getD (.int 0) = total last := h3
  rw [this]
  exact (h2.symm).append_right _

/-! ## Increments taken apart -/

theorem finite_parts {key : Str} {a b l : List Str} (h : (a ++ b).Perm l) {qs : List (ℚ × ℚ)} (hq : FiniteIncrements key l qs) :
    ∃ qa qb, FiniteIncrements key a qa ∧ FiniteIncrements key b qb ∧ (qa ++ qb).Perm qs := by
  obtain ⟨x, hx⟩ := increments_exist key a
  obtain ⟨y, hy⟩ := increments_exist key b
  obtain ⟨z, hz, hp⟩ := increments_perm h (increments_append hx hy)
  have hzq := increments_unique hz hq
  let val : PyFloat × PyFloat → ℚ × ℚ := fun p => ((Num.flt p.1).rat, (Num.flt p.2).rat)
  have hfin : ∀ p ∈ x ++ y, p = (.fin (val p).1, .fin (val p).2) := by
    intro p hpm
    have : p ∈ z := hp.subset hpm
    rw [hzq] at this
    obtain ⟨q, _, rfl⟩ := List.mem_map.1 this
    rfl
  have hmap : ∀ l : List (PyFloat × PyFloat), (∀ p ∈ l, p = (.fin (val p).1, .fin (val p).2)) →
      (l.map val).map (fun p => ((.fin p.1, .fin p.2) : PyFloat × PyFloat)) = l := by
    intro l hl
    rw [List.map_map]
    conv_rhs => rw [← List.map_id l]
    exact List.map_congr_left fun p hp => (hl p hp).symm
  refine ⟨x.map val, y.map val, ?_, ?_, ?_⟩
  · unfold FiniteIncrements; rw [hmap x fun p h => hfin p (by simp [h])]; exact hx
  · unfold FiniteIncrements; rw [hmap y fun p h => hfin p (by simp [h])]; exact hy
  · have := hp.map val
    rw [hzq, List.map_map, List.map_append] at this
    have e : (val ∘ fun p : ℚ × ℚ => ((.fin p.1, .fin p.2) : PyFloat × PyFloat)) = id := by funext p; rfl
    rwa [e, List.map_id] at this

/-- The balance of a service with rules, given that what is not delivered does not count. -/
theorem relay_sum (ops : PluginOps PF PM) (hq : Quiet ops c!"stats_counts.") (plugins : List PF) (cf : AppConf R)
    (hs : ∀ r ∈ cf.rules, Sound cf.rx r) (hl : LegalRewrites cf.rx cf.rules) (ht : KnownTypes cf.rules)
    (hi : 1000 ≤ cf.flushInterval) (w : World) (es : List AppEvent) (key : Str)
    (hd : ∀ t ∈ takenIn cf.monitor.message es, ∀ ts, Delivered (messageProcessor ops) w cf.rx cf.rules t ts → ∀ x, Increments key ts x →
      Increments key (routedTexts cf.rx cf.rules [t]) x) :
    let v := App.run (messageProcessor ops).proc cf w { ps := MPState.init ops plugins } es
    ∃ done : List Str, (done ++ v.scheduled).Perm (takenIn cf.monitor.message es) ∧ v.sent = sentTexts cf.rx cf.rules done ∧
      ∀ c qs, FiniteIncrements key (routedTexts cf.rx cf.rules done) qs → AddsUp c qs →
        ∃ x, SumOf (countsAt key v.out v.gens v.ps) x ∧ |x - amount qs| ≤ c * sizes qs := by
  intro v
  obtain ⟨es', done, h1, h2, h3, h4, h5, h6⟩ := app_routed (I := messageProcessor ops) cf w
    (Q := Delivered (messageProcessor ops) w cf.rx cf.rules) (F := fun t => sentTexts cf.rx cf.rules [t])
    (fun s t => routeText_delivered (typeFree_messageProcessor ops) w hs hl ht s t)
    (fun s t => routeText_sent _ hs s t) es { ps := MPState.init ops plugins }
  refine ⟨done.map Prod.fst, by simpa using h3, ?_, ?_⟩
  · refine h5.trans ?_
    simp only [sentTexts, List.nil_append, List.flatMap_map, List.flatMap_cons, List.flatMap_nil, List.append_nil]
  · intro c qs hqs hc
    have harr : Increments key (arrivals es') (qs.map fun p => (.fin p.1, .fin p.2)) := by
      obtain ⟨x, hx⟩ := increments_exist key (arrivals es')
      have hsub : ∀ p ∈ done, p.1 ∈ takenIn cf.monitor.message es := fun p hp =>
        h3.subset (by simpa using .inl ⟨p.2, hp⟩)
      have key' : ∀ (done : List (Str × List Str)), (∀ p ∈ done, p.1 ∈ takenIn cf.monitor.message es) →
          (∀ p ∈ done, Delivered (messageProcessor ops) w cf.rx cf.rules p.1 p.2) →
          ∀ x, Increments key (done.flatMap Prod.snd) x → Increments key (routedTexts cf.rx cf.rules (done.map Prod.fst)) x := by
        intro done
        induction done with
        | nil => intro _ _ x hx; exact hx
        | cons p done ih =>
          intro hs h x hx
          obtain ⟨a, ha⟩ := increments_exist key p.2
          obtain ⟨b, hb⟩ := increments_exist key (done.flatMap Prod.snd)
          have : x = a ++ b := increments_unique hx (increments_append ha hb)
          subst this
          have e : routedTexts cf.rx cf.rules ((p :: done).map Prod.fst) =
              routedTexts cf.rx cf.rules [p.1] ++ routedTexts cf.rx cf.rules (done.map Prod.fst) := by
            simp [routedTexts]
          rw [e]
          exact increments_append (hd _ (hs p (by simp)) _ (h p (by simp)) a ha)
            (ih (fun p hp => hs p (by simp [hp])) (fun p hp => h p (by simp [hp])) b hb)
      rw [h2] at hx
      have := increments_unique (key' done hsub h4 x hx) hqs
      rw [this, ← h2] at hx
      exact hx
    have hb := schedule_balance ops hq plugins w es' (fun i p h => (h6 i p h).1 ▸ hi) key c qs harr hc
    have e1 : v.ps = ((startUp (MPState.init ops plugins)).run (messageProcessor ops) w es').ps := congrArg Server.ps h1
    have e2 : v.gens = ((startUp (MPState.init ops plugins)).run (messageProcessor ops) w es').gens := congrArg Server.gens h1
    have e3 : v.out = ((startUp (MPState.init ops plugins)).run (messageProcessor ops) w es').out := congrArg Server.out h1
    rw [e1, e2, e3]
    exact hb

/-! ## When increments add up -/

theorem addsUp_exact [Exact] {qs : List (ℚ × ℚ)} (h0 : ∀ p ∈ qs, p.2 ≠ 0) : AddsUp 0 qs := by
  intro b hb
  cases b with
  | nil => exact ⟨0, rfl, by simp [amount]⟩
  | cons p b =>
    rw [total_exact_ne (p :: b) (fun q hq => h0 q (hb.subset hq)) (by simp)]
    exact ⟨_, rfl, by simp [amount]⟩

/-- Whole increments without sampling. -/
theorem addsUp_int [IntExact] {qs : List (ℚ × ℚ)} (h : ∀ p ∈ qs, p.2 = 1 ∧ ∃ z : ℤ, p.1 = z) (hs : sizes qs ≤ 2 ^ 53) : AddsUp 0 qs := by
  have hint : ∀ b : List (ℚ × ℚ), (∀ p ∈ b, p.2 = 1 ∧ ∃ z : ℤ, p.1 = z) →
      ∃ zs : List ℤ, b = zs.map (fun z : ℤ => ((z : ℚ), (1 : ℚ))) := by
    intro b
    induction b with
    | nil => intro _; exact ⟨[], rfl⟩
    | cons p b ih =>
      intro h
      obtain ⟨zs, rfl⟩ := ih fun q hq => h q (by simp [hq])
      obtain ⟨h1, z, h2⟩ := h p (by simp)
      exact ⟨z :: zs, by rw [List.map_cons, ← h2, ← h1]⟩
  intro b hb
  have hsb := le_trans (sizes_subperm hb) hs
  obtain ⟨zs, rfl⟩ := hint b fun p hp => h p (hb.subset hp)
  have hsz : ∀ zs : List ℤ, sizes (zs.map fun z : ℤ => ((z : ℚ), (1 : ℚ))) = (((zs.map abs).sum : ℤ) : ℚ) := by
    intro zs
    induction zs with
    | nil => rfl
    | cons z zs ih => simp only [sizes, List.map_cons, List.sum_cons] at ih ⊢; rw [ih]; simp
  have ham : ∀ zs : List ℤ, amount (zs.map fun z : ℤ => ((z : ℚ), (1 : ℚ))) = ((zs.sum : ℤ) : ℚ) := by
    intro zs
    induction zs with
    | nil => rfl
    | cons z zs ih => simp only [amount, List.map_cons, List.sum_cons] at ih ⊢; rw [ih]; simp
  rw [hsz] at hsb
  have hbound : (zs.map abs).sum ≤ 2 ^ 53 := by exact_mod_cast hsb
  have habs : ∀ l : List ℤ, |l.sum| ≤ (l.map abs).sum := by
    intro l
    induction l with
    | nil => simp
    | cons z l ih => simp only [List.sum_cons, List.map_cons]; exact le_trans (abs_add_le _ _) (by linarith)
  have hnn : ∀ l : List ℤ, 0 ≤ (l.map abs).sum := fun l => List.sum_nonneg fun x hx => by
    obtain ⟨z, _, rfl⟩ := List.mem_map.1 hx; exact abs_nonneg z
  have hpre : ∀ l, l <+: zs → |l.sum| ≤ 2 ^ 53 := by
    rintro l ⟨t, rfl⟩
    have := hnn t
    rw [List.map_append, List.sum_append] at hbound
    exact le_trans (habs l) (by linarith)
  have hmem : ∀ z ∈ zs, |z| ≤ 2 ^ 53 := by
    intro z hz
    obtain ⟨a, b, rfl⟩ := List.append_of_mem hz
    have h1 := hnn a
    have h2 := hnn b
    rw [List.map_append, List.map_cons, List.sum_append, List.sum_cons] at hbound
    linarith
  rw [ham]
  cases zs with
  | nil => exact ⟨0, rfl, by simp⟩
  | cons z zs =>
    have := C07_integer_sum (z :: zs) (by simp) hmem hpre
    have h1 : rnd (1 : ℚ) = .fin 1 := by have := IntExact.rnd_int 1 (by norm_num); simpa using this
    rw [h1] at this
    refine ⟨(((z :: zs).sum : ℤ) : ℚ), ?_, by simp⟩
    rw [List.map_map]
    exact congrArg Num.exact this

/-! ## Doubles -/

omit [Rounding] in
theorem two_pow_pos (n : ℤ) : (0 : ℚ) < 2 ^ n := zpow_pos (by norm_num) n

section
variable [Ieee]

theorem rep_two_pow (n : ℤ) (h1 : 0 ≤ n) (h2 : n < 1024) : rnd ((2 : ℚ) ^ n) = .fin ((2 : ℚ) ^ n) := by
  refine Ieee.rep.2 ⟨⟨1, n, by norm_num, by omega, by simp⟩, ?_⟩
  rw [abs_of_pos (two_pow_pos n)]
  exact zpow_lt_zpow_right₀ (by norm_num) h2

/-- Rounding of a number of moderate size. -/
theorem rnd_moderate {q : ℚ} (h1 : (2 : ℚ) ^ (-1022 : ℤ) ≤ |q|) (h2 : |q| ≤ 2 ^ (1000 : ℤ)) :
    ∃ r, rnd q = .fin r ∧ |r - q| ≤ |q| / 2 ^ 53 := by
  have hp := rep_two_pow 1000 (by norm_num) (by norm_num)
  obtain ⟨a, b⟩ := abs_le.1 h2
  obtain ⟨r, hr, _, _⟩ := rnd_between (rep_neg hp) hp a b
  exact ⟨r, hr, Ieee.norm h1 hr⟩

/-- A contribution `value * (1 / rate)`. -/
theorem contribution {v r : ℚ} (h0 : r ≠ 0) (hv : Moderate v) (hr : Moderate r) :
    ∃ c, PyFloat.mul (.fin v) (inverse (.fin r)) = .fin c ∧ rnd c = .fin c ∧ |c - v / r| ≤ |v / r| / 2 ^ 51 := by
  have h1 : rnd (1 : ℚ) = .fin 1 := by have := rnd_int (z := 1) (by norm_num); simpa using this
  rcases hr with hr | ⟨hr1, hr2⟩
  · exact absurd hr h0
  have hpos : (0 : ℚ) < 2 ^ (400 : ℤ) := two_pow_pos _
  have hr0 : 0 < |r| := abs_pos.2 h0
  have hneg : (2 : ℚ) ^ (-400 : ℤ) = 1 / 2 ^ (400 : ℤ) := by rw [zpow_neg, one_div]
  have hi1 : (2 : ℚ) ^ (-400 : ℤ) ≤ |1 / r| := by
    rw [hneg, abs_div, abs_one]
    exact one_div_le_one_div_of_le hr0 hr2
  have hi2 : |1 / r| ≤ (2 : ℚ) ^ (400 : ℤ) := by
    rw [abs_div, abs_one, div_le_iff₀ hr0]
    rw [hneg, div_le_iff₀ hpos] at hr1
    linarith
  have ple : ∀ a b : ℤ, a ≤ b → (2 : ℚ) ^ a ≤ 2 ^ b := fun a b h => zpow_le_zpow_right₀ (by norm_num) h
  obtain ⟨i, hi, hie⟩ := rnd_moderate (le_trans (ple _ _ (by norm_num)) hi1) (le_trans hi2 (ple _ _ (by norm_num)))
  have hinv : inverse (.fin r) = .fin i := by
    unfold inverse; rw [h1]; simp only [PyFloat.div]; rw [if_neg h0, hi]
  rw [hinv]
  show ∃ c, rnd (v * i) = .fin c ∧ _
  rcases hv with rfl | ⟨hv1, hv2⟩
  · exact ⟨0, by rw [zero_mul]; exact rnd_zero, rnd_zero, by simp⟩
  -- sizes of `1 / r` as rounded
  have hu := abs_sub_abs_le_abs_sub i (1 / r)
  have hl := abs_sub_abs_le_abs_sub (1 / r) i
  rw [abs_sub_comm] at hl
  set x := |1 / r| with hx
  have hx0 : 0 < x := lt_of_lt_of_le (two_pow_pos _) hi1
  have hiu : |i| ≤ 2 * x := by linarith [div_le_self hx0.le (by norm_num : (1 : ℚ) ≤ 2 ^ 53)]
  have hil : x / 2 ≤ |i| := by
    have : x / 2 ^ 53 ≤ x / 2 := by apply div_le_div_of_nonneg_left hx0.le <;> norm_num
    linarith
  have hv0 : 0 < |v| := lt_of_lt_of_le (two_pow_pos _) hv1
  have hlow : (2 : ℚ) ^ (-1022 : ℤ) ≤ |v * i| := by
    rw [abs_mul]
    have e : (2 : ℚ) ^ (-801 : ℤ) = 2 ^ (-400 : ℤ) * (2 ^ (-400 : ℤ) / 2) := by
      rw [show (-801 : ℤ) = -400 + -400 + -1 by norm_num, zpow_add₀ (by norm_num), zpow_add₀ (by norm_num), zpow_neg_one]; ring
    refine le_trans (ple _ (-801) (by norm_num)) ?_
    rw [e]
    exact mul_le_mul hv1 (le_trans (div_le_div_of_nonneg_right hi1 (by norm_num)) hil) (div_nonneg (two_pow_pos _).le (by norm_num)) hv0.le
  have hupp : |v * i| ≤ 2 ^ (1000 : ℤ) := by
    rw [abs_mul]
    have e : (2 : ℚ) ^ (801 : ℤ) = 2 ^ (400 : ℤ) * (2 * 2 ^ (400 : ℤ)) := by
      rw [show (801 : ℤ) = 400 + (1 + 400) by norm_num, zpow_add₀ (by norm_num), zpow_add₀ (by norm_num), zpow_one]
    refine le_trans ?_ (ple 801 _ (by norm_num))
    rw [e]
    exact mul_le_mul hv2 (le_trans hiu (mul_le_mul_of_nonneg_left hi2 (by norm_num))) (abs_nonneg i) hpos.le
  obtain ⟨c, hc, hce⟩ := rnd_moderate hlow hupp
  refine ⟨c, hc, Ieee.idem hc, ?_⟩
  have hvr : v / r = v * (1 / r) := by ring
  rw [hvr, abs_mul]
  have hd : |c - v * (1 / r)| ≤ |c - v * i| + |v| * |i - 1 / r| := by
    rw [← abs_mul, show c - v * (1 / r) = (c - v * i) + v * (i - 1 / r) by ring]
    exact abs_add_le _ _
  rw [abs_mul] at hce
  have k1 : |v| * |i - 1 / r| ≤ |v| * (x / 2 ^ 53) := mul_le_mul_of_nonneg_left hie hv0.le
  have k2 : |v| * |i| / 2 ^ 53 ≤ |v| * (2 * x) / 2 ^ 53 :=
    div_le_div_of_nonneg_right (mul_le_mul_of_nonneg_left hiu hv0.le) (by positivity)
  have k3 : 0 ≤ |v| * x := by positivity
  have e1 : |v| * (x / 2 ^ 53) = |v| * x / 2 ^ 53 := by ring
  have e2 : |v| * (2 * x) / 2 ^ 53 = 2 * (|v| * x / 2 ^ 53) := by ring
  have e3 : |v| * x / 2 ^ 51 = 4 * (|v| * x / 2 ^ 53) := by ring
  have k4 : 0 ≤ |v| * x / 2 ^ 53 := by positivity
  linarith

theorem contributions {b : List (ℚ × ℚ)} (h : ∀ p ∈ b, p.2 ≠ 0 ∧ Moderate p.1 ∧ Moderate p.2) :
    ∃ cs : List ℚ, (b.map fun p => ((.fin p.1, .fin p.2) : PyFloat × PyFloat)).map (fun p => p.1.mul (inverse p.2)) = cs.map .fin ∧
      cs.length = b.length ∧ (∀ c ∈ cs, rnd c = .fin c) ∧ |cs.sum - amount b| ≤ sizes b / 2 ^ 51 ∧
      (cs.map abs).sum ≤ sizes b + sizes b / 2 ^ 51 := by
  induction b with
  | nil => exact ⟨[], rfl, rfl, by simp, by simp [amount, sizes], by simp [sizes]⟩
  | cons p b ih =>
    obtain ⟨cs, h1, h2, h3, h4, h5⟩ := ih fun q hq => h q (by simp [hq])
    obtain ⟨k0, k1, k2⟩ := h p (by simp)
    obtain ⟨c, g1, g2, g3⟩ := contribution k0 k1 k2
    refine ⟨c :: cs, ?_, by simp [h2], ?_, ?_, ?_⟩
    · rw [List.map_cons, List.map_cons, List.map_cons, h1, g1]
    · intro x hx
      rcases List.mem_cons.1 hx with rfl | hx
      · exact g2
      · exact h3 x hx
    · simp only [amount, sizes, List.map_cons, List.sum_cons] at h4 ⊢
      rw [add_div, show ∀ a b c d : ℚ, a + b - (c + d) = (a - c) + (b - d) by intros; ring]
      exact le_trans (abs_add_le _ _) (add_le_add g3 h4)
    · simp only [sizes, List.map_cons, List.sum_cons] at h5 ⊢
      have : |c| ≤ |p.1 / p.2| + |p.1 / p.2| / 2 ^ 51 := by
        have := abs_sub_abs_le_abs_sub c (p.1 / p.2)
        linarith
      rw [add_div]; linarith

theorem sizes_le {b : List (ℚ × ℚ)} (h : ∀ p ∈ b, p.2 ≠ 0 ∧ Moderate p.1 ∧ Moderate p.2) : sizes b ≤ b.length * 2 ^ (800 : ℤ) := by
  induction b with
  | nil => simp [sizes]
  | cons p b ih =>
    have ih := ih fun q hq => h q (by simp [hq])
    obtain ⟨k0, k1, k2⟩ := h p (by simp)
    have : |p.1 / p.2| ≤ 2 ^ (800 : ℤ) := by
      have e : (2 : ℚ) ^ (800 : ℤ) = 2 ^ (400 : ℤ) * 2 ^ (400 : ℤ) := by rw [← zpow_add₀ (by norm_num)]; norm_num
      rcases k1 with k1 | ⟨_, k1⟩
      · rw [k1]; simp
      rcases k2 with k2 | ⟨k2, _⟩
      · exact absurd k2 k0
      rw [abs_div, div_le_iff₀ (abs_pos.2 k0), e]
      have hpos : (0 : ℚ) < 2 ^ (400 : ℤ) := two_pow_pos _
      rw [zpow_neg, inv_le_iff_one_le_mul₀ hpos] at k2
      calc |p.1| ≤ 2 ^ (400 : ℤ) * 1 := by rw [mul_one]; exact k1
        _ ≤ 2 ^ (400 : ℤ) * (|p.2| * 2 ^ (400 : ℤ)) := mul_le_mul_of_nonneg_left k2 hpos.le
        _ = _ := by ring
    simp only [sizes, List.map_cons, List.sum_cons, List.length_cons] at ih ⊢
    generalize (2 : ℚ) ^ (800 : ℤ) = P at this ih ⊢
    push_cast
    linarith

theorem addsUp_ieee {qs : List (ℚ × ℚ)} (h : ∀ p ∈ qs, p.2 ≠ 0 ∧ Moderate p.1 ∧ Moderate p.2) (hn : qs.length ≤ 2 ^ 50) :
    AddsUp ((qs.length + 2) / 2 ^ 52) qs := by
  intro b hb
  have hb' : ∀ p ∈ b, p.2 ≠ 0 ∧ Moderate p.1 ∧ Moderate p.2 := fun p hp => h p (hb.subset hp)
  have hlen : b.length ≤ qs.length := hb.length_le
  obtain ⟨cs, h1, h2, h3, h4, h5⟩ := contributions hb'
  have hS := sizes_nonneg b
  by_cases hne : cs = []
  · have hb0 : b = [] := List.length_eq_zero_iff.1 (by rw [← h2, hne]; rfl)
    subst hb0
    exact ⟨0, rfl, by simp [amount, sizes]⟩
  have hbig : (cs.map abs).sum ≤ 2 ^ (1000 : ℤ) := by
    have k1 := sizes_le hb'
    have k2 : (b.length : ℚ) ≤ 2 ^ 50 := by exact_mod_cast le_trans hlen hn
    have e : (2 : ℚ) ^ (851 : ℤ) = 2 * (2 ^ 50 * 2 ^ (800 : ℤ)) := by
      rw [show (851 : ℤ) = 1 + (50 + 800) by norm_num, zpow_add₀ (by norm_num), zpow_add₀ (by norm_num), zpow_one]
      rw [show (2 : ℚ) ^ (50 : ℤ) = 2 ^ 50 from zpow_natCast 2 50]
    refine le_trans ?_ (zpow_le_zpow_right₀ (by norm_num) (by norm_num : (851 : ℤ) ≤ 1000))
    rw [e]
    have hP : (0 : ℚ) < 2 ^ (800 : ℤ) := two_pow_pos _
    generalize (2 : ℚ) ^ (800 : ℤ) = P at k1 hP ⊢
    have k3 : (b.length : ℚ) * P ≤ 2 ^ 50 * P := mul_le_mul_of_nonneg_right k2 hP.le
    have k4 : sizes b / 2 ^ 51 ≤ sizes b := div_le_self hS (by norm_num)
    linarith
  obtain ⟨s, k1, _, k3⟩ := sum_near' cs hne h3 (by rw [h2]; exact le_trans hlen (le_trans hn (by norm_num))) hbig
  clear hbig
  refine ⟨s, ?_, ?_⟩
  · have : total (b.map fun p => ((.fin p.1, .fin p.2) : PyFloat × PyFloat)) = .flt (.fin s) := by
      rw [← k1, ← sumFloats_map, ← h1, List.foldl_map]; rfl
    rw [this]; rfl
  · have hd : |s - amount b| ≤ |s - cs.sum| + |cs.sum - amount b| := by
      rw [show s - amount b = (s - cs.sum) + (cs.sum - amount b) by ring]; exact abs_add_le _ _
    have hm : ((cs.length - 1 : ℕ) : ℚ) = (b.length : ℚ) - 1 := by
      rw [h2, Nat.cast_sub]
      · simp
      · rw [← h2]; exact List.length_pos_iff.2 hne
    rw [hm] at k3
    have hl1 : (1 : ℚ) ≤ b.length := by
      have : 1 ≤ b.length := by rw [← h2]; exact List.length_pos_iff.2 hne
      exact_mod_cast this
    have hl2 : (b.length : ℚ) ≤ qs.length := by exact_mod_cast hlen
    have hl3 : (b.length : ℚ) ≤ 2 ^ 50 := by exact_mod_cast le_trans hlen hn
    have g1 : ((b.length : ℚ) - 1) / 2 ^ 52 * (cs.map abs).sum ≤ ((b.length : ℚ) - 1) / 2 ^ 52 * (sizes b + sizes b / 2 ^ 51) :=
      mul_le_mul_of_nonneg_left h5 (div_nonneg (by linarith) (by norm_num))
    have g2 : ((b.length : ℚ) - 1) / 2 ^ 52 * (sizes b / 2 ^ 51) ≤ 1 / 2 ^ 52 * sizes b := by
      have : ((b.length : ℚ) - 1) / 2 ^ 51 ≤ 1 := by rw [div_le_one (by norm_num)]; linarith
      calc ((b.length : ℚ) - 1) / 2 ^ 52 * (sizes b / 2 ^ 51) = ((b.length : ℚ) - 1) / 2 ^ 51 * (1 / 2 ^ 52 * sizes b) := by ring
        _ ≤ 1 * (1 / 2 ^ 52 * sizes b) := mul_le_mul_of_nonneg_right this (by positivity)
        _ = _ := by ring
    have g3 : (b.length : ℚ) * (sizes b / 2 ^ 52) ≤ qs.length * (sizes b / 2 ^ 52) :=
      mul_le_mul_of_nonneg_right hl2 (by positivity)
    have e1 : ((b.length : ℚ) - 1) / 2 ^ 52 * (sizes b + sizes b / 2 ^ 51) =
        (b.length : ℚ) * (sizes b / 2 ^ 52) - sizes b / 2 ^ 52 + ((b.length : ℚ) - 1) / 2 ^ 52 * (sizes b / 2 ^ 51) := by ring
    have e2 : ((qs.length : ℚ) + 2) / 2 ^ 52 * sizes b = qs.length * (sizes b / 2 ^ 52) + 2 * (sizes b / 2 ^ 52) := by ring
    have e3 : sizes b / 2 ^ 51 = 2 * (sizes b / 2 ^ 52) := by ring
    have e4 : 1 / 2 ^ 52 * sizes b = sizes b / 2 ^ 52 := by ring
    rw [e2]
    rw [e4] at g2
    rw [e1] at g1
    rw [e3] at h4
    linarith

end

end Txstatsd
