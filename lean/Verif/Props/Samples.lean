import Verif.Lemmas.Sample
import Verif.Lemmas.ExpDecay
import Verif.Lemmas.Ewma

/-!
# C35–C39: samples and moving averages
-/

namespace Txstatsd

/-! ## C35 -/

/-- Whatever the random generator returns, a uniform sample of capacity `n` holds `min(n, seen)` of the values seen since
the last clear, taken at different positions of the stream; while at most `n` values have been seen it is the stream itself,
in order. -/
theorem C35_positions {α : Type} (zero : α) (n : Nat) (ops : List (StreamOp α)) :
    let seen := streamValues ops
    let held := ((UniformSample.init zero n).runOps zero ops).getValues
    held.length = min n seen.length ∧
    (∃ positions : List Nat, positions.Nodup ∧ List.Forall₂ (fun i v => seen[i]? = some v) positions held) ∧
    (seen.length ≤ n → held = seen) := by
  obtain ⟨idx, h⟩ := UniformSample.holds_runOps zero n ops
  have hf := h.getValues
  refine ⟨?_, ⟨idx, h.nd, hf⟩, ?_⟩
  · rw [← hf.length_eq, h.il]
  · intro hle
    rw [h.early hle] at hf
    have hl := hf.length_eq
    rw [List.length_range] at hl
    apply List.ext_getElem?
    intro k
    by_cases hk : k < (streamValues ops).length
    · have := (List.forall₂_iff_get.1 hf).2 k (by simpa using hk) (by omega)
      simp only [List.get_eq_getElem, List.getElem_range] at this
      rw [this, List.getElem?_eq_getElem]
    · rw [List.getElem?_eq_none (by omega), List.getElem?_eq_none (by omega)]

/-- A stream of five values through a sample of two: positions 1 and 4 are kept. -/
example : ((UniformSample.init 0 2).runOps 0
    [.update 9 70, .clear, .update 5 10, .update 5 11, .update 5 12, .update 4 13, .update 5 14]).getValues = [14, 11] := by
  decide +kernel

/-! ## C36 -/

/-- The outcomes counted below are all the sequences of reduced draws `r_k < k`, each once. -/
theorem C36_outcomes (N : Nat) :
    (drawSequences N).Nodup ∧ ∀ ds : List Nat, ds ∈ drawSequences N ↔ ds.length = N ∧ ∀ k r : Nat, ds[k]? = some r → r < k + 1 := by
  refine ⟨UniformSample.drawSequences_nodup N, fun ds => ?_⟩
  rw [UniformSample.mem_drawSequences]
  simp only [Nat.lt_succ_iff]

/-- Each of the `N ≥ n` stream positions is retained in exactly `n/N` of the `N!` equally likely outcomes. -/
theorem C36_uniform (n N i : Nat) (hn : n ≤ N) (hi : i < N) :
    (drawSequences N).countP (fun ds => decide (i ∈ keptPositions n ds)) * N = n * (drawSequences N).length := by
  rw [UniformSample.length_drawSequences]
  exact UniformSample.marginal n N i hn hi

/-- Moreover every set of `n` positions is retained in the same number of outcomes, `n!·(N-n)!`. -/
theorem C36_subsets (n N : Nat) (S : Finset Nat) (hn : n ≤ N) (hS : ∀ i ∈ S, i < N) (hc : S.card = n) :
    (drawSequences N).countP (fun ds => decide ((keptPositions n ds).toFinset = S)) = n.factorial * (N - n).factorial :=
  UniformSample.subset_count n N S hn (fun i hi => Finset.mem_range.2 (hS i hi)) hc

/-- Retained positions are those of `C35`: the sample of any stream holds the values at `keptPositions`. -/
theorem C36_kept (n : Nat) (ds : List Nat) {α : Type} (zero : α) (vs : List α) (h : vs.length = ds.length) :
    List.Forall₂ (fun i v => vs[i]? = some v) (keptPositions n ds)
      ((UniformSample.init zero n).runOps zero ((ds.zip vs).map fun p => .update p.1 p.2)).getValues := by
  suffices hh : UniformSample.Holds n ((UniformSample.init zero n).runOps zero ((ds.zip vs).map fun p => .update p.1 p.2)) vs
      (keptPositions n ds) from hh.getValues
  induction ds using List.reverseRecOn generalizing vs with
  | nil => 
    have : vs = [] := List.length_eq_zero_iff.1 (by simpa using h)
    subst this; exact UniformSample.Holds.init zero n
  | append_singleton ds r ih =>
    rcases List.eq_nil_or_concat vs with rfl | ⟨us, v, rfl⟩
    · simp at h
    · simp only [List.concat_eq_append] at *
      have hl : us.length = ds.length := by simpa using h
      rw [UniformSample.keptPositions_snoc, List.zip_append hl.symm, List.map_append, show
        (List.zip [r] [v]).map (fun p => StreamOp.update p.1 p.2) = [StreamOp.update r v] from rfl,
        UniformSample.runOps_snoc, ← hl]
      exact (ih us hl).update r v

/-- Three values, capacity two: each position is retained in four of the six outcomes, each pair in two. -/
example : (drawSequences 3).length = 6 ∧
    (drawSequences 3).countP (fun ds => decide (1 ∈ keptPositions 2 ds)) = 4 ∧
    (drawSequences 3).countP (fun ds => decide ((keptPositions 2 ds).toFinset = {0, 2})) = 2 := by decide +kernel

/-! ## C37 -/

section
variable {K V : Type} [Field K] [LinearOrder K] [IsStrictOrderedRing K] [LinearOrder V]

/-- At every moment the decaying sample is the list of the values with the greatest weights offered since the last clear:
what it holds and what it dropped together are everything offered, nothing dropped outweighs anything held, it holds
`min(size, offered)` values, in increasing order of weight, and each stored priority is the weight seen from the current
landmark. -/
theorem C37_top (E : ExpFn K) (n : Nat) (alpha t1 t2 : K) (ops : List (DecayOp K V)) (hd : DrawsOk ops) :
    let s := (ExpDecay.init n alpha t1 t2 : ExpDecay K V).runOps E ops
    ∃ held dropped : List (K × V),
      (held ++ dropped).Perm (weighted E alpha ops) ∧
      (∀ a ∈ dropped, ∀ b ∈ held, a.1 ≤ b.1) ∧
      held.length = min n (weighted E alpha ops).length ∧ s.size = held.length ∧
      (held.map Prod.fst).Pairwise (· ≤ ·) ∧
      s.getValues = held.map Prod.snd ∧
      s.values.map Prod.fst = held.map (fun p => p.1 / E.exp (alpha * s.startTime)) := by
  obtain ⟨h1, h2, h3⟩ := ExpDecay.tracks_run E n alpha t1 t2 ops hd
  obtain ⟨g1, g2, dr, g3, g4⟩ := ExpDecay.ideal_top n (weighted E alpha ops)
  refine ⟨_, dr, g3, g4, g2, ?_, ?_, ?_, ?_⟩
  · unfold ExpDecay.size; rw [h2, h3.cnt, g2]; omega
  · rw [List.pairwise_map]
    refine g1.imp ?_
    intro a b hab
    rw [ExpDecay.entryLt_eq, decide_eq_false_iff_not, not_lt, Prod.Lex.toLex_le_toLex] at hab
    rcases hab with h | h
    · exact h.le
    · exact h.1.le
  · unfold ExpDecay.getValues
    rw [h3.vals]; simp [ExpDecay.scale]
  · rw [h3.vals, h1]
    unfold ExpDecay.scale
    rw [List.map_map]
    apply List.map_congr_left
    rintro ⟨w, v⟩ _
    simp only [Function.comp]
    have hpos := E.pos (alpha * ((ExpDecay.init n alpha t1 t2 : ExpDecay K V).runOps E ops).startTime)
    rw [eq_div_iff hpos.ne', mul_assoc, ← E.add]
    have hz : E.exp 0 = 1 := by
      have h0 := E.add 0 0
      rw [add_zero] at h0
      have hp := (E.pos 0).ne'
      have : E.exp 0 * 1 = E.exp 0 * E.exp 0 := by rw [mul_one]; exact h0
      exact (mul_left_cancel₀ hp this).symm
    rw [show -alpha * ((ExpDecay.init n alpha t1 t2 : ExpDecay K V).runOps E ops).startTime +
      alpha * ((ExpDecay.init n alpha t1 t2 : ExpDecay K V).runOps E ops).startTime = 0 by ring, hz, mul_one]

/-- An update fails only when the random draw is zero or the sample has size zero. -/
theorem C37_errors (E : ExpFn K) (n : Nat) (alpha t1 t2 : K) (ops : List (DecayOp K V)) (hd : DrawsOk ops)
    (v : V) (t d : K) (h : 0 ≤ d) :
    (((ExpDecay.init n alpha t1 t2 : ExpDecay K V).runOps E ops).update E v t d).2 =
      if d = 0 then some .zeroDivisionError else if n = 0 then some .indexError else none := by
  obtain ⟨h1, h2, h3⟩ := ExpDecay.tracks_run E n alpha t1 t2 ops hd
  have := (h3.update v t d h).2.2.2
  rw [h2] at this
  exact this

/-! ## C38 -/

/-- Rescaling any reachable sample to any landmark keeps the same values in the same order, and turns every priority into the
one relative to the new landmark. -/
theorem C38_rescale (E : ExpFn K) (n : Nat) (alpha t1 t2 : K) (ops : List (DecayOp K V)) (hd : DrawsOk ops) (now : K) :
    let s := (ExpDecay.init n alpha t1 t2 : ExpDecay K V).runOps E ops
    (s.rescale E now).getValues = s.getValues ∧ (s.rescale E now).startTime = now ∧
    ∃ ws : List K, s.values.map Prod.fst = ws.map (fun w => w * E.exp (-alpha * s.startTime)) ∧
      (s.rescale E now).values.map Prod.fst = ws.map (fun w => w * E.exp (-alpha * now)) := by
  obtain ⟨h1, h2, h3⟩ := ExpDecay.tracks_run E n alpha t1 t2 ops hd
  have h4 := h3.rescale now
  refine ⟨?_, rfl, (ExpDecay.idealRun n (weighted E alpha ops)).map Prod.fst, ?_, ?_⟩
  · unfold ExpDecay.getValues; rw [h4.vals, h3.vals]; simp [ExpDecay.scale]
  · rw [h3.vals, h1]; simp [ExpDecay.scale]
  · rw [h4.vals]
    simp only [ExpDecay.rescale, h1]
    simp [ExpDecay.scale]

/-- The choice of landmarks never shows: two samples with different starting landmarks, and hence with different rescaling
times, hold the same values in the same order after the same updates. -/
theorem C38_landmark_free (E : ExpFn K) (n : Nat) (alpha t1 t2 u1 u2 : K) (ops : List (DecayOp K V)) (hd : DrawsOk ops) :
    ((ExpDecay.init n alpha t1 t2 : ExpDecay K V).runOps E ops).getValues =
    ((ExpDecay.init n alpha u1 u2 : ExpDecay K V).runOps E ops).getValues := by
  obtain ⟨_, _, h3⟩ := ExpDecay.tracks_run E n alpha t1 t2 ops hd
  obtain ⟨_, _, g3⟩ := ExpDecay.tracks_run E n alpha u1 u2 ops hd
  unfold ExpDecay.getValues
  rw [h3.vals, g3.vals]
  simp [ExpDecay.scale]

end

/-- The constant function 1 is an `ExpFn` with which the model can be evaluated (no decay); `realExp` is the real one. -/
def flatExp : ExpFn ℚ := ⟨fun _ => 1, fun _ => one_pos, fun _ _ => (mul_one 1).symm⟩

/-- Three values through a sample of size two, the second update rescaling: the least weighted one is dropped. -/
example : ((ExpDecay.init 2 (1 / 100) 0 0 : ExpDecay ℚ ℤ).runOps flatExp
      [.update 10 5 (1 / 2), .update 20 700 (1 / 4), .update 30 710 (1 / 3)]).getValues = [30, 20] ∧
    weighted flatExp (1 / 100 : ℚ) [.update (10 : ℤ) 5 (1 / 2), .update 20 700 (1 / 4), .update 30 710 (1 / 3)] =
      [(2, 10), (4, 20), (3, 30)] := by
  decide +kernel

/-- The hypothesis on draws is met by that stream. -/
example : DrawsOk [DecayOp.update (10 : ℤ) 5 (1 / 2 : ℚ), .update 20 700 (1 / 4), .clear 3 3, .update 30 710 0] := by
  intro v t d h
  simp at h
  rcases h with ⟨_, _, rfl⟩ | ⟨_, _, rfl⟩ | ⟨_, _, rfl⟩ <;> norm_num

/-! ## C39 -/

/-- The rate is the exponentially weighted mean of the rates of the completed intervals: with `k+1` intervals of rates
`r₀ … r_k` it is `(1-α)^k·r₀ + Σ α(1-α)^(k-j)·r_j`, and 0 before the first tick. -/
theorem C39_weights {K : Type} [Field K] (alpha interval : K) (ops : List (EwmaOp K)) :
    ((Ewma.init alpha interval).runOps ops).rate =
      match instantRates interval ops with
      | [] => 0
      | r :: rs => (1 - alpha) ^ rs.length * r +
          ∑ j ∈ Finset.range rs.length, alpha * (1 - alpha) ^ (rs.length - 1 - j) * rs.getD j 0 := by
  rw [Ewma.run_spec]
  simp only
  cases h : instantRates interval ops with
  | nil => rfl
  | cons r rs => simp only [Ewma.average_sum]

/-- For `0 ≤ α ≤ 1` the rate lies between any bounds of the interval rates. -/
theorem C39_hull {K : Type} [Field K] [LinearOrder K] [IsStrictOrderedRing K] (alpha interval lo hi : K)
    (h0 : 0 ≤ alpha) (h1 : alpha ≤ 1) (ops : List (EwmaOp K)) (hne : instantRates interval ops ≠ [])
    (h : ∀ r ∈ instantRates interval ops, lo ≤ r ∧ r ≤ hi) :
    lo ≤ ((Ewma.init alpha interval).runOps ops).rate ∧ ((Ewma.init alpha interval).runOps ops).rate ≤ hi := by
  rw [Ewma.run_spec]
  exact Ewma.average_hull alpha lo hi h0 h1 _ hne h

/-- With a constant rate the moving average is that rate. -/
theorem C39_constant {K : Type} [Field K] [LinearOrder K] [IsStrictOrderedRing K] (alpha interval r : K)
    (h0 : 0 ≤ alpha) (h1 : alpha ≤ 1) (ops : List (EwmaOp K)) (hne : instantRates interval ops ≠ [])
    (h : ∀ x ∈ instantRates interval ops, x = r) : ((Ewma.init alpha interval).runOps ops).rate = r := by
  have := C39_hull alpha interval r r h0 h1 ops hne (fun x hx => by rw [h x hx]; exact ⟨le_rfl, le_rfl⟩)
  exact le_antisymm this.2 this.1

/-- After any tick, `k` further ticks without events multiply the rate by `(1-α)^k`. -/
theorem C39_idle {K : Type} [Field K] (alpha interval : K) (ops : List (EwmaOp K)) (k : Nat) :
    ((Ewma.init alpha interval).runOps (ops ++ .tick :: List.replicate k .tick)).rate =
      (1 - alpha) ^ k * ((Ewma.init alpha interval).runOps (ops ++ [.tick])).rate := by
  rw [Ewma.run_spec, Ewma.run_spec]
  simp only
  have e : ∀ k, instantRates interval (ops ++ .tick :: List.replicate k .tick) =
      instantRates interval (ops ++ [.tick]) ++ List.replicate k 0 := by
    intro k
    have h0 := Ewma.totals_idle ops 0
    simp only [List.replicate_zero] at h0
    unfold instantRates
    rw [Ewma.totals_idle, h0]
    simp
  rw [e k, Ewma.average_idle]
  have h0 := Ewma.totals_idle ops 0
  simp only [List.replicate_zero] at h0
  unfold instantRates; rw [h0]; simp

/-- The decay factors of the one, five and fifteen minute averages are strictly between 0 and 1, and a longer window gives a
smaller factor. -/
theorem C39_alphas : (0 < Ewma.m15Alpha ∧ Ewma.m15Alpha < Ewma.m5Alpha) ∧ Ewma.m5Alpha < Ewma.m1Alpha ∧ Ewma.m1Alpha < 1 := by
  unfold Ewma.m1Alpha Ewma.m5Alpha Ewma.m15Alpha
  refine ⟨⟨?_, ?_⟩, ?_, ?_⟩
  · have : Real.exp (-5 / 60 / 15) < 1 := by rw [Real.exp_lt_one_iff]; norm_num
    linarith
  · have : Real.exp (-5 / 60 / 5) < Real.exp (-5 / 60 / 15) := by rw [Real.exp_lt_exp]; norm_num
    linarith
  · have : Real.exp (-5 / 60) < Real.exp (-5 / 60 / 5) := by rw [Real.exp_lt_exp]; norm_num
    linarith
  · have := Real.exp_pos (-5 / 60); linarith

/-- Two intervals of rates 2 and 6 with `α = 1/4`: the average is 3. -/
example : ((Ewma.init (1 / 4 : ℚ) 5).runOps [.update 4, .update 6, .tick, .update 30, .tick]).rate = 3 ∧
    instantRates (5 : ℚ) [.update 4, .update 6, .tick, .update 30, .tick] = [2, 6] := by decide +kernel

end Txstatsd
