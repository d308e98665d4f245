import Verif.Spec.Durations
import Verif.Lemmas.Timed
import Verif.Lemmas.Accounting

set_option linter.unusedSectionVars false
set_option linter.unusedSimpArgs false
set_option linter.unusedVariables false

/-!
# The durations of the summary
-/

namespace Txstatsd
open Spec
section
variable [Rounding] {C T G PF PM : Type}

theorem handled_type {I : Impl C T G PF PM} {w : World} {s : PS C T G PF PM} {msg t t' : Str}
    (h : Handled I w s t msg) (h' : Handled I w s t' msg) : t = t' := by
  obtain ⟨⟨k, f, hp⟩, _⟩ := h
  obtain ⟨⟨k', f', hp'⟩, _⟩ := h'
  rw [parsed_iff] at hp hp'
  rw [hp] at hp'
  simp only [Option.some.injEq, Metric.mk.injEq] at hp'
  tauto

theorem process_timings {I : Impl C T G PF PM} (hI : I.Local) (w : World) (s : PS C T G PF PM) (msg : Str) :
    (∀ t, Handled I w s t msg → (process I w s msg).1.processTimings =
      s.processTimings.put t (((s.processTimings.find t).getD (.int 0)).add
        (.flt (rnd (elapsed w s (process I w s msg).1))))) ∧
    ((∀ t, ¬ Handled I w s t msg) → (process I w s msg).1.processTimings = s.processTimings) := by
  unfold Handled elapsed
  cases hp : parseMessage msg with
  | none =>
    have h0 : ∀ t key fields, ¬ Parsed msg t key fields := by
      intro t k f h; rw [parsed_iff, hp] at h; cases h
    constructor
    · rintro t ⟨⟨k, f, h⟩, _⟩; exact absurd h (h0 t k f)
    · intro _; simp [process, hp]
  | some m =>
    have hpp : ∀ t, (∃ key fields, Parsed msg t key fields) ↔ m.mtype = t := by
      intro t
      constructor
      · rintro ⟨k, f, h⟩; rw [parsed_iff, hp] at h; simp only [Option.some.injEq] at h; rw [h]
      · rintro rfl; exact ⟨m.key, m.fields, parsed_iff.2 hp⟩
    simp only [hpp]
    have hd := dispatch_handled (I := I) (w := w) (s := { s with ticks := s.ticks + 1 }) (msg := msg) (m := m)
    simp only [process, hp, processMessage]
    cases hdd : dispatch I w { s with ticks := s.ticks + 1 } msg m with
    | none =>
      rw [hdd] at hd
      constructor
      · rintro t ⟨rfl, h, _⟩
        obtain ⟨r, hr⟩ := hd.2 h; cases hr
      · intro _; rfl
    | some r =>
      have hreg : m.mtype ∈ builtinTypes ∨ m.mtype ∈ s.plugins.keys := hd.1 ⟨r, hdd⟩
      obtain ⟨hb, _, _⟩ := dispatch_recv hI w hdd
      simp only [finish]
      cases he : r.2.exc with
      | none =>
        simp only [account, hb, he, Nat.add_sub_cancel]
        constructor
        · rintro t ⟨rfl, _⟩; rfl
        · intro h
          exact absurd ⟨rfl, hreg, trivial⟩ (h m.mtype)
      | some e =>
        simp only [he, reduceCtorEq, and_false, false_implies, not_false_eq_true, forall_true_left, true_and, hb, implies_true]

/-- A flush leaves the receive statistics alone if it is aborted. -/
theorem workedSince_step (I : Impl C T G PF PM) (w : World) (P : Str → Prop) (s : PS C T G PF PM) (x : ℚ) (o : Op)
    (os : List Op) (out : List Datapoint) :
    workedSince I w P s x (o :: os) =
      workedSince I w P (Op.apply I w (s, out) o).1 (workedSince I w P s x [o]) os := by
  cases o <;> rfl

variable [Exact]

/-- The stored time of a type: absent with the count. -/
def TimeOf (s : PS C T G PF PM) (t : Str) (x : ℚ) : Prop :=
  (s.processTimings.find t = none ∧ x = 0) ∨ s.processTimings.find t = some (.flt (.fin x))

/-- The stored times of all types add up to `x`. -/
def TotalOf (s : PS C T G PF PM) (x : ℚ) : Prop :=
  (∀ p ∈ s.processTimings, (numVal p.2).isSome) ∧
    numVal (s.processTimings.foldl (fun (a : Num) p => a.add p.2) (.int 0)) = some x

theorem stored_time {I : Impl C T G PF PM} (w : World) (t : Str) (Q : PS C T G PF PM → Prop)
    (hI : I.Local) (hQm : ∀ s m, Q s → Q (process I w s m).1) (hQf : ∀ s i p, Q s → Q (flush I w i p s).1)
    (hf : ∀ s i p, Q s → ((flush I w i p s).2.2 = none → (flush I w i p s).1.processTimings = []) ∧
      ((flush I w i p s).2.2 ≠ none → (flush I w i p s).1.processTimings = s.processTimings))
    (os : List Op) (c : PS C T G PF PM × List Datapoint) (x : ℚ) (hc : Q c.1) (hx : TimeOf c.1 t x) :
    TimeOf (os.foldl (Op.apply I w) c).1 t (workedSince I w (· = t) c.1 x os) := by
  classical
  induction os generalizing c x with
  | nil => exact hx
  | cons o os ih =>
    rw [List.foldl_cons, workedSince_step (out := c.2)]
    cases o with
    | msg m =>
      refine ih _ _ (hQm _ _ hc) ?_
      simp only [Op.apply, workedSince]
      obtain ⟨h1, h2⟩ := process_timings hI w c.1 m
      by_cases hh : Handled I w c.1 t m
      · rw [if_pos ⟨t, rfl, hh⟩]
        refine Or.inr ?_
        rw [h1 t hh, Dict.find_put_self, Exact.rnd_eq]
        rcases hx with ⟨e, rfl⟩ | e <;> rw [e] <;>
          simp [Num.add, Num.toFloat, Exact.rnd_eq, PyFloat.add]
      · rw [if_neg (by rintro ⟨t', rfl, h⟩; exact hh h)]
        unfold TimeOf at hx ⊢
        by_cases ho : ∃ t', Handled I w c.1 t' m
        · obtain ⟨t', ht'⟩ := ho
          have hne : t' ≠ t := by rintro rfl; exact hh ht'
          rw [h1 t' ht', Dict.find_put_ne]
          · exact hx
          · first | exact hne | exact hne.symm
        · rw [h2 (by simpa using ho)]; exact hx
    | flush i p =>
      refine ih _ _ (hQf _ _ _ hc) ?_
      simp only [Op.apply, workedSince]
      by_cases h : (flush I w i p c.1).2.2 = none
      · unfold TimeOf; rw [(hf _ _ _ hc).1 h, if_pos h]; exact Or.inl ⟨rfl, rfl⟩
      · unfold TimeOf; rw [(hf _ _ _ hc).2 h, if_neg h]; exact hx

theorem stored_total {I : Impl C T G PF PM} (w : World) (Q : PS C T G PF PM → Prop)
    (hI : I.Local) (hQm : ∀ s m, Q s → Q (process I w s m).1) (hQf : ∀ s i p, Q s → Q (flush I w i p s).1)
    (hf : ∀ s i p, Q s → ((flush I w i p s).2.2 = none → (flush I w i p s).1.processTimings = []) ∧
      ((flush I w i p s).2.2 ≠ none → (flush I w i p s).1.processTimings = s.processTimings))
    (os : List Op) (c : PS C T G PF PM × List Datapoint) (x : ℚ) (hc : Q c.1) (hx : TotalOf c.1 x) :
    TotalOf (os.foldl (Op.apply I w) c).1 (workedSince I w (fun _ => True) c.1 x os) := by
  classical
  induction os generalizing c x with
  | nil => exact hx
  | cons o os ih =>
    rw [List.foldl_cons, workedSince_step (out := c.2)]
    cases o with
    | msg m =>
      refine ih _ _ (hQm _ _ hc) ?_
      simp only [Op.apply, workedSince]
      obtain ⟨h1, h2⟩ := process_timings hI w c.1 m
      by_cases ho : ∃ t', Handled I w c.1 t' m
      · obtain ⟨t', ht'⟩ := ho
        rw [if_pos ⟨t', trivial, ht'⟩]
        have he : numVal (Num.flt (rnd (elapsed w c.1 (process I w c.1 m).1))) = some (elapsed w c.1 (process I w c.1 m).1) := by
          rw [Exact.rnd_eq]; rfl
        unfold TotalOf
        rw [h1 t' ht']
        constructor
        · apply vals_put _ _ hx.1
          obtain ⟨y, hy⟩ := vals_find t' hx.1
          rw [numVal_add hy he]; rfl
        · exact timings_put t' he (.int 0) 0 (by simp [numVal]) hx.1 x hx.2
      · rw [if_neg (by rintro ⟨t', _, h⟩; exact ho ⟨t', h⟩)]
        unfold TotalOf
        rw [h2 (by simpa using ho)]; exact hx
    | flush i p =>
      refine ih _ _ (hQf _ _ _ hc) ?_
      simp only [Op.apply, workedSince]
      by_cases h : (flush I w i p c.1).2.2 = none
      · unfold TotalOf; rw [(hf _ _ _ hc).1 h, if_pos h]; exact ⟨by simp, by simp [numVal]⟩
      · unfold TotalOf; rw [(hf _ _ _ hc).2 h, if_neg h]; exact hx

omit [Exact] in
/-- The datapoint with the time of a type. -/
theorem summary_receive_time (I : Impl C T G PF PM) (ts : ℤ) (acc : List PerMetric) {s : PS C T G PF PM} (hs : Shared s)
    (t : Str) :
    named (I.internalPrefix ++ c!"receive." ++ t ++ c!".duration") (summaryPoints I ts acc s) =
      ((s.processTimings.find t).map fun d =>
        (⟨I.internalPrefix ++ c!"receive." ++ t ++ c!".duration", d.mul (.int 1000), ts⟩ : Datapoint)).toList := by
  unfold summaryPoints
  have h1 : named (I.internalPrefix ++ c!"receive." ++ t ++ c!".duration") (acc.flatMap (perMetricPoints I ts)) = [] := by
    apply named_nil_of
    intro d hd
    simp only [List.mem_flatMap, perMetricPoints, List.mem_cons, List.not_mem_nil, or_false] at hd
    obtain ⟨p, _, rfl | rfl⟩ := hd <;> simp
  have h0 : named (I.internalPrefix ++ c!"receive." ++ t ++ c!".duration") [numStatsPoint I acc ts] = [] := by
    simp [named, numStatsPoint]
  rw [named_cons, named_append, h1, h0, List.nil_append, List.nil_append]
  have hw := hs.processTimings
  have hblock : ∀ (p : Str × Num), named (I.internalPrefix ++ c!"receive." ++ t ++ c!".duration")
      (receivePoints I ts p.1 ((s.byType.find p.1).getD 0) p.2) =
      if p.1 = t then [⟨I.internalPrefix ++ c!"receive." ++ t ++ c!".duration", p.2.mul (.int 1000), ts⟩] else [] := by
    intro p
    have hd : ¬ (p.1 ++ c!".count" = t ++ c!".duration") := by
      intro h
      have hl := congrArg List.getLast? h
      simp at hl
    by_cases hp : p.1 = t
    · subst hp
      simp [named, receivePoints, List.filter_cons]
    · simp only [named, receivePoints, List.filter_cons, List.append_assoc, List.append_cancel_left_eq, hd,
        List.append_cancel_right_eq, hp, decide_false, Bool.false_eq_true, if_false, List.filter_nil]
  have hfm : ∀ l : Dict Num, Dict.Wf l → named (I.internalPrefix ++ c!"receive." ++ t ++ c!".duration")
      (l.flatMap fun p => receivePoints I ts p.1 ((s.byType.find p.1).getD 0) p.2) =
      ((l.find t).map fun d =>
        (⟨I.internalPrefix ++ c!"receive." ++ t ++ c!".duration", d.mul (.int 1000), ts⟩ : Datapoint)).toList := by
    intro l hl
    induction l with
    | nil => rfl
    | cons p ps ih =>
      have hl' := List.nodup_cons.1 hl
      rw [List.flatMap_cons, named_append, hblock, ih hl'.2]
      obtain ⟨k, v⟩ := p
      by_cases hp : k = t
      · subst hp
        have : Dict.find ps k = none := (Dict.find_eq_none _ _).2 hl'.1
        simp [Dict.find, this]
      · simp [Dict.find, hp]
  exact hfm _ hw

end

section
variable [Rounding] {C T G PF PM : Type}

/-- The clock readings of the phases. -/
theorem runPhases_tiles {I : Impl C T G PF PM} (hI : I.Timed) (w : World) (interval percent ts : ℤ) :
    ∀ (ks : List Nat) (acc : List PerMetric) (s : PS C T G PF PM) (acc' : List PerMetric),
      (runPhases I w interval percent ts ks acc s).2.2 = .ok acc' →
      ∃ ws, Tiles s.ticks ws (runPhases I w interval percent ts ks acc s).1.ticks ∧ ws.length = ks.length ∧
        (acc'.map fun (p : PerMetric) => (p.1, p.2.2)) = (acc.map fun (p : PerMetric) => (p.1, p.2.2)) ++
          List.zipWith (fun k (v : Nat × Nat) => (phaseName k, Num.flt (rnd (w.clk v.2 - w.clk v.1)))) ks ws := by
  intro ks
  induction ks with
  | nil =>
    intro acc s acc' h
    simp only [runPhases, Except.ok.injEq] at h
    subst h
    exact ⟨[], .nil _, rfl, by simp⟩
  | cons k ks ih =>
    intro acc s acc' h
    simp only [runPhases] at h ⊢
    have hc := runVisits_calm (phaseVisit_calm hI w interval percent ts k)
      (List.range (phaseLen I { s with ticks := s.ticks + 1 } k)) { s with ticks := s.ticks + 1 }
    generalize runVisits (phaseVisit I w interval percent ts k)
      (List.range (phaseLen I { s with ticks := s.ticks + 1 } k)) { s with ticks := s.ticks + 1 } = r at hc h ⊢
    obtain ⟨s1, gs, e⟩ := r
    simp only at hc h ⊢
    cases e with
    | some e => simp at h
    | none =>
      simp only at h ⊢
      obtain ⟨ws, h1, h2, h3⟩ := ih _ _ _ h
      refine ⟨(s.ticks, s1.ticks) :: ws, .cons ?_ h1, by simp [h2], ?_⟩
      · exact hc.ticks
      · rw [h3]; simp

/-- The phases end where the summary begins. -/
theorem flush_tiles {I : Impl C T G PF PM} (hI : I.Timed) (w : World) (interval percent : ℤ) {s : PS C T G PF PM} (hs : Shared s)
    (hok : (flush I w interval percent s).2.2 = none) :
    ∃ (ws : List (Nat × Nat)) (acc : List PerMetric) (pre : List Datapoint), Tiles (s.ticks + 1) ws (flush I w interval percent s).1.ticks ∧
      ws.length = 5 ∧
      (acc.map fun (p : PerMetric) => (p.1, p.2.2)) =
        List.zipWith (fun k (v : Nat × Nat) => (k, Num.flt (rnd (w.clk v.2 - w.clk v.1)))) flushKinds ws ∧
      (flush I w interval percent s).2.1 = pre ++ summaryPoints I (truncQ (w.clk s.ticks)) acc s ∧
      (flush I w interval percent s).1.lastFlush = acc.foldl (fun (a : Num) (p : PerMetric) => a.add p.2.2) (.int 0) ∧
      (flush I w interval percent s).1.lastProcess = s.processTimings.foldl (fun (a : Num) p => a.add p.2) (.int 0) := by
  unfold flush at hok ⊢
  simp only at hok ⊢
  have hph := runPhases_tiles hI w (Int.fdiv interval 1000) percent (truncQ (w.clk s.ticks)) [0, 1, 2, 3, 4] []
    { s with ticks := s.ticks + 1 }
  have hcalm : Calm { s with ticks := s.ticks + 1 } (runPhases I w (Int.fdiv interval 1000) percent (truncQ (w.clk s.ticks)) [0, 1, 2, 3, 4] []
    { s with ticks := s.ticks + 1 }).1 := runPhases_calm hI w (Int.fdiv interval 1000) percent (truncQ (w.clk s.ticks)) [0, 1, 2, 3, 4] [] _
  generalize runPhases I w (Int.fdiv interval 1000) percent (truncQ (w.clk s.ticks)) [0, 1, 2, 3, 4] []
    { s with ticks := s.ticks + 1 } = r at hph hcalm hok ⊢
  obtain ⟨s1, ps, e | acc⟩ := r
  · simp at hok
  · simp only at hph hok hcalm ⊢
    obtain ⟨ws, t1, t2, t3⟩ := hph acc rfl
    have hr := runReceive_ok I (truncQ (w.clk s.ticks)) s1.byType s1.processTimings (.int 0)
      (by rw [hcalm.processTimings, hcalm.byType, hs.recv]; exact fun k hk => hk)
    unfold runSummary
    simp only [hr]
    refine ⟨ws, acc, ps, t1, t2, ?_, ?_, rfl, ?_⟩
    · rw [t3]
      rcases ws with _ | ⟨a, _ | ⟨b, _ | ⟨c, _ | ⟨d, _ | ⟨e, _ | ⟨f, ws⟩⟩⟩⟩⟩⟩ <;> simp at t2
      rfl
    · simp only [summaryPoints, hcalm.processTimings, hcalm.byType, List.append_assoc, List.cons_append]
    · simp only [hcalm.processTimings]

/-- What a flush does to the receive statistics. -/
theorem flush_recv {I : Impl C T G PF PM} (hI : I.Timed) (w : World) (interval percent : ℤ) {s : PS C T G PF PM} (hs : Shared s) :
    ((flush I w interval percent s).2.2 = none →
      (flush I w interval percent s).1.processTimings = [] ∧ (flush I w interval percent s).1.byType = []) ∧
    ((flush I w interval percent s).2.2 ≠ none → (flush I w interval percent s).1.processTimings = s.processTimings ∧
      (flush I w interval percent s).1.byType = s.byType) := by
  unfold flush
  simp only
  have hcalm : Calm { s with ticks := s.ticks + 1 } (runPhases I w (Int.fdiv interval 1000) percent (truncQ (w.clk s.ticks)) [0, 1, 2, 3, 4] []
    { s with ticks := s.ticks + 1 }).1 := runPhases_calm hI w (Int.fdiv interval 1000) percent (truncQ (w.clk s.ticks)) [0, 1, 2, 3, 4] [] _
  generalize runPhases I w (Int.fdiv interval 1000) percent (truncQ (w.clk s.ticks)) [0, 1, 2, 3, 4] []
    { s with ticks := s.ticks + 1 } = r at hcalm ⊢
  obtain ⟨s1, ps, e | acc⟩ := r
  · simp only at hcalm ⊢
    exact ⟨fun h => by simp at h, fun _ => ⟨hcalm.processTimings, hcalm.byType⟩⟩
  · simp only at hcalm ⊢
    have hr := runReceive_ok I (truncQ (w.clk s.ticks)) s1.byType s1.processTimings (.int 0)
      (by rw [hcalm.processTimings, hcalm.byType, hs.recv]; exact fun k hk => hk)
    unfold runSummary
    simp only [hr]
    simp

theorem summary_durations (I : Impl C T G PF PM) (ts : ℤ) {acc : List PerMetric} (s : PS C T G PF PM)
    {n0 n1 n2 n3 n4 : Num}
    (h : (acc.map fun (p : PerMetric) => (p.1, p.2.2)) =
      [(c!"counter", n0), (c!"timer", n1), (c!"gauge", n2), (c!"meter", n3), (c!"plugin", n4)]) :
    ∀ p ∈ [(c!"counter", n0), (c!"timer", n1), (c!"gauge", n2), (c!"meter", n3), (c!"plugin", n4)],
    named (I.internalPrefix ++ c!"flush." ++ p.1 ++ c!".duration") (summaryPoints I ts acc s) =
      [⟨I.internalPrefix ++ c!"flush." ++ p.1 ++ c!".duration", p.2.mul (.int 1000), ts⟩] := by
  obtain ⟨d0, d1, d2, d3, d4, rfl⟩ : ∃ d0 d1 d2 d3 d4, acc =
      [(c!"counter", d0, n0), (c!"timer", d1, n1), (c!"gauge", d2, n2), (c!"meter", d3, n3), (c!"plugin", d4, n4)] := by
    rcases acc with _ | ⟨a, _ | ⟨b, _ | ⟨c, _ | ⟨d, _ | ⟨e, _ | ⟨f, acc⟩⟩⟩⟩⟩⟩ <;> simp at h
    obtain ⟨⟨h1, h2⟩, ⟨h3, h4⟩, ⟨h5, h6⟩, ⟨h7, h8⟩, ⟨h9, h10⟩⟩ := h
    refine ⟨a.2.1, b.2.1, c.2.1, d.2.1, e.2.1, ?_⟩
    rw [← h1, ← h2, ← h3, ← h4, ← h5, ← h6, ← h7, ← h8, ← h9, ← h10]
  intro p hp
  have hpn : p.1 ∈ [c!"counter", c!"timer", c!"gauge", c!"meter", c!"plugin"] := by
    simp only [List.mem_cons, List.not_mem_nil, or_false] at hp ⊢
    rcases hp with rfl | rfl | rfl | rfl | rfl <;> simp
  have h2 := named_prefix_nil (n := I.internalPrefix ++ c!"flush." ++ p.1 ++ c!".duration") (recv_name I ts s)
    (by simp [List.prefix_append_right_inj, List.cons_prefix_cons])
  unfold summaryPoints
  rw [named_cons, named_append, h2]
  simp only [List.mem_cons, List.not_mem_nil, or_false] at hp
  rcases hp with rfl | rfl | rfl | rfl | rfl <;>
    simp [named, numStatsPoint, perMetricPoints, List.filter_cons]

end
end Txstatsd
