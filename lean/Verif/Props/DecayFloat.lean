import Verif.Lemmas.DecayFloat
import Verif.Lemmas.DecayOrder
import Verif.Lemmas.Ieee

/-!
# C133: decaying samples in doubles
-/

namespace Txstatsd
open Spec

section
variable [Rounding] [Ieee] [FloatExp] [ExpLaws]

/-- C133: a decaying sample never raises, whatever the times of the values, as long as the clock stays within 30000 years of the
epoch and `random()` does not return 0. -/
theorem C133_never_raises (n : Nat) (hn : 1 ≤ n) (al : ℚ) (h0 : 0 ≤ al) (h1 : al ≤ 1) (t1 t2 : ℚ)
    (hi : SensibleOp (.clear t1 t2)) (ops : List FDecayOp) (ho : Sensible ops) (v : PyFloat) (t d : ℚ)
    (hs : SensibleOp (.update v t d)) :
    (((DecaySample.init n (.fin al) t1 t2).runOps ops).update v t d).2 = none :=
  (keeps_update hn h0 h1 (keeps_run hn h0 h1 ops ho (keeps_init n (.fin al) hi)) hs.1 hs.2 v).1

/-- C133: a sample with no room at all raises an IndexError with every value, and holds none. -/
theorem C133_no_room (al : ℚ) (h0 : 0 ≤ al) (h1 : al ≤ 1) (t1 t2 : ℚ)
    (hi : SensibleOp (.clear t1 t2)) (ops : List FDecayOp) (ho : Sensible ops) (v : PyFloat) (t d : ℚ)
    (hs : SensibleOp (.update v t d)) :
    let s := (DecaySample.init 0 (.fin al) t1 t2).runOps ops
    (s.update v t d).2 = some .indexError ∧ s.getValues = [] ∧ s.size = 0 := by
  intro s
  obtain ⟨a, h⟩ := noroom_run h0 h1 ops ho (keeps_init 0 (.fin al) hi)
  have e : s.reservoirSize = 0 := h.size
  refine ⟨(noroom_update h0 h1 h hs.1 hs.2 v).1, ?_, by unfold DecaySample.size; omega⟩
  have hv : s.values = [] := List.length_eq_zero_iff.1 (by have := h.length; change s.values.length = _ at this; omega)
  unfold DecaySample.getValues
  rw [hv]; rfl

/-- C133: it holds as many values as fit, each as often as it was added at most, and those of the highest priorities, where the
priority of a value is the one it got when added, multiplied (in doubles) whenever the landmark moved. It lists them in the order of
the priorities. -/
theorem C133_top (n : Nat) (hn : 1 ≤ n) (al : ℚ) (h0 : 0 ≤ al) (h1 : al ≤ 1) (t1 t2 : ℚ)
    (hi : SensibleOp (.clear t1 t2)) (ops : List FDecayOp) (ho : Sensible ops) :
    let s := (DecaySample.init n (.fin al) t1 t2).runOps ops
    ∃ held dropped : List (ℚ × PyFloat),
      ((held ++ dropped).map fun p => (PyFloat.fin p.1, p.2)).Perm (aged (.fin al) t1 t2 ops) ∧
      (∀ a ∈ dropped, ∀ b ∈ held, a.1 ≤ b.1) ∧ (held.map Prod.fst).Pairwise (· ≤ ·) ∧
      s.getValues = held.map Prod.snd ∧ s.size = held.length ∧
      held.length = min n (decayValues ops).length ∧ ((held ++ dropped).map Prod.snd).Perm (decayValues ops) := by
  intro s
  have h := keeps_run hn h0 h1 ops ho (keeps_init n (.fin al) hi)
  obtain ⟨dr, d1, d2⟩ := h.top
  have hval := aged_values (.fin al) { start := .fin t1, next := (PyFloat.fin t2).add (.fin 600), entries := [] } ops
  change (aged (.fin al) t1 t2 ops).map Prod.snd = decayValues ops at hval
  change (s.values ++ dr).Perm (aged (.fin al) t1 t2 ops) at d1
  have back : ∀ l : List (PyFloat × PyFloat), (∀ p ∈ l, p ∈ s.values ++ dr) →
      (l.map fun p => (prio p, p.2)).map (fun p : ℚ × PyFloat => (PyFloat.fin p.1, p.2)) = l := by
    intro l hl
    rw [List.map_map]
    conv_rhs => rw [← List.map_id l]
    refine List.map_congr_left fun p hp => ?_
    obtain ⟨q, e, _⟩ := h.fin p (d1.subset (hl p hp))
    obtain ⟨p1, p2⟩ := p
    simp only at e
    subst e
    rfl
  refine ⟨s.values.map fun p => (prio p, p.2), dr.map fun p => (prio p, p.2), ?_, ?_, ?_, ?_, ?_, ?_, ?_⟩
  · rw [List.map_append, back _ (by intro p hp; simp [hp]), back _ (by intro p hp; simp [hp])]
    exact d1
  · intro a ha b hb
    obtain ⟨a', ha', rfl⟩ := List.mem_map.1 ha
    obtain ⟨b', hb', rfl⟩ := List.mem_map.1 hb
    exact d2 a' ha' b' hb'
  · rw [List.map_map, List.pairwise_map]
    exact h.sorted
  · rw [List.map_map]; rfl
  · rw [List.length_map]
    unfold DecaySample.size
    have e1 : s.count = s.values.length := h.count
    have e2 : s.reservoirSize = n := h.size
    have e3 : s.values.length = min n _ := h.length
    rw [e1, e2]; omega
  · rw [List.length_map, ← hval, List.length_map]
    exact h.length
  · rw [List.map_append, List.map_map, List.map_map]
    have := d1.map Prod.snd
    rw [List.map_append, hval] at this
    exact this

/-- C133: the values are listed in the order of their priorities, and values of equal priorities in their own order, unless there
are NaNs among them. -/
theorem C133_ties (n : Nat) (hn : 1 ≤ n) (al : ℚ) (h0 : 0 ≤ al) (h1 : al ≤ 1) (t1 t2 : ℚ)
    (hi : SensibleOp (.clear t1 t2)) (ops : List FDecayOp) (ho : Sensible ops) (hnan : ∀ v t d, FDecayOp.update v t d ∈ ops → v ≠ .nan) :
    let s := (DecaySample.init n (.fin al) t1 t2).runOps ops
    ∃ held : List (ℚ × PyFloat), (∀ p ∈ held, (PyFloat.fin p.1, p.2) ∈ aged (.fin al) t1 t2 ops) ∧ s.getValues = held.map Prod.snd ∧
      held.Pairwise fun a b => a.1 < b.1 ∨ a.1 = b.1 ∧ a.2.le b.2 = true := by
  intro s
  have h := keeps_run hn h0 h1 ops ho (keeps_init n (.fin al) hi)
  have hor : Ordered s.values := ordered_run hn h0 h1 ops ho hnan (keeps_init n (.fin al) hi)
    ⟨by simp [DecaySample.init, DecaySample.clear], by simp [DecaySample.init, DecaySample.clear]⟩
  obtain ⟨dr, d1, d2⟩ := h.top
  refine ⟨s.values.map fun p => (prio p, p.2), ?_, ?_, ?_⟩
  · intro p hp
    obtain ⟨q, hq, rfl⟩ := List.mem_map.1 hp
    have hm := d1.subset (List.mem_append_left dr hq)
    obtain ⟨r, e, _⟩ := h.fin q hm
    obtain ⟨q1, q2⟩ := q
    simp only at e
    subst e
    exact hm
  · rw [List.map_map]; rfl
  · rw [List.pairwise_map]
    exact hor.2

/-- C133: moving the landmark keeps the values. It keeps their order as well if it tells the priorities apart: if no two different
ones become equal. -/
theorem C133_move_partial (n : Nat) (hn : 1 ≤ n) (al : ℚ) (h0 : 0 ≤ al) (h1 : al ≤ 1) (t1 t2 : ℚ)
    (hi : SensibleOp (.clear t1 t2)) (ops : List FDecayOp) (ho : Sensible ops) (now : ℚ) (hc : ClockTime now) :
    let s := (DecaySample.init n (.fin al) t1 t2).runOps ops
    s.nextScaleTime.le (.fin now) = true →
    ((s.rescale now).1.getValues).Perm s.getValues ∧ (s.rescale now).2 = none ∧
      ((s.values.map fun p => p.1.mul (expOr (s.alpha.neg.mul ((PyFloat.fin now).sub s.startTime)))).Nodup →
        (s.rescale now).1.getValues = s.getValues) := by
  intro s hle
  have h := keeps_run hn h0 h1 ops ho (keeps_init n (.fin al) hi)
  change Keeps n (.fin al) s _ at h
  have hn' := hle
  rw [h.next] at hn'
  obtain ⟨f, hf, f0, f1⟩ := move_exp h0 h1 h.times hc hn'
  obtain ⟨dr, d1, d2⟩ := h.top
  have hv : ∀ y ∈ s.values, FinitePrio y := fun y hy => h.fin y (d1.subset (by simp [hy]))
  obtain ⟨vs, e1, e2, e3⟩ := rescaleLoop_ok hf f0 f1 s.values [] hv (by simp) (by simp)
  rw [List.append_nil] at e3
  have he : s.rescale now = ({ s with nextScaleTime := (PyFloat.fin now).add (.fin 600), startTime := .fin now, values := vs }, none) := by
    unfold DecaySample.rescale
    rw [h.alpha, h.start, e1]
  rw [he]
  refine ⟨?_, rfl, ?_⟩
  · have := e3.map Prod.snd
    rw [List.map_map] at this
    exact this
  · intro hnd
    have hx : expOr (s.alpha.neg.mul ((PyFloat.fin now).sub s.startTime)) = .fin f := by
      unfold expOr; rw [h.alpha, h.start, hf]
    rw [hx] at hnd
    have hsort : (s.values.map fun p => (p.1.mul (.fin f), p.2)).Pairwise fun y z => prio y ≤ prio z := by
      rw [List.pairwise_map]
      have : s.values.Pairwise fun y z => (FinitePrio y ∧ FinitePrio z) ∧ prio y ≤ prio z :=
        List.Pairwise.and (List.pairwise_iff_forall_sublist.2 fun {y z} hs =>
          ⟨hv y (hs.subset (by simp)), hv z (hs.subset (by simp))⟩) h.sorted
      exact this.imp fun hyz => scale_mono f0 f1 hyz.1.1 hyz.1.2 hyz.2
    have heq : vs = s.values.map fun p => (p.1.mul (.fin f), p.2) := by
      refine List.Perm.eq_of_pairwise (le := fun y z => prio y ≤ prio z) ?_ e2 hsort e3
      intro y z hy hz hyz hzy
      obtain ⟨y', hy', rfl⟩ := List.mem_map.1 (e3.subset hy)
      obtain ⟨z', hz', rfl⟩ := List.mem_map.1 hz
      obtain ⟨q1, k1, _⟩ := scale_finite f0 f1 (hv y' hy')
      obtain ⟨q2, k2, _⟩ := scale_finite f0 f1 (hv z' hz')
      have heq : q1 = q2 := by
        have := le_antisymm hyz hzy
        unfold prio at this
        rw [k1, k2] at this
        exact this
      have : y' = z' := List.inj_on_of_nodup_map hnd hy' hz' (by
        show (y'.1.mul (.fin f), y'.2).1 = (z'.1.mul (.fin f), z'.2).1
        rw [k1, k2, heq])
      rw [this]
    show vs.map Prod.snd = _
    rw [heq, List.map_map]
    rfl

end

section
attribute [local instance] binary64

/-- An exponential function that satisfies the laws (a staircase; the real one does as well). -/
@[reducible] def stairExp : FloatExp := ⟨fun
  | .nan => .ok .nan
  | .inf true => .ok (.fin 0)
  | .inf false => .ok (.inf false)
  | .fin x => if x ≤ -746 then .ok (.fin 0) else if x ≤ 0 then .ok (.fin 1) else if x ≤ 602 then .ok (.fin 2) else .error .overflowError⟩

theorem stairExp_laws : @ExpLaws stairExp := by
  letI := stairExp
  refine ⟨?_, ?_, ?_, ?_, ?_⟩
  · intro x hx
    show ∃ q, (if x ≤ -746 then _ else if x ≤ 0 then _ else if x ≤ 602 then _ else _) = _ ∧ _
    have hp : (2 : ℚ) ≤ 2 ^ (900 : ℤ) := by simpa using zpow_mono (a := 1) (b := 900) (by norm_num)
    split_ifs
    · exact ⟨0, rfl, le_rfl, (show (0 : ℚ) ≤ 2 by norm_num).trans hp⟩
    · exact ⟨1, rfl, by norm_num, (show (1 : ℚ) ≤ 2 by norm_num).trans hp⟩
    · exact ⟨2, rfl, by norm_num, hp⟩
  · intro x hx
    show ∃ q, (if x ≤ -746 then _ else if x ≤ 0 then _ else if x ≤ 602 then _ else _) = _ ∧ _
    split_ifs
    · exact ⟨0, rfl, le_rfl, by norm_num⟩
    · exact ⟨1, rfl, by norm_num, le_rfl⟩
  · show (if (0 : ℚ) ≤ -746 then _ else if (0 : ℚ) ≤ 0 then _ else _) = _
    norm_num
  · intro x hx
    show (if x ≤ -746 then _ else _) = _
    rw [if_pos hx]
  · rfl

/-- The calls of the refutation: two values at time 0, the second with the higher priority, and one a day later. -/
def underflowOps : List FDecayOp := [.update (.fin 5) 0 (1 / 2), .update (.fin 3) 0 (1 / 4), .update (.fin 7) 100000 (1 / 2)]

theorem clockTime_int {z : ℤ} (h : |z| ≤ 2 ^ 40) : @ClockTime binary64 (z : ℚ) := by
  letI := binary64
  haveI := binary64_ieee
  refine ⟨rnd_int (h.trans (by norm_num)), ?_⟩
  exact_mod_cast h

theorem underflow_sensible : @Sensible binary64 underflowOps := by
  letI := binary64
  have c0 : ClockTime 0 := by simpa using clockTime_int (z := 0) (by norm_num)
  have c1 : ClockTime 100000 := by simpa using clockTime_int (z := 100000) (by norm_num)
  intro o ho
  simp only [underflowOps, List.mem_cons, List.not_mem_nil, or_false] at ho
  rcases ho with rfl | rfl | rfl
  · exact ⟨c0, 2 ^ 52, by norm_num, by norm_num, by norm_num⟩
  · exact ⟨c0, 2 ^ 51, by norm_num, by norm_num, by norm_num⟩
  · exact ⟨c1, 2 ^ 52, by norm_num, by norm_num, by norm_num⟩

theorem start_sensible : @SensibleOp binary64 (.clear 0 0) := by
  letI := binary64
  have c0 : ClockTime 0 := by simpa using clockTime_int (z := 0) (by norm_num)
  exact ⟨c0, c0, le_rfl, by norm_num⟩

/-- The `alpha` of a histogram, 0.015. -/
example : binary64.rnd (15 / 1000) = .fin (1080863910568919 / 72057594037927936) := by decide +kernel

/-- C133, refuted: with whatever exponential function, values added at the same time do not leave the sample in the order of their
priorities: after a gap of 14 hours all old priorities are 0, and the least value leaves first. -/
theorem C133_order_refuted [FloatExp] [ExpLaws] : ¬ ∀ (ops : List FDecayOp), Sensible ops → ∀ v w t d e,
    .update v t d ∈ ops → .update w t e ∈ ops → e < d →
    let held := ((DecaySample.init 2 (rnd (15 / 1000)) 0 0).runOps ops).getValues
    v ∈ held → w ∈ held := by
  intro h
  have h2 := h underflowOps underflow_sensible (.fin 5) (.fin 3) 0 (1 / 2) (1 / 4) (by simp [underflowOps]) (by simp [underflowOps])
    (by norm_num)
  have ha : rnd (15 / 1000) = .fin (1080863910568919 / 72057594037927936) := by decide +kernel
  have m0 : (PyFloat.fin (1080863910568919 / 72057594037927936)).mul ((PyFloat.fin 0).sub (.fin 0)) = .fin 0 := by decide +kernel
  have m1 : ∃ q, (PyFloat.fin (1080863910568919 / 72057594037927936)).neg.mul ((PyFloat.fin 100000).sub (.fin 0)) = .fin q ∧ q ≤ -746 := by
    refine ⟨-1500, by decide +kernel, by norm_num⟩
  have m2 : (PyFloat.fin (1080863910568919 / 72057594037927936)).mul ((PyFloat.fin 100000).sub (.fin 100000)) = .fin 0 := by decide +kernel
  obtain ⟨q, m1, hq⟩ := m1
  have q1 : (PyFloat.fin 1).div (.fin (1 / 2)) = .ok (.fin 2) := by decide +kernel
  have q2 : (PyFloat.fin 1).div (.fin (1 / 4)) = .ok (.fin 4) := by decide +kernel
  have n1 : (PyFloat.fin 0).add (.fin 600) = .fin 600 := by decide +kernel
  have n2 : (PyFloat.fin 100000).add (.fin 600) = .fin 100600 := by decide +kernel
  have z1 : (PyFloat.fin 2).mul (.fin 0) = .fin 0 := by decide +kernel
  have z2 : (PyFloat.fin 4).mul (.fin 0) = .fin 0 := by decide +kernel
  have i1 : insort DecaySample.entryLt [] (.fin 2, .fin 5) = [(.fin 2, .fin 5)] := by decide +kernel
  have i2 : insort DecaySample.entryLt [(.fin 2, .fin 5)] (.fin 4, .fin 3) = [(.fin 2, .fin 5), (.fin 4, .fin 3)] := by decide +kernel
  have i3 : insort DecaySample.entryLt [] (.fin 0, .fin 5) = [(.fin 0, .fin 5)] := by decide +kernel
  have i4 : insort DecaySample.entryLt [(.fin 0, .fin 5)] (.fin 0, .fin 3) = [(.fin 0, .fin 3), (.fin 0, .fin 5)] := by decide +kernel
  have i5 : insort DecaySample.entryLt [(.fin 0, .fin 3), (.fin 0, .fin 5)] (.fin 2, .fin 7) =
      [(.fin 0, .fin 3), (.fin 0, .fin 5), (.fin 2, .fin 7)] := by decide +kernel
  let st (vs : List (PyFloat × PyFloat)) (c : Nat) (a b : PyFloat) : DecaySample := ⟨.fin (1080863910568919 / 72057594037927936), 2, vs, c, a, b⟩
  have s0 : DecaySample.init 2 (rnd (15 / 1000)) 0 0 = st ([]) 0 (.fin 0) (.fin 600) := by
    unfold DecaySample.init DecaySample.clear
    rw [ha, n1]
  have l1 : (PyFloat.fin 600).le (.fin 0) = false := by decide +kernel
  have l2 : (PyFloat.fin 600).le (.fin 100000) = true := by decide +kernel
  have l3 : (PyFloat.fin 0).lt (.fin 2) = true := by decide +kernel
  have e0 : ∀ a : PyFloat, a = .fin 0 → FloatExp.exp a = .ok (.fin 1) := by rintro _ rfl; exact ExpLaws.zero
  have s1 : (st [] 0 (.fin 0) (.fin 600)).runOps underflowOps =
      st ([(.fin 0, .fin 5), (.fin 2, .fin 7)]) 2 (.fin 100000) (.fin 100600) := by
    unfold DecaySample.runOps underflowOps
    simp only [List.foldl_cons, List.foldl_nil]
    have u1 : ((st [] 0 (.fin 0) (.fin 600)).update (.fin 5) 0 (1 / 2)).1 =
        st ([(.fin 2, .fin 5)]) 1 (.fin 0) (.fin 600) := by
      unfold DecaySample.update DecaySample.insert
      simp only [st, l1, e0 _ m0, q1, i1]
      rfl
    have u2 : ((st [(.fin 2, .fin 5)] 1 (.fin 0) (.fin 600)).update (.fin 3) 0 (1 / 4)).1 =
        st ([(.fin 2, .fin 5), (.fin 4, .fin 3)]) 2 (.fin 0) (.fin 600) := by
      unfold DecaySample.update DecaySample.insert
      simp only [st, l1, e0 _ m0, q2, i2]
      rfl
    rw [u1, u2]
    unfold DecaySample.update DecaySample.rescale
    simp only [st, l2, m1, DecaySample.rescaleLoop, ExpLaws.tiny q hq, z1, z2, i3, i4, n2, if_true]
    unfold DecaySample.insert
    simp only [e0 _ m2, q1, i5, l3, if_true, List.tail_cons, lt_irrefl, if_false]
  rw [s0, s1] at h2
  have h3 : PyFloat.fin 3 ∈ [PyFloat.fin 5, PyFloat.fin 7] := h2 (List.mem_cons_self ..)
  revert h3
  decide +kernel

end
end Txstatsd
