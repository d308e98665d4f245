import Verif.Spec.Decay
import Verif.Lemmas.Bisect
import Mathlib.Data.Prod.Lex
import Mathlib.Tactic.Ring
import Mathlib.Tactic.Linarith
import Mathlib.Tactic.FieldSimp

set_option linter.unusedSectionVars false
set_option linter.unusedSimpArgs false
set_option linter.unusedVariables false

namespace Txstatsd
namespace ExpDecay
variable {K V : Type} [Field K] [LinearOrder K] [IsStrictOrderedRing K] [LinearOrder V]

theorem entryLt_eq (a b : K × V) : entryLt a b = decide (toLex a < toLex b) := by
  unfold entryLt
  congr 1
  rw [Prod.Lex.toLex_lt_toLex]

/-- Multiply every priority. -/
def scale (c : K) (l : List (K × V)) : List (K × V) := l.map fun p => (p.1 * c, p.2)

theorem entryLt_scale {c : K} (hc : 0 < c) (a b : K × V) : entryLt (a.1 * c, a.2) (b.1 * c, b.2) = entryLt a b := by
  unfold entryLt
  congr 1
  simp only [mul_lt_mul_iff_left₀ hc, mul_left_inj' hc.ne']

theorem bisectRightLoop_scale {c : K} (hc : 0 < c) (a : List (K × V)) (x : K × V) (lo hi : Nat) :
    bisectRightLoop entryLt (scale c a) (x.1 * c, x.2) lo hi = bisectRightLoop entryLt a x lo hi := by
  induction lo, hi using bisectRightLoop.induct entryLt a x with
  | case1 lo hi h mid hn =>
    rw [bisectRightLoop, bisectRightLoop]
    simp only [h, dif_pos]
    rw [show (lo + hi) / 2 = mid from rfl, hn]
    simp [scale, hn]
  | case2 lo hi h mid y hy hlt ih =>
    rw [bisectRightLoop]
    conv_rhs => rw [bisectRightLoop]
    simp only [h, dif_pos]
    rw [show (lo + hi) / 2 = mid from rfl, hy]
    have : (scale c a)[mid]? = some (y.1 * c, y.2) := by simp [scale, hy]
    simp only [this, entryLt_scale hc, hlt, if_true]
    exact ih
  | case3 lo hi h mid y hy hlt ih =>
    rw [bisectRightLoop]
    conv_rhs => rw [bisectRightLoop]
    simp only [h, dif_pos]
    rw [show (lo + hi) / 2 = mid from rfl, hy]
    have : (scale c a)[mid]? = some (y.1 * c, y.2) := by simp [scale, hy]
    have hlt' : entryLt x y = false := by simpa using hlt
    simp only [this, entryLt_scale hc, hlt', Bool.false_eq_true, if_false]
    exact ih
  | case4 lo hi h =>
    rw [bisectRightLoop, bisectRightLoop]
    simp only [h, dif_neg, not_false_eq_true]

theorem map_insertIdx {α β : Type} (f : α → β) (l : List α) (n : Nat) (x : α) :
    (l.insertIdx n x).map f = (l.map f).insertIdx n (f x) := by
  induction l generalizing n with
  | nil => cases n <;> rfl
  | cons a l ih => cases n with
    | zero => rfl
    | succ n => simp [List.insertIdx_succ_cons, ih]

theorem insort_scale {c : K} (hc : 0 < c) (a : List (K × V)) (x : K × V) :
    insort entryLt (scale c a) (x.1 * c, x.2) = scale c (insort entryLt a x) := by
  unfold insort
  have : bisectRight entryLt (scale c a) (x.1 * c, x.2) = bisectRight entryLt a x := by
    unfold bisectRight
    rw [show (scale c a).length = a.length by simp [scale], bisectRightLoop_scale hc]
  rw [this]
  unfold scale
  rw [map_insertIdx]

theorem insort_last (a : List (K × V)) (x : K × V) (ha : NoDescent entryLt (a ++ [x])) :
    insort entryLt a x = a ++ [x] := by
  have h1 : NoDescent entryLt a := (List.pairwise_append.1 ha).1
  obtain ⟨l, r, e, hi, _, hr, _⟩ := insort_spec (fun p : K × V => toLex p) entryLt entryLt_eq a x h1
  have : r = [] := by
    rcases r with _ | ⟨y, ys⟩
    · rfl
    · exfalso
      have hlt := hr y (by simp)
      have hle := (List.pairwise_append.1 ha).2.2 y (by rw [e]; simp) x (by simp)
      rw [entryLt_eq, decide_eq_false_iff_not] at hle
      exact hle hlt
  subst this
  rw [hi, e]; simp

theorem noDescent_scale {c : K} (hc : 0 < c) {a : List (K × V)} (h : NoDescent entryLt a) : NoDescent entryLt (scale c a) := by
  unfold NoDescent scale at *
  rw [List.pairwise_map]
  exact h.imp fun {a b} hab => by rw [entryLt_scale hc]; exact hab

theorem rescaleLoop_eq {c : K} (hc : 0 < c) (l acc : List (K × V)) (h : NoDescent entryLt (acc ++ l)) :
    rescaleLoop c l (scale c acc) = scale c (acc ++ l) := by
  induction l generalizing acc with
  | nil => simp [rescaleLoop]
  | cons p l ih =>
    obtain ⟨k, v⟩ := p
    unfold rescaleLoop
    rw [insort_scale hc acc (k, v), insort_last]
    · rw [ih (acc ++ [(k, v)]) (by simpa using h)]; simp
    · exact h.sublist (by simp)

theorem rescale_values (E : ExpFn K) (s : ExpDecay K V) (now : K) (h : NoDescent entryLt s.values) :
    (s.rescale E now).values = scale (E.exp (-s.alpha * (now - s.startTime))) s.values := by
  unfold rescale
  exact rescaleLoop_eq (E.pos _) s.values [] (by simpa using h)

/-- One step of the reservoir of weights, which knows no landmark. -/
def ideal (n : Nat) (A : List (K × V)) (p : K × V) : List (K × V) :=
  if A.length < n then insort entryLt A p
  else match A with
    | [] => []
    | f :: _ => if f.1 < p.1 then (insort entryLt A p).tail else A

theorem insort_ne_nil (A : List (K × V)) (p : K × V) (h : NoDescent entryLt A) : insort entryLt A p ≠ [] := by
  obtain ⟨l, r, e, hi, _⟩ := insort_spec (fun p : K × V => toLex p) entryLt entryLt_eq A p h
  rw [hi]; simp

theorem length_insort (A : List (K × V)) (p : K × V) (h : NoDescent entryLt A) :
    (insort entryLt A p).length = A.length + 1 := by
  obtain ⟨l, r, e, hi, _⟩ := insort_spec (fun p : K × V => toLex p) entryLt entryLt_eq A p h
  rw [hi, e]; simp; omega

theorem noDescent_insort (A : List (K × V)) (p : K × V) (h : NoDescent entryLt A) : NoDescent entryLt (insort entryLt A p) := by
  obtain ⟨l, r, e, hi, _, _, h3⟩ := insort_spec (fun p : K × V => toLex p) entryLt entryLt_eq A p h
  exact h3

theorem perm_insort (A : List (K × V)) (p : K × V) (h : NoDescent entryLt A) : (insort entryLt A p).Perm (p :: A) := by
  obtain ⟨l, r, e, hi, _⟩ := insort_spec (fun p : K × V => toLex p) entryLt entryLt_eq A p h
  rw [hi, e]; exact List.perm_middle

theorem noDescent_ideal (n : Nat) (A : List (K × V)) (p : K × V) (h : NoDescent entryLt A) : NoDescent entryLt (ideal n A p) := by
  unfold ideal
  split_ifs with h1
  · exact noDescent_insort A p h
  · cases A with
    | nil => exact h
    | cons f A =>
      simp only
      split_ifs
      · exact (noDescent_insort _ p h).tail
      · exact h

theorem length_ideal (n : Nat) (A : List (K × V)) (p : K × V) (h : NoDescent entryLt A) (hl : A.length ≤ n) :
    (ideal n A p).length = min n (A.length + 1) := by
  unfold ideal
  split_ifs with h1
  · rw [length_insort A p h]; omega
  · cases A with
    | nil => simp at h1 hl ⊢; omega
    | cons f A =>
      simp only
      split_ifs
      · rw [List.length_tail, length_insort _ p h]; simp at h1 hl ⊢; omega
      · simp at h1 hl ⊢; omega

/-- Priorities are weights relative to the landmark. -/
structure Tracks (E : ExpFn K) (s : ExpDecay K V) (A : List (K × V)) : Prop where
  vals : s.values = scale (E.exp (-s.alpha * s.startTime)) A
  cnt : s.count = A.length
  le : A.length ≤ s.reservoirSize
  sorted : NoDescent entryLt A

theorem Tracks.rescale {E : ExpFn K} {s : ExpDecay K V} {A} (h : Tracks E s A) (now : K) : Tracks E (s.rescale E now) A := by
  refine ⟨?_, h.cnt, h.le, h.sorted⟩
  rw [rescale_values E s now (by rw [h.vals]; exact noDescent_scale (E.pos _) h.sorted), h.vals]
  unfold scale ExpDecay.rescale
  simp only [List.map_map]
  apply List.map_congr_left
  rintro ⟨w, v⟩ _
  simp only [Function.comp, Prod.mk.injEq, and_true]
  rw [mul_assoc, ← E.add]
  congr 2; ring

theorem Tracks.update {E : ExpFn K} {s : ExpDecay K V} {A} (h : Tracks E s A) (v : V) (t d : K) (hd : 0 ≤ d) :
    (s.update E v t d).1.alpha = s.alpha ∧ (s.update E v t d).1.reservoirSize = s.reservoirSize ∧
    Tracks E (s.update E v t d).1 (if d = 0 then A else ideal s.reservoirSize A (E.exp (s.alpha * t) / d, v)) ∧
    ((s.update E v t d).2 = if d = 0 then some .zeroDivisionError else if s.reservoirSize = 0 then some .indexError else none) := by
  have h' : Tracks E (if t ≥ s.nextScaleTime then s.rescale E t else s) A := by
    split_ifs
    · exact h.rescale t
    · exact h
  have ha : (if t ≥ s.nextScaleTime then s.rescale E t else s).alpha = s.alpha := by split_ifs <;> rfl
  have hr : (if t ≥ s.nextScaleTime then s.rescale E t else s).reservoirSize = s.reservoirSize := by split_ifs <;> rfl
  unfold ExpDecay.update
  simp only
  generalize (if t ≥ s.nextScaleTime then s.rescale E t else s) = u at *
  clear h
  rw [← ha, ← hr]
  by_cases hd0 : d = 0
  · simp only [hd0, if_true]; exact ⟨trivial, trivial, h', trivial⟩
  · simp only [hd0, if_false]
    have hc : 0 < E.exp (-u.alpha * u.startTime) := E.pos _
    have hp : E.exp (u.alpha * (t - u.startTime)) / d =
        E.exp (u.alpha * t) / d * E.exp (-u.alpha * u.startTime) := by
      rw [show u.alpha * (t - u.startTime) = u.alpha * t + -u.alpha * u.startTime by ring, E.add]
      ring
    rw [hp]
    have hins := insort_scale hc A (E.exp (u.alpha * t) / d, v)
    simp only at hins
    rw [h'.cnt]
    unfold ideal
    by_cases h1 : A.length < u.reservoirSize
    · simp only [h1, if_true]
      refine ⟨trivial, trivial, ⟨?_, ?_, ?_, ?_⟩, ?_⟩
      · simp only; rw [h'.vals, hins]
      · simp only; rw [length_insort A _ h'.sorted]
      · simp only; rw [length_insort A _ h'.sorted]; omega
      · exact noDescent_insort A _ h'.sorted
      · rw [if_neg (by omega)]
    · simp only [h1, if_false]
      cases A with
      | nil =>
        rw [h'.vals]
        simp only [scale, List.map_nil]
        refine ⟨trivial, trivial, h', ?_⟩
        rw [if_pos (by simp at h1; omega)]
      | cons f A =>
        rw [h'.vals]
        have hres : ¬ u.reservoirSize = 0 := by have := h'.le; simp at this; omega
        simp only [scale, List.map_cons, mul_lt_mul_iff_left₀ hc, hres, if_false]
        split_ifs with h2
        · refine ⟨rfl, rfl, ⟨?_, ?_, ?_, ?_⟩, rfl⟩
          · simp only
            rw [show (f.1 * E.exp (-u.alpha * u.startTime), f.2) :: List.map (fun p => (p.1 * E.exp (-u.alpha * u.startTime), p.2)) A =
              scale (E.exp (-u.alpha * u.startTime)) (f :: A) from rfl, hins]
            simp [scale, List.map_tail]
          · simp only; rw [List.length_tail, length_insort _ _ h'.sorted]; simp
          · rw [List.length_tail, length_insort _ _ h'.sorted]; exact h'.le
          · exact (noDescent_insort _ _ h'.sorted).tail
        · exact ⟨rfl, rfl, h', rfl⟩

/-- The reservoir of weights over a whole stream. -/
def idealRun (n : Nat) (ws : List (K × V)) : List (K × V) := ws.foldl (ideal n) []

theorem runOps_snoc (E : ExpFn K) (s : ExpDecay K V) (ops : List (DecayOp K V)) (o : DecayOp K V) :
    s.runOps E (ops ++ [o]) = match o with
      | .update v t d => ((s.runOps E ops).update E v t d).1
      | .clear t1 t2 => (s.runOps E ops).clear t1 t2 := by
  unfold runOps; rw [List.foldl_append]; rfl

theorem weighted_snoc (E : ExpFn K) (alpha : K) (ops : List (DecayOp K V)) (o : DecayOp K V) :
    weighted E alpha (ops ++ [o]) = match o with
      | .update v t d => if d = 0 then weighted E alpha ops else weighted E alpha ops ++ [(E.exp (alpha * t) / d, v)]
      | .clear _ _ => [] := by
  unfold weighted; rw [List.foldl_append]; rfl

theorem tracks_run (E : ExpFn K) (n : Nat) (alpha t1 t2 : K) (ops : List (DecayOp K V)) (hd : DrawsOk ops) :
    ((init n alpha t1 t2 : ExpDecay K V).runOps E ops).alpha = alpha ∧
    ((init n alpha t1 t2 : ExpDecay K V).runOps E ops).reservoirSize = n ∧
    Tracks E ((init n alpha t1 t2 : ExpDecay K V).runOps E ops) (idealRun n (weighted E alpha ops)) := by
  induction ops using List.reverseRecOn with
  | nil =>
    refine ⟨rfl, rfl, ⟨rfl, rfl, Nat.zero_le _, List.Pairwise.nil⟩⟩
  | append_singleton os o ih =>
    obtain ⟨h1, h2, h3⟩ := ih (fun v t d hm => hd v t d (by simp [hm]))
    rw [runOps_snoc, weighted_snoc]
    cases o with
    | update v t d =>
      obtain ⟨g1, g2, g3, _⟩ := h3.update v t d (hd v t d (by simp))
      rw [h1, h2] at *
      refine ⟨g1, g2, ?_⟩
      simp only
      split_ifs with hd0
      · rwa [if_pos hd0] at g3
      · rw [if_neg hd0] at g3
        unfold idealRun at g3 ⊢
        rw [List.foldl_append]
        exact g3
    | clear u1 u2 => exact ⟨h1, h2, ⟨rfl, rfl, Nat.zero_le _, List.Pairwise.nil⟩⟩

/-- The reservoir of weights holds the greatest weights. -/
theorem ideal_top (n : Nat) (ws : List (K × V)) :
    NoDescent entryLt (idealRun n ws) ∧ (idealRun n ws).length = min n ws.length ∧
    ∃ dropped, (idealRun n ws ++ dropped).Perm ws ∧ ∀ a ∈ dropped, ∀ b ∈ idealRun n ws, a.1 ≤ b.1 := by
  induction ws using List.reverseRecOn with
  | nil => exact ⟨List.Pairwise.nil, by simp [idealRun], [], by simp [idealRun], by simp⟩
  | append_singleton ws p ih =>
    obtain ⟨h1, h2, dr, h3, h4⟩ := ih
    have e : idealRun n (ws ++ [p]) = ideal n (idealRun n ws) p := by unfold idealRun; rw [List.foldl_append]; rfl
    rw [e]
    generalize idealRun n ws = A at *
    refine ⟨noDescent_ideal n A p h1, ?_, ?_⟩
    · rw [length_ideal n A p h1 (by omega), h2]; simp; omega
    · have hperm : ∀ kept dr' : List (K × V), (kept ++ dr').Perm (p :: A ++ dr) → (kept ++ dr').Perm (ws ++ [p]) := by
        intro kept dr' hk
        refine hk.trans ?_
        refine (List.Perm.cons p h3).trans ?_
        exact (List.perm_append_comm (l₁ := [p]))
      unfold ideal
      split_ifs with hl
      · refine ⟨dr, hperm _ _ ?_, ?_⟩
        · exact (perm_insort A p h1).append_right dr
        · -- nothing has been dropped yet
          have : dr = [] := by
            have := h3.length_eq
            simp at this
            have : dr.length = 0 := by omega
            exact List.length_eq_zero_iff.1 this
          subst this; simp
      · cases A with
        | nil => 
          simp only
          exact ⟨p :: dr, hperm _ _ (by simp), by simp⟩
        | cons f A =>
          simp only
          split_ifs with hf
          · obtain ⟨l, r, e1, e2, hl', hr', hs⟩ := insort_spec (fun p : K × V => toLex p) entryLt entryLt_eq (f :: A) p h1
            have hins := perm_insort (f :: A) p h1
            have hne := insort_ne_nil (f :: A) p h1
            generalize insort entryLt (f :: A) p = B at *
            rcases B with _ | ⟨b, B⟩
            · exact absurd rfl hne
            · have hb : ∀ y ∈ B, b.1 ≤ y.1 := by
                intro y hy
                have := (List.pairwise_cons.1 hs).1 y hy
                rw [entryLt_eq, decide_eq_false_iff_not, not_lt, Prod.Lex.toLex_le_toLex] at this
                rcases this with h | h
                · exact h.le
                · exact h.1.le
              refine ⟨b :: dr, hperm _ _ ?_, ?_⟩
              · simp only [List.tail_cons]
                exact List.perm_middle.trans (hins.append_right dr)
              · intro a ha y hy
                simp only [List.tail_cons] at hy
                rcases List.mem_cons.1 ha with rfl | ha
                · exact hb y hy
                · have hyp : y = p ∨ y ∈ f :: A := by
                    have : y ∈ p :: (f :: A) := hins.mem_iff.1 (List.mem_cons_of_mem b hy)
                    simpa using this
                  rcases hyp with rfl | hyA
                  · exact (h4 a ha f (by simp)).trans hf.le
                  · exact h4 a ha y hyA
          · refine ⟨p :: dr, hperm _ _ List.perm_middle, ?_⟩
            intro a ha y hy
            have hfy : f.1 ≤ y.1 := by
              rcases List.mem_cons.1 hy with rfl | hy
              · exact le_rfl
              · have := (List.pairwise_cons.1 h1).1 y hy
                rw [entryLt_eq, decide_eq_false_iff_not, not_lt, Prod.Lex.toLex_le_toLex] at this
                rcases this with h | h
                · exact h.le
                · exact h.1.le
            rcases List.mem_cons.1 ha with rfl | ha
            · exact (not_lt.1 hf).trans hfy
            · exact h4 a ha y hy

end ExpDecay
end Txstatsd
