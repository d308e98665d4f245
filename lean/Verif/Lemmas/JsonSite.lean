import Verif.Lemmas.JsonText
import Verif.Props.Site

set_option linter.unusedSectionVars false
set_option linter.unusedSimpArgs false
set_option linter.unusedVariables false

/-!
# The pages as texts: the times shown, and a timer whose greatest duration is infinite
-/

namespace Txstatsd
open Spec

section
variable [Rounding] [Ieee] {C T G PF PM : Type}

/-- A number whose float, if it is one, is a double, an infinity or nan. -/
def NumDouble (n : Num) : Prop := ∀ q, n = .flt (.fin q) → rnd q = .fin q

theorem numDouble_int (z : ℤ) : NumDouble (.int z) := by intro q h; cases h

theorem numDouble_add (a b : Num) : NumDouble (a.add b) := by
  have key : ∀ x y : PyFloat, NumDouble (.flt (x.add y)) := by
    intro x y q h
    simp only [Num.flt.injEq] at h
    cases x with
    | nan => cases h
    | inf s =>
      cases y with
      | nan => cases h
      | inf t => simp only [PyFloat.add] at h; split_ifs at h
      | fin b => cases h
    | fin a =>
      cases y with
      | nan => cases h
      | inf t => cases h
      | fin b => exact Ieee.idem h
  cases a <;> cases b
  · exact numDouble_int _
  all_goals exact key _ _

theorem numDouble_foldl {α : Type} (f : α → Num) (l : List α) (n : Num) (h : NumDouble n) :
    NumDouble (l.foldl (fun (a : Num) p => a.add (f p)) n) := by
  induction l generalizing n with
  | nil => exact h
  | cons p l ih => exact ih _ (numDouble_add _ _)

theorem finite_of {n : Num} (h : NumDouble n) (h1 : n ≠ .flt .nan) (h2 : ∀ b, n ≠ .flt (.inf b)) : Finite n := by
  cases n with
  | int z => exact .int z
  | flt x =>
    cases x with
    | nan => exact absurd rfl h1
    | inf b => exact absurd rfl (h2 b)
    | fin q => exact .flt q (h q rfl)

theorem runReceive_double (I : Impl C T G PF PM) (ts : ℤ) (byType : Dict Nat) (d : Dict Num) (n : Num) (h : NumDouble n) :
    NumDouble (runReceive I ts byType d n).2.1 := by
  induction d generalizing n with
  | nil => exact h
  | cons p rest ih =>
    obtain ⟨t, x⟩ := p
    rw [runReceive]
    split
    · exact h
    · exact ih _ (numDouble_add _ _)

/-- The two times of the status page. -/
def ShownDouble (s : PS C T G PF PM) : Prop := NumDouble s.lastFlush ∧ NumDouble s.lastProcess

theorem shown_flush {I : Impl C T G PF PM} (hI : I.Timed) (w : World) {s : PS C T G PF PM} (hs : ShownDouble s)
    (interval percent : ℤ) : ShownDouble (flush I w interval percent s).1 := by
  unfold flush
  simp only
  have hph := runPhases_calm hI w (Int.fdiv interval 1000) percent (truncQ (w.clk s.ticks)) [0, 1, 2, 3, 4] []
    { s with ticks := s.ticks + 1 }
  generalize runPhases I w (Int.fdiv interval 1000) percent (truncQ (w.clk s.ticks)) [0, 1, 2, 3, 4] []
    { s with ticks := s.ticks + 1 } = r at hph ⊢
  obtain ⟨s1, ps, e | acc⟩ := r
  · exact ⟨by have := hph.lastFlush; simp only at this ⊢; rw [this]; exact hs.1,
      by have := hph.lastProcess; simp only at this ⊢; rw [this]; exact hs.2⟩
  · simp only
    have h1 : NumDouble (acc.foldl (fun (a : Num) (p : PerMetric) => a.add p.2.2) (.int 0)) :=
      numDouble_foldl (fun p : PerMetric => p.2.2) acc _ (numDouble_int 0)
    have h2 := runReceive_double I (truncQ (w.clk s.ticks)) s1.byType s1.processTimings (.int 0) (numDouble_int 0)
    unfold runSummary
    simp only
    generalize runReceive I (truncQ (w.clk s.ticks)) s1.byType s1.processTimings (.int 0) = r2 at h2 ⊢
    obtain ⟨ps2, lp, e2⟩ := r2
    cases e2 <;> exact ⟨h1, h2⟩

theorem shown_run {I : Impl C T G PF PM} (hI : I.Timed) (w : World) {s : PS C T G PF PM} (hs : ShownDouble s) (os : List Op) :
    ShownDouble (runOps I w s os).1 := by
  induction os using List.reverseRecOn with
  | nil => exact hs
  | append_singleton os o ih =>
    rw [runOps_snoc]
    cases o with
    | msg m =>
      obtain ⟨a, b⟩ := process_last hI w (runOps I w s os).1 m
      simp only [Op.apply]
      exact ⟨by rw [a]; exact ih.1, by rw [b]; exact ih.2⟩
    | flush i p => exact shown_flush hI w ih i p

end

/-! ## A reservoir that is full -/

theorem fill_sample {α : Type} (z : α) (n d : ℕ) (vs : List α) (h : vs.length ≤ n) :
    (UniformSample.init z n).runOps z (vs.map (.update d)) = ⟨vs ++ List.replicate (n - vs.length) z, vs.length⟩ := by
  induction vs using List.reverseRecOn with
  | nil => simp [UniformSample.runOps, UniformSample.init]
  | append_singleton vs v ih =>
    rw [List.length_append, List.length_singleton] at h
    rw [List.map_append, UniformSample.runOps, List.foldl_append]
    rw [show List.foldl _ _ _ = _ from ih (by omega)]
    have e : n - vs.length = (n - (vs.length + 1)) + 1 := by omega
    have e2 : vs.length + 1 ≤ (vs ++ List.replicate (n - vs.length) z).length := by
      rw [List.length_append, List.length_replicate]; omega
    simp only [List.map_cons, List.map_nil, List.foldl_cons, List.foldl_nil, UniformSample.update]
    rw [if_pos e2, Nat.add_sub_cancel, List.length_append, List.length_singleton, e, List.replicate_succ,
      List.set_append_right _ _ (le_refl _), Nat.sub_self, List.set_cons_zero]
    simp

theorem full_sample {α : Type} (z v u : α) (vs : List α) (n : ℕ) (h : vs.length = n) :
    ((UniformSample.init z (n + 1)).runOps z ((v :: vs ++ [u]).map (.update 0))).getValues = u :: vs := by
  have e := fill_sample z (n + 1) 0 (v :: vs) (by simp [h])
  rw [List.map_append, UniformSample.runOps, List.foldl_append, show List.foldl _ _ _ = _ from e]
  simp only [List.map_cons, List.map_nil, List.foldl_cons, List.foldl_nil, UniformSample.update, List.length_cons, h,
    Nat.sub_self, List.replicate_zero, List.append_nil, Nat.zero_mod]
  rw [if_neg (by omega), if_pos (by omega)]
  unfold UniformSample.getValues UniformSample.size
  simp only [List.set_cons_zero, List.length_cons, h]
  rw [if_pos (by omega), List.take_of_length_le (by simp [h])]

section
variable [Rounding] {PF PM : Type}

omit [Rounding] in
theorem clear_init (n : ℕ) : (Histogram.init n).clear = Histogram.init n := by
  simp [Histogram.clear, Histogram.init, UniformSample.clear, UniformSample.init]

omit [Rounding] in
theorem timerInit_hist (key pre : Str) (x : ℚ) : (TimerRep.init key pre x).hist = Histogram.init 1028 := by
  unfold TimerRep.init TimerRep.clear
  exact clear_init 1028

/-- The timer of a key that received only durations, all draws being zero. -/
theorem timer_readings (ops : PluginOps PF PM) (pre int : Str) (plugins : List PF) (w : World) (hw : ∀ n, w.rand n = 0) (key : Str)
    (ms : List Str) (vs : List PyFloat) (h : List.Forall₂ (fun m v => Reading c!"ms" key m v ∧ PyFloat.le (.fin 0) v = true) ms vs) (hne : vs ≠ []) :
    ∃ t, (runOps (configurable ops pre int) w (CPState.init ops plugins) (ms.map .msg)).1.timers.find key = some t ∧
      t.hist = (Histogram.init 1028).runOps (vs.map (.update 0)) := by
  have key' : ∀ ms vs, List.Forall₂ (fun m v => Reading c!"ms" key m v ∧ PyFloat.le (.fin 0) v = true) ms vs →
      (vs = [] ∧ (runOps (configurable ops pre int) w (CPState.init ops plugins) (ms.map .msg)).1.timers.find key = none ∨
      ∃ t, (runOps (configurable ops pre int) w (CPState.init ops plugins) (ms.map .msg)).1.timers.find key = some t ∧
        t.hist = (Histogram.init 1028).runOps (vs.map (.update 0))) := by
    intro ms
    induction ms using List.reverseRecOn with
    | nil =>
      intro vs h
      cases h
      exact Or.inl ⟨rfl, rfl⟩
    | append_singleton ms m ih =>
      intro vs h
      obtain ⟨vs, v, rfl⟩ : ∃ vs' v, vs = vs' ++ [v] := by
        have hl := h.length_eq
        rcases List.eq_nil_or_concat vs with rfl | ⟨l, v, rfl⟩
        · simp at hl
        · exact ⟨l, v, by simp⟩
      have hl := h.length_eq
      simp only [List.length_append, List.length_singleton, Nat.add_right_cancel_iff] at hl
      have h1 := List.forall₂_take_append _ _ _ h
      have h2 := List.forall₂_drop_append _ _ _ h
      have ht : (ms ++ [m]).take vs.length = ms := by rw [← hl]; simp
      have hd : (ms ++ [m]).drop vs.length = [m] := by rw [← hl]; simp
      rw [ht] at h1
      rw [hd] at h2
      cases h2 with
      | cons h2 _ =>
      obtain ⟨hr, hv⟩ := h2
      have ih := ih vs h1
      refine Or.inr ?_
      rw [List.map_append, List.map_singleton, runOps_snoc]
      simp only [Op.apply]
      obtain ⟨_, _, ⟨n, e3⟩, _⟩ := effect ops pre int w (runOps (configurable ops pre int) w (CPState.init ops plugins) (ms.map .msg)).1 m
      rw [e3, readEffect_iff.2 hr, hw]
      simp only [applyRead]
      refine ⟨_, Dict.find_put_self _ _ _, ?_⟩
      rw [List.map_append, List.map_singleton, Histogram.runOps_snoc]
      rcases ih with ⟨rfl, hn⟩ | ⟨t, hf, hh⟩
      · rw [hn, Option.getD_none]
        unfold TimerRep.update
        simp only [hv, if_true, timerInit_hist]
        simp only [List.map_nil, Histogram.runOps, List.foldl_nil]
      · rw [hf, Option.getD_some]
        unfold TimerRep.update
        simp only [hv, if_true, hh]
  obtain h | h := key' ms vs h
  · exact absurd h.1 hne
  · exact h

end

/-! ## A text that is not JSON -/

/-- An object whose first member's value begins with a character that no value begins with. -/
theorem not_json {k r : Str} {c : Char} (hc : valChar c = false) (hw : isWs c = false) {v : JVal} :
    ¬ JText ('{' :: (jsonStr k ++ ':' :: ' ' :: c :: r)) v := by
  rintro ⟨a, b, u, e, ha, hb, hu⟩
  obtain ⟨c', s', hu', hc'⟩ := value_head hu
  have e1 := span_eq (p := isWs) (a := []) (a' := a) (by intro c hc; cases hc) (isWs_of ha) (u' := u ++ b) (off_cons (by rfl))
    (by rw [hu']; exact off_cons (val_ws c' hc')) e
  obtain ⟨rfl, e1⟩ := e1
  have mem : ∀ (t : Str) (l : List (Str × JVal)) (z : Str), JMembers t l →
      jsonStr k ++ ':' :: ' ' :: c :: r = t ++ '}' :: z → False := by
    have main : ∀ (a' k' b' c' t z : Str) (n : Str) (v : JVal), JWs a' → JString k' n → JWs b' → JWs c' → JValue t v →
        jsonStr k ++ ':' :: ' ' :: c :: r = a' ++ (k' ++ (b' ++ ':' :: (c' ++ (t ++ z)))) → False := by
      intro a' k' b' c' t z n v ha' hk hb' hc2 ht e
      obtain ⟨x, hx⟩ := string_head hk
      obtain ⟨y, hy⟩ := string_head (jsonStr_spec k)
      have e2 := span_eq (p := isWs) (a := []) (a' := a') (by intro c hc; cases hc) (isWs_of ha')
        (u := jsonStr k ++ ':' :: ' ' :: c :: r) (u' := k' ++ (b' ++ ':' :: (c' ++ (t ++ z))))
        (by rw [hy]; exact off_cons (by rfl)) (by rw [hx]; exact off_cons (by rfl)) e
      obtain ⟨_, _, e3⟩ := string_det (jsonStr_spec k) hk e2.2
      have e4 := span_eq (p := isWs) (a := []) (a' := b') (by intro c hc; cases hc) (isWs_of hb')
        (u := ':' :: ' ' :: c :: r) (u' := ':' :: (c' ++ (t ++ z))) (off_cons (by rfl)) (off_cons (by rfl)) e3
      have e5 := e4.2
      simp only [List.cons.injEq, true_and] at e5
      obtain ⟨d, s, hd, hdv⟩ := value_head ht
      have e6 := span_eq (p := isWs) (a := [' ']) (a' := c') (by intro c hc; simp at hc; subst hc; rfl) (isWs_of hc2)
        (u := c :: r) (u' := t ++ z) (off_cons hw) (by rw [hd]; exact off_cons (val_ws d hdv)) e5
      have e7 := e6.2
      rw [hd] at e7
      simp only [List.cons_append, List.cons.injEq] at e7
      rw [← e7.1, hc] at hdv
      cases hdv
    intro t l z h e
    cases h with
    | one a' k' b' c' t d n v ha' hk hb' hc2 ht hd =>
      refine main a' k' b' c' t (d ++ '}' :: z) n v ha' hk hb' hc2 ht ?_
      rw [e]; simp
    | more a' k' b' c' t d r n v l ha' hk hb' hc2 ht hd hr =>
      refine main a' k' b' c' t (d ++ ',' :: (r ++ '}' :: z)) n v ha' hk hb' hc2 ht ?_
      rw [e]; simp
  cases hu with
  | num t q h =>
    obtain ⟨d, s, hd, h⟩ := number_head h
    rw [hd] at e1
    simp only [List.cons_append, List.cons.injEq] at e1
    rw [← e1.1] at h
    revert h; decide
  | str t s h =>
    obtain ⟨x, hx⟩ := string_head h
    rw [hx] at e1
    simp at e1
  | arr0 w h => simp at e1
  | arr t l h => simp at e1
  | obj0 w h =>
    obtain ⟨y, hy⟩ := string_head (jsonStr_spec k)
    rw [hy] at e1
    cases w with
    | nil => simp at e1
    | cons d w =>
      simp only [List.cons_append, List.cons.injEq, true_and] at e1
      have := h d (by simp)
      rw [← e1.1] at this
      revert this; decide
  | obj t l h =>
    simp only [List.cons_append, List.append_assoc, List.cons.injEq, true_and, List.nil_append] at e1
    exact mem t l b h e1

end Txstatsd
