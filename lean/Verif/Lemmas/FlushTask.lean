import Verif.Spec.FlushTask
import Mathlib.Tactic.Linarith
import Mathlib.Tactic.Ring
import Mathlib.Tactic.FieldSimp

set_option linter.unusedSectionVars false
set_option linter.unusedSimpArgs false
set_option linter.unusedVariables false

/-! # Lemmas on the flush task (service.py:207-240) -/

namespace Txstatsd
open Spec
variable [Rounding] {S R : Type}

theorem flushPeriod_of_whole {i p : ℤ} (h : SecondsIn i p) : flushPeriod i = p := by
  obtain ⟨h1, h2⟩ := h
  unfold flushPeriod
  rw [Int.fdiv_eq_ediv_of_nonneg _ (by norm_num)]
  omega

theorem task_gens_step (P : Proc S) (cf : AppConf R) (w : World) (v : App S) (e : AppEvent) (he : e ≠ .tick) :
    (v.step P cf w e).gens.length = v.gens.length := by
  cases e with
  | receive d => simp only [App.step]; split <;> rfl
  | turn i => simp only [App.step]; split <;> rfl
  | internal t => rfl
  | tick => exact absurd rfl he
  | advance i => simp only [App.step]; split <;> simp

theorem task_out_step (P : Proc S) (cf : AppConf R) (w : World) (v : App S) (e : AppEvent) (h : v.gens = []) :
    (v.step P cf w e).out = v.out := by
  cases e with
  | receive d => simp only [App.step]; split <;> rfl
  | turn i => simp only [App.step]; split <;> rfl
  | internal t => rfl
  | tick => rfl
  | advance i => simp [App.step, h]

/-- What the loop and the service keep to. -/
structure LifeInv (v : Life S) : Prop where
  idle : v.task.running = false → v.task.due = none
  counted : v.app.gens.length = v.task.calls.length

theorem lifeInv_step (P : Proc S) (cf : AppConf R) (w : World) (v : Life S) (e : TaskEvent) (h : LifeInv v) :
    LifeInv (v.step P cf w e).1 := by
  obtain ⟨h1, h2⟩ := h
  cases e with
  | start now =>
    simp only [Life.step, FlushTask.start]
    split
    · exact ⟨h1, h2⟩
    · split
      · exact ⟨h1, h2⟩
      · exact ⟨by simp, h2⟩
  | stop =>
    simp only [Life.step, FlushTask.stop]
    split
    · exact ⟨by simp, h2⟩
    · exact ⟨h1, h2⟩
  | clock now =>
    simp only [Life.step]
    split
    · exact ⟨h1, h2⟩
    · rename_i t ht
      split
      · refine ⟨fun hr => ?_, by simp [App.step, h2]⟩
        have := h1 hr
        rw [ht] at this
        cases this
      · exact ⟨h1, h2⟩
  | other e =>
    cases e <;> first | exact ⟨h1, h2⟩ | exact ⟨h1, by
      simp only [Life.step]; rw [task_gens_step _ _ _ _ _ (by simp)]; exact h2⟩

theorem lifeInv_run (P : Proc S) (cf : AppConf R) (w : World) (es : List TaskEvent) (v : Life S) (h : LifeInv v) :
    LifeInv (v.run P cf w es) := by
  induction es generalizing v with
  | nil => exact h
  | cons e es ih => exact ih _ (lifeInv_step P cf w v e h)

theorem lifeInv_fresh (s : S) : LifeInv { app := { ps := s } } := ⟨fun _ => rfl, rfl⟩

theorem life_run_append (P : Proc S) (cf : AppConf R) (w : World) (a b : List TaskEvent) (v : Life S) :
    v.run P cf w (a ++ b) = (v.run P cf w a).run P cf w b := List.foldl_append ..

/-- A stopped loop that nobody starts makes no calls. -/
theorem life_idle_run (P : Proc S) (cf : AppConf R) (w : World) (es : List TaskEvent) (v : Life S)
    (hs : NoStart es) (hr : v.task.running = false) (hd : v.task.due = none) :
    (v.run P cf w es).task = v.task ∧ (v.run P cf w es).app.gens.length = v.app.gens.length ∧
      (v.app.gens = [] → (v.run P cf w es).app.out = v.app.out) := by
  induction es generalizing v with
  | nil => exact ⟨rfl, rfl, fun _ => rfl⟩
  | cons e es ih =>
    have hs' : NoStart es := fun now hm => hs now (List.mem_cons_of_mem _ hm)
    have key : (v.step P cf w e).1.task = v.task ∧ (v.step P cf w e).1.app.gens.length = v.app.gens.length ∧
        (v.app.gens = [] → (v.step P cf w e).1.app.out = v.app.out) := by
      cases e with
      | start now => exact absurd (List.mem_cons_self ..) (hs now)
      | stop => simp [Life.step, FlushTask.stop, hr]
      | clock now => simp [Life.step, hd]
      | other e =>
        cases e <;> first
          | exact ⟨rfl, rfl, fun _ => rfl⟩
          | exact ⟨rfl, task_gens_step _ _ _ _ _ (by simp), fun h => task_out_step _ _ _ _ _ h⟩
    obtain ⟨k1, k2, k3⟩ := key
    obtain ⟨i1, i2, i3⟩ := ih (v.step P cf w e).1 hs' (by rw [k1]; exact hr) (by rw [k1]; exact hd)
    refine ⟨i1.trans k1, i2.trans k2, fun h => ?_⟩
    have : (v.step P cf w e).1.app.gens = [] := List.length_eq_zero_iff.mp (by rw [k2, h]; rfl)
    exact (i3 this).trans (k3 h)

/-- The calls of a loop with period `p` started at `s`, the next one being due at `d`. -/
def callsFrom (s : ℚ) (p : ℤ) : ℚ → List ℚ → List ℚ
  | _, [] => []
  | d, t :: ts => if d ≤ t then t :: callsFrom s p (nextCall s p t) ts else callsFrom s p d ts

theorem life_calls (P : Proc S) (cf : AppConf R) (w : World) (p : ℤ) (hp : flushPeriod cf.flushInterval = p)
    (es : List TaskEvent) (s d : ℚ) (v : Life S) (hs : NoStop es) (hr : v.task.running = true)
    (h1 : v.task.startTime = s) (hd : v.task.due = some d) :
    (v.run P cf w es).task.calls = v.task.calls ++ (callsFrom s p d (readings es)).map fun t => (s, t) := by
  induction es generalizing v d with
  | nil => simp [Life.run, readings, callsFrom]
  | cons e es ih =>
    have hs' : NoStop es := fun hm => hs (List.mem_cons_of_mem _ hm)
    show ((v.step P cf w e).1.run P cf w es).task.calls = _
    cases e with
    | start now =>
      have : (v.step P cf w (.start now)).1 = v := by simp [Life.step, FlushTask.start, hr]
      rw [this]
      exact ih d v hs' hr h1 hd
    | stop => exact absurd (List.mem_cons_self ..) hs
    | clock now =>
      by_cases hle : d ≤ now
      · rw [ih (nextCall s p now) _ hs' (by simp [Life.step, hd, hle, hr]) (by simp [Life.step, hd, hle, h1])
          (by simp [Life.step, hd, hle, h1, hp])]
        simp [Life.step, hd, hle, readings, callsFrom, h1]
      · have : (v.step P cf w (.clock now)).1 = v := by simp [Life.step, hd, hle]
        rw [this, ih d v hs' hr h1 hd]
        simp [readings, callsFrom, hle]
    | other e =>
      have hk : (v.step P cf w (.other e)).1.task = v.task := by cases e <;> rfl
      rw [ih d _ hs' (by rw [hk]; exact hr) (by rw [hk]; exact h1) (by rw [hk]; exact hd), hk]
      simp [readings]

/-- The number of whole periods between `s` and `t`. -/
theorem floor_ge_iff {s t : ℚ} {p : ℤ} (hp : 0 < p) (k : ℤ) : k ≤ ⌊(t - s) / p⌋ ↔ s + p * k ≤ t := by
  have hq : (0 : ℚ) < p := by exact_mod_cast hp
  rw [Int.le_floor, le_div_iff₀ hq]
  constructor <;> intro h <;> nlinarith

theorem callsFrom_spaced {s : ℚ} {p : ℤ} (hp : 0 < p) (ts : List ℚ) (k : ℤ) :
    ((callsFrom s p (s + p * k) ts).map fun t => ⌊(t - s) / p⌋).Pairwise (· < ·) ∧
      ∀ t ∈ callsFrom s p (s + p * k) ts, k ≤ ⌊(t - s) / p⌋ := by
  induction ts generalizing k with
  | nil => simp [callsFrom]
  | cons t ts ih =>
    unfold callsFrom
    split
    · rename_i hle
      have hn : nextCall s p t = s + p * ((⌊(t - s) / p⌋ + 1 : ℤ) : ℚ) := by
        unfold nextCall; rw [if_neg (by omega)]; push_cast; ring
      rw [hn]
      obtain ⟨i1, i2⟩ := ih (⌊(t - s) / p⌋ + 1)
      have hk := (floor_ge_iff hp k).mpr hle
      refine ⟨?_, ?_⟩
      · rw [List.map_cons, List.pairwise_cons]
        refine ⟨?_, i1⟩
        intro a ha
        obtain ⟨b, hb, rfl⟩ := List.mem_map.mp ha
        have := i2 b hb
        omega
      · intro a ha
        rcases List.mem_cons.mp ha with rfl | ha
        · exact hk
        · have := i2 a ha
          omega
    · exact ih k

theorem callsFrom_sublist (s : ℚ) (p : ℤ) (d : ℚ) (ts : List ℚ) : (callsFrom s p d ts).Sublist ts := by
  induction ts generalizing d with
  | nil => exact List.Sublist.slnil
  | cons t ts ih =>
    unfold callsFrom
    split
    · exact (ih _).cons_cons _
    · exact (ih _).cons _

theorem callsFrom_none_missed {s : ℚ} {p : ℤ} (hp : 0 < p) (ts : List ℚ) (k : ℤ) (t : ℚ) (ht : t ∈ ts)
    (hk : k ≤ ⌊(t - s) / p⌋) :
    ∃ t' ∈ callsFrom s p (s + p * k) ts, ⌊(t - s) / p⌋ ≤ ⌊(t' - s) / p⌋ := by
  induction ts generalizing k with
  | nil => simp at ht
  | cons u ts ih =>
    unfold callsFrom
    split
    · rename_i hle
      have hn : nextCall s p u = s + p * ((⌊(u - s) / p⌋ + 1 : ℤ) : ℚ) := by
        unfold nextCall; rw [if_neg (by omega)]; push_cast; ring
      rw [hn]
      by_cases hc : ⌊(t - s) / p⌋ ≤ ⌊(u - s) / p⌋
      · exact ⟨u, List.mem_cons_self .., hc⟩
      · rcases List.mem_cons.mp ht with rfl | ht
        · exact absurd le_rfl hc
        · obtain ⟨a, ha, hb⟩ := ih (⌊(u - s) / p⌋ + 1) ht (by omega)
          exact ⟨a, List.mem_cons_of_mem _ ha, hb⟩
    · rename_i hle
      rcases List.mem_cons.mp ht with rfl | ht
      · exact absurd ((floor_ge_iff hp k).mp hk) hle
      · exact ih k ht hk

theorem callsFrom_prompt {s : ℚ} {p : ℤ} (hp : 0 < p) (n : Nat) (m : Nat) :
    callsFrom s p (s + p * ((m + 1 : ℕ) : ℤ)) ((List.range' (m + 1) n).map fun k : ℕ => s + p * (k : ℚ)) =
      (List.range' (m + 1) n).map fun k : ℕ => s + p * (k : ℚ) := by
  induction n generalizing m with
  | zero => rfl
  | succ n ih =>
    have hq : (p : ℚ) ≠ 0 := by exact_mod_cast hp.ne'
    have hn : nextCall s p (s + p * ((m + 1 : ℕ) : ℚ)) = s + p * (((m + 1 + 1 : ℕ) : ℤ) : ℚ) := by
      unfold nextCall
      rw [if_neg (by omega)]
      have : (s + p * ((m + 1 : ℕ) : ℚ) - s) / p = ((m + 1 : ℕ) : ℚ) := by field_simp; ring
      rw [this, Int.floor_natCast]
      push_cast; ring
    rw [List.range'_succ, List.map_cons, callsFrom, if_pos (by push_cast; exact le_rfl), hn, ih (m + 1)]

theorem callsFrom_zero (s d : ℚ) (ts : List ℚ) (h : (d :: ts).Pairwise (· ≤ ·)) : callsFrom s 0 d ts = ts := by
  induction ts generalizing d with
  | nil => rfl
  | cons t ts ih =>
    have h' := List.pairwise_cons.mp h
    rw [callsFrom, if_pos (h'.1 t (List.mem_cons_self ..))]
    rw [show nextCall s 0 t = t by simp [nextCall], ih t h'.2]

end Txstatsd
