import Verif.Lemmas.FlushTask
import Verif.Props.App

/-! # C156: starting and stopping the flushing (service.py:207-240) -/

set_option linter.unusedSectionVars false

namespace Txstatsd
open Spec

section
variable [Rounding] {S R : Type}

/-- The loop of a service started at `s`. -/
theorem flushTask_started (P : Proc S) (cf : AppConf R) (w : World) (p : ℤ) (hw : SecondsIn cf.flushInterval p) (hp : 0 ≤ p)
    (v : Life S) (hr : v.task.running = false) (s : ℚ) :
    let v1 := (v.step P cf w (.start s)).1
    v1.task.running = true ∧ v1.task.startTime = s ∧ v1.task.due = some (nextCall s p s) ∧ v1.task.calls = v.task.calls := by
  have h := flushPeriod_of_whole hw
  simp [Life.step, FlushTask.start, hr, not_lt.mpr hp, h]

/-- C156: from a start at `s` to the next stop, with a period of `p` seconds, flushes begin at readings of the clock only, none in
the first period, and no two in the same period after `s`; however late the reactor is, the flushes do not drift. -/
theorem C156_times (P : Proc S) (cf : AppConf R) (w : World) (p : ℤ) (hw : SecondsIn cf.flushInterval p) (hp : 0 < p)
    (v : Life S) (hr : v.task.running = false) (s : ℚ) (es : List TaskEvent) (hs : NoStop es) :
    ∃ new : List ℚ, (v.run P cf w (.start s :: es)).task.calls = v.task.calls ++ new.map (fun t => (s, t)) ∧
      new.Sublist (readings es) ∧ (∀ t ∈ new, s + p ≤ t) ∧
      new.Pairwise (fun t t' => ⌊(t - s) / p⌋ < ⌊(t' - s) / p⌋) ∧
      ∀ t ∈ readings es, s + p ≤ t → ∃ t' ∈ new, ⌊(t - s) / p⌋ ≤ ⌊(t' - s) / p⌋ := by
  obtain ⟨h1, h2, h3, h4⟩ := flushTask_started P cf w p hw hp.le v hr s
  have hn : nextCall s p s = s + p * ((1 : ℤ) : ℚ) := by
    unfold nextCall; rw [if_neg (by omega)]; simp
  have hc := life_calls P cf w p (flushPeriod_of_whole hw) es s _ _ hs h1 h2 h3
  rw [h4, hn] at hc
  obtain ⟨g1, g2⟩ := callsFrom_spaced (s := s) hp (readings es) 1
  refine ⟨_, hc, callsFrom_sublist .., ?_, List.pairwise_map.mp g1, ?_⟩
  · intro t ht
    have := (floor_ge_iff hp 1).mp (g2 t ht)
    simpa using this
  · intro t ht hle
    exact callsFrom_none_missed hp _ 1 t ht ((floor_ge_iff hp 1).mpr (by simpa using hle))

/-- C156: when the clock is looked at on time, the flushes begin exactly one period after the start, two periods after it, and so on. -/
theorem C156_on_time (P : Proc S) (cf : AppConf R) (w : World) (p : ℤ) (hw : SecondsIn cf.flushInterval p) (hp : 0 < p)
    (v : Life S) (hr : v.task.running = false) (s : ℚ) (es : List TaskEvent) (hs : NoStop es) (n : Nat)
    (hes : readings es = (List.range' 1 n).map fun k : ℕ => s + p * (k : ℚ)) :
    (v.run P cf w (.start s :: es)).task.calls =
      v.task.calls ++ (List.range' 1 n).map fun k : ℕ => (s, s + p * (k : ℚ)) := by
  obtain ⟨h1, h2, h3, h4⟩ := flushTask_started P cf w p hw hp.le v hr s
  have hn : nextCall s p s = s + p * (((0 + 1 : ℕ) : ℤ) : ℚ) := by
    unfold nextCall; rw [if_neg (by omega)]; simp
  have hc := life_calls P cf w p (flushPeriod_of_whole hw) es s _ _ hs h1 h2 h3
  rw [h4, hn, hes] at hc
  refine hc.trans ?_
  rw [callsFrom_prompt hp n 0, List.map_map]
  rfl

/-- C156: with an interval below a second a flush begins whenever the reactor looks at the clock. -/
theorem C156_zero (P : Proc S) (cf : AppConf R) (w : World) (hw : SecondsIn cf.flushInterval 0)
    (v : Life S) (hr : v.task.running = false) (s : ℚ) (es : List TaskEvent) (hs : NoStop es)
    (hm : (s :: readings es).Pairwise (· ≤ ·)) :
    (v.run P cf w (.start s :: es)).task.calls = v.task.calls ++ (readings es).map fun t => (s, t) := by
  obtain ⟨h1, h2, h3, h4⟩ := flushTask_started P cf w 0 hw le_rfl v hr s
  have hc := life_calls P cf w 0 (flushPeriod_of_whole hw) es s _ _ hs h1 h2 h3
  rw [h4, show nextCall s 0 s = s by simp [nextCall], callsFrom_zero s s _ hm] at hc
  exact hc

/-- C156: every call of the loop hands one flush to the cooperator, and nothing else does. -/
theorem C156_one_flush_per_call (P : Proc S) (cf : AppConf R) (w : World) (s : S) (es : List TaskEvent) :
    let v := Life.run P cf w { app := { ps := s } } es
    v.app.gens.length = v.task.calls.length :=
  (lifeInv_run P cf w es _ (lifeInv_fresh s)).counted

/-- C156: a start of a running service fails an assertion, one with a negative interval raises ValueError, and both change nothing;
any other start succeeds. Stopping never fails, whether the service runs or not. -/
theorem C156_errors (P : Proc S) (cf : AppConf R) (w : World) (v : Life S) (now : ℚ) :
    (v.task.running = true → v.step P cf w (.start now) = (v, some .assertionError)) ∧
    (v.task.running = false → cf.flushInterval < 0 → v.step P cf w (.start now) = (v, some .valueError)) ∧
    (v.task.running = false → 0 ≤ cf.flushInterval →
      (v.step P cf w (.start now)).2 = none ∧ (v.step P cf w (.start now)).1.task.running = true) ∧
    (v.step P cf w .stop).2 = none ∧ (v.step P cf w .stop).1.task.running = false := by
  have hper : flushPeriod cf.flushInterval < 0 ↔ cf.flushInterval < 0 := by
    unfold flushPeriod
    rw [Int.fdiv_eq_ediv_of_nonneg _ (by norm_num)]
    omega
  refine ⟨?_, ?_, ?_, rfl, ?_⟩
  · intro h; simp [Life.step, FlushTask.start, h]
  · intro h hi; simp [Life.step, FlushTask.start, h, hper.mpr hi]
  · intro h hi
    have : ¬ flushPeriod cf.flushInterval < 0 := by rw [hper]; omega
    simp [Life.step, FlushTask.start, h, this]
  · simp only [Life.step, FlushTask.stop]
    split
    · rfl
    · rename_i h; simpa using h

/-- C156 (partial): from a stop to the next start no flush begins; and if none had begun before, no datapoint gets out.
Missing for the full claim (`C156_refuted`): flushes that had begun go on sending. -/
theorem C156_stopped_partial (P : Proc S) (cf : AppConf R) (w : World) (s : S) (before after : List TaskEvent) (h : NoStart after) :
    let v := Life.run P cf w { app := { ps := s } } before
    let v' := v.run P cf w (.stop :: after)
    v'.task.calls = v.task.calls ∧ v'.app.gens.length = v.app.gens.length ∧
      (v.task.calls = [] → v'.app.out = v.app.out) := by
  intro v v'
  have hi := lifeInv_run P cf w before _ (lifeInv_fresh s)
  have hi' := lifeInv_step P cf w v .stop hi
  have hr : (v.step P cf w .stop).1.task.running = false := (C156_errors P cf w v 0).2.2.2.2
  obtain ⟨h1, h2, h3⟩ := life_idle_run P cf w after _ h hr (hi'.idle hr)
  have hcalls : (v.step P cf w .stop).1.task.calls = v.task.calls := by
    simp only [Life.step, FlushTask.stop]; split <;> rfl
  refine ⟨(congrArg FlushTask.calls h1).trans hcalls, h2, fun hc => h3 ?_⟩
  have hl := hi.counted
  rw [show (Life.run P cf w { app := { ps := s } } before).task.calls = [] from hc] at hl
  exact List.length_eq_zero_iff.mp hl

end

section
attribute [local instance] ratRounding

/-- C156, the expectation: once the service is stopped, it sends no datapoint until it is started again. False: the cooperator goes on
with the flushes handed to it. -/
theorem C156_refuted : ¬ ∀ before after : List TaskEvent, NoStart after →
    let v := Life.run (messageProcessor noPlugins).proc exAppConf exWorld { app := { ps := MPState.init noPlugins [] } } before
    (v.run (messageProcessor noPlugins).proc exAppConf exWorld (.stop :: after)).app.out = v.app.out := by
  intro h
  have := h [.start 0, .other (.receive c!"a:1|c"), .other (.turn 0), .clock 60]
    (List.replicate 5 (.other (.advance 0))) (by intro now; simp)
  revert this
  decide +kernel

/-- An interval of a minute, started at 5; the reactor is late once and misses the third minute altogether. -/
example : (Life.run (messageProcessor noPlugins).proc exAppConf exWorld { app := { ps := MPState.init noPlugins [] } }
      [.start 5, .clock 30, .clock 65, .start 70, .clock 130, .clock 150, .clock 250, .clock 304, .clock 305]).task.calls =
      [(5, 65), (5, 130), (5, 250), (5, 305)] ∧
    NoStop [.clock 30, .clock 65, .start 70, .clock 130, .clock 150, .clock 250, .clock 304, .clock 305] ∧
    SecondsIn exAppConf.flushInterval 60 := by
  refine ⟨by decide +kernel, by simp [NoStop], by decide +kernel, by decide +kernel⟩

example : readings [.clock 65, .other (.receive c!"a:1|c"), .clock 125] = (List.range' 1 2).map fun k : ℕ => (5 : ℚ) + (60 : ℤ) * (k : ℚ) := by
  decide +kernel

example : SecondsIn 999 0 ∧ ((1 : ℚ) :: readings [.clock 1, .clock 1, .clock 3]).Pairwise (· ≤ ·) := by
  refine ⟨⟨by decide, by decide⟩, by decide +kernel⟩

/-- Stopped twice, and started again. -/
example : (Life.run (messageProcessor noPlugins).proc exAppConf exWorld { app := { ps := MPState.init noPlugins [] } }
      [.start 0, .clock 60, .stop, .stop, .clock 120, .start 130, .clock 180, .clock 190]).task.calls = [(0, 60), (130, 190)] := by
  decide +kernel

end
end Txstatsd
