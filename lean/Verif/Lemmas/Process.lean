import Verif.Lemmas.Dict
import Verif.Lemmas.Text
import Verif.Model.Processor

set_option linter.unusedSectionVars false
set_option linter.unusedSimpArgs false
set_option linter.unusedVariables false

namespace Txstatsd
open Spec

section
variable [Rounding] {C T G PF PM : Type}

/-- An observation that ignores the clock counter and the receive statistics. -/
structure Obs (f : PS C T G PF PM → α) : Prop where
  tick : ∀ (s : PS C T G PF PM) n, f { s with ticks := n } = f s
  acc : ∀ w (s : PS C T G PF PM) t st, f (account w s t st) = f s

theorem finish_obs {α : Type} {f : PS C T G PF PM → α} (hf : Obs f) (w : World) (t : Str) (st : ℚ)
    (r : PS C T G PF PM × Outcome) : f (finish w t st r).1 = f r.1 := by
  unfold finish; split
  · exact hf.acc _ _ _ _
  · rfl

theorem process_obs {α : Type} {f : PS C T G PF PM → α} (hf : Obs f) (I : Impl C T G PF PM) (w : World)
    (s : PS C T G PF PM) (msg : Str) :
    f (process I w s msg).1 =
      match parseMessage msg with
      | none => f s
      | some m =>
        match dispatch I w { s with ticks := s.ticks + 1 } msg m with
        | none => f s
        | some r => f r.1 := by
  unfold process
  cases parseMessage msg with
  | none => rfl
  | some m =>
    simp only [processMessage]
    cases dispatch I w { s with ticks := s.ticks + 1 } msg m with
    | none => exact hf.tick _ _
    | some r => exact finish_obs hf _ _ _ _

theorem obs_counters : Obs (fun s : PS C T G PF PM => s.counters) := ⟨fun _ _ => rfl, fun _ _ _ _ => rfl⟩
theorem obs_timers : Obs (fun s : PS C T G PF PM => s.timers) := ⟨fun _ _ => rfl, fun _ _ _ _ => rfl⟩
theorem obs_gauges : Obs (fun s : PS C T G PF PM => s.gauges) := ⟨fun _ _ => rfl, fun _ _ _ _ => rfl⟩
theorem obs_meters : Obs (fun s : PS C T G PF PM => s.meters) := ⟨fun _ _ => rfl, fun _ _ _ _ => rfl⟩
theorem obs_plugins : Obs (fun s : PS C T G PF PM => s.plugins) := ⟨fun _ _ => rfl, fun _ _ _ _ => rfl⟩
theorem obs_pluginMetrics : Obs (fun s : PS C T G PF PM => s.pluginMetrics) :=
  ⟨fun _ _ => rfl, fun _ _ _ _ => rfl⟩
theorem obs_lastFlush : Obs (fun s : PS C T G PF PM => s.lastFlush) := ⟨fun _ _ => rfl, fun _ _ _ _ => rfl⟩
theorem obs_lastProcess : Obs (fun s : PS C T G PF PM => s.lastProcess) := ⟨fun _ _ => rfl, fun _ _ _ _ => rfl⟩

end

section
variable [Rounding] {PF PM : Type}

/-! ## Counters of the MessageProcessor -/

/-- What a message does to the counters: nothing, create a key, or add an amount. -/
def counterEffectM (m : Metric) : Option (Str × Option PyFloat) :=
  if m.mtype = c!"c" then
    match parseFloat (m.fields.headD []) with
    | none => none
    | some v =>
      if m.fields.length = 3 then
        match rateMatch (m.fields.getD 2 []) with
        | none => none
        | some rt =>
          match parseFloat rt with
          | none => some (m.key, none)
          | some r =>
            match PyFloat.div (rnd 1) r with
            | .error _ => some (m.key, none)
            | .ok inv => some (m.key, some (v.mul inv))
      else
        match PyFloat.div (rnd 1) (rnd 1) with
        | .error _ => some (m.key, none)
        | .ok inv => some (m.key, some (v.mul inv))
  else none

def counterEffect (msg : Str) : Option (Str × Option PyFloat) :=
  match parseMessage msg with
  | none => none
  | some m => counterEffectM m

def applyCounter (d : Dict Num) : Option (Str × Option PyFloat) → Dict Num
  | none => d
  | some (k, none) => if d.has k then d else d.put k (.int 0)
  | some (k, some c) => d.put k (((d.find k).getD (.int 0)).add (.flt c))

theorem composeCounter_counters (s : MPState PF PM) (k : Str) (v r : PyFloat) :
    (composeCounter s k v r).1.counters =
      applyCounter s.counters (match PyFloat.div (rnd 1) r with
        | .error _ => some (k, none)
        | .ok inv => some (k, some (v.mul inv))) := by
  unfold composeCounter
  have hput : ∀ (d : Dict Num), k ∉ d.keys → ∀ a b : Num, (d.put k a).put k b = d.put k b := by
    intro d hd a b
    induction d with
    | nil => simp [Dict.put]
    | cons p rest ih =>
      obtain ⟨k', v'⟩ := p
      simp only [Dict.keys_cons, List.mem_cons, not_or] at hd
      simp [Dict.put, Ne.symm hd.1, ih hd.2]
  cases hd : PyFloat.div (rnd 1) r with
  | error e =>
    simp only [applyCounter]; split <;> rfl
  | ok inv =>
    by_cases h : s.counters.has k = true
    · simp only [h, if_true, applyCounter]
    · have hn : k ∉ s.counters.keys := by rwa [← Dict.has_iff]
      have hf : s.counters.find k = none := (Dict.find_eq_none _ _).2 hn
      simp only [h, if_false, applyCounter, hf, Dict.find_put_self, Option.getD_some, Option.getD_none,
        Bool.false_eq_true]
      exact hput _ hn _ _

theorem processCounter_counters (s : MPState PF PM) (m : Metric) (msg : Str) (hm : m.mtype = c!"c") :
    (processCounter s m.key m.fields msg).1.counters = applyCounter s.counters (counterEffectM m) := by
  unfold processCounter counterEffectM
  simp only [hm, if_true]
  cases hv : parseFloat (m.fields.headD []) with
  | none => rfl
  | some v =>
    by_cases h3 : m.fields.length = 3
    · simp only [h3, if_true]
      cases hr : rateMatch (m.fields.getD 2 []) with
      | none => rfl
      | some rt =>
        cases hp : parseFloat rt with
        | none =>
          simp only [hp, applyCounter]
          by_cases h : s.counters.has m.key = true <;> simp only [h, if_true, if_false] <;> rfl
        | some r => simp only [hp]; exact composeCounter_counters _ _ _ _
    · simp only [h3, if_false]; exact composeCounter_counters _ _ _ _

theorem process_counters (ops : PluginOps PF PM) (w : World) (s : MPState PF PM) (msg : Str) :
    (process (messageProcessor ops) w s msg).1.counters = applyCounter s.counters (counterEffect msg) := by
  rw [process_obs obs_counters]
  unfold counterEffect
  cases hp : parseMessage msg with
  | none => rfl
  | some m =>
    simp only
    unfold dispatch
    split_ifs with h1 h2 h3 h4
    · simp only; exact processCounter_counters _ m msg h1
    · simp only [processTimer, counterEffectM, h1, if_false]; split <;> rfl
    · simp only [processGauge, counterEffectM, h1, if_false]; split
      · rfl
      · split <;> rfl
    · simp only [processMeter, composeMeter, counterEffectM, h1, if_false]; split
      · rfl
      · split
        · rfl
        · split <;> rfl
    · simp only [counterEffectM, h1, if_false]
      cases s.plugins.find m.mtype with
      | none => rfl
      | some f =>
        simp only [processPlugin]
        split <;> split <;> rfl

/-! ## Timers -/

/-- What a message adds to the timers. -/
def timerEffectM (m : Metric) : Option (Str × PyFloat) :=
  if m.mtype = c!"ms" then (parseFloat (m.fields.headD [])).map fun d => (m.key, d) else none

def timerEffect (msg : Str) : Option (Str × PyFloat) :=
  match parseMessage msg with
  | none => none
  | some m => timerEffectM m

def applyTimer (d : Dict (List PyFloat)) : Option (Str × PyFloat) → Dict (List PyFloat)
  | none => d
  | some (k, x) => d.put k ((d.find k).getD [] ++ [x])

theorem process_timers (ops : PluginOps PF PM) (w : World) (s : MPState PF PM) (msg : Str) :
    (process (messageProcessor ops) w s msg).1.timers = applyTimer s.timers (timerEffect msg) := by
  rw [process_obs obs_timers]
  unfold timerEffect
  cases hp : parseMessage msg with
  | none => rfl
  | some m =>
    simp only
    unfold dispatch
    have hcm : c!"c" ≠ c!"ms" := by decide
    split_ifs with h1 h2 h3 h4
    · simp only [timerEffectM, h1, hcm, if_false, applyTimer, messageProcessor, processCounter,
        composeCounter]
      repeat' (first | rfl | split)
    · simp only [processTimer, timerEffectM, h2, if_true]
      cases parseFloat (m.fields.headD []) <;> rfl
    · simp only [processGauge, timerEffectM, h2, if_false]; split
      · rfl
      · split <;> rfl
    · simp only [processMeter, composeMeter, timerEffectM, h2, if_false]; split
      · rfl
      · split
        · rfl
        · split <;> rfl
    · simp only [timerEffectM, h2, if_false]
      cases s.plugins.find m.mtype with
      | none => rfl
      | some f => simp only [processPlugin]; split <;> split <;> rfl

/-! ## Gauges -/

def gaugeEffectM (m : Metric) : Option (Str × PyFloat) :=
  if m.mtype = c!"g" then
    if (splitOn ':' (m.fields.headD [])).length ≠ 1 then none
    else (parseFloat ((splitOn ':' (m.fields.headD [])).headD [])).map fun d => (m.key, d)
  else none

def gaugeEffect (msg : Str) : Option (Str × PyFloat) :=
  match parseMessage msg with
  | none => none
  | some m => gaugeEffectM m

def applyGauge (g : List (PyFloat × Str)) : Option (Str × PyFloat) → List (PyFloat × Str)
  | none => g
  | some (k, x) => g ++ [(x, k)]

theorem process_gauges (ops : PluginOps PF PM) (w : World) (s : MPState PF PM) (msg : Str) :
    (process (messageProcessor ops) w s msg).1.gauges = applyGauge s.gauges (gaugeEffect msg) := by
  rw [process_obs obs_gauges]
  unfold gaugeEffect
  cases hp : parseMessage msg with
  | none => rfl
  | some m =>
    simp only
    unfold dispatch
    have hcm : c!"c" ≠ c!"g" := by decide
    have hcm2 : c!"ms" ≠ c!"g" := by decide
    split_ifs with h1 h2 h3 h4
    · simp only [gaugeEffectM, h1, hcm, if_false, applyGauge, messageProcessor, processCounter,
        composeCounter]
      repeat' (first | rfl | split)
    · simp only [processTimer, gaugeEffectM, h2, hcm2, if_false]; split <;> rfl
    · simp only [processGauge, gaugeEffectM, h3, if_true]; split
      · rfl
      · cases parseFloat ((splitOn ':' (m.fields.headD [])).headD []) <;> rfl
    · simp only [processMeter, composeMeter, gaugeEffectM, h3, if_false]; split
      · rfl
      · split
        · rfl
        · split <;> rfl
    · simp only [gaugeEffectM, h3, if_false]
      cases s.plugins.find m.mtype with
      | none => rfl
      | some f => simp only [processPlugin]; split <;> split <;> rfl

/-! ## Meters (common to all processors whose counter, timer and gauge handlers leave meters alone) -/

def meterEffectM (m : Metric) : Option (Str × PyFloat) :=
  if m.mtype = c!"m" then
    if (splitOn ':' (m.fields.headD [])).length ≠ 1 then none
    else (parseFloat ((splitOn ':' (m.fields.headD [])).headD [])).map fun d => (m.key, d)
  else none

def meterEffect (msg : Str) : Option (Str × PyFloat) :=
  match parseMessage msg with
  | none => none
  | some m => meterEffectM m

def applyMeter (pre : Str) (now : ℚ) (d : Dict Meter) : Option (Str × PyFloat) → Dict Meter
  | none => d
  | some (k, x) => d.put k (((d.find k).getD (Meter.init k pre now)).mark x)

theorem process_meters (ops : PluginOps PF PM) (w : World) (s : MPState PF PM) (msg : Str) :
    (process (messageProcessor ops) w s msg).1.meters =
      applyMeter c!"stats.meter" (w.clk (s.ticks + 1)) s.meters (meterEffect msg) := by
  rw [process_obs obs_meters]
  unfold meterEffect
  cases hp : parseMessage msg with
  | none => rfl
  | some m =>
    simp only
    unfold dispatch
    have hcm : c!"c" ≠ c!"m" := by decide
    have hcm2 : c!"ms" ≠ c!"m" := by decide
    have hcm3 : c!"g" ≠ c!"m" := by decide
    split_ifs with h1 h2 h3 h4
    · simp only [meterEffectM, h1, hcm, if_false, applyMeter, messageProcessor, processCounter,
        composeCounter]
      repeat' (first | rfl | split)
    · simp only [processTimer, meterEffectM, h2, hcm2, if_false]; split <;> rfl
    · simp only [processGauge, meterEffectM, h3, hcm3, if_false]; split
      · rfl
      · split <;> rfl
    · simp only [processMeter, composeMeter, meterEffectM, h4, if_true]; split
      · rfl
      · cases parseFloat ((splitOn ':' (m.fields.headD [])).headD []) with
        | none => rfl
        | some v =>
          simp only [Option.map_some, applyMeter]
          cases s.meters.find m.key <;> rfl
    · simp only [meterEffectM, h4, if_false]
      cases s.plugins.find m.mtype with
      | none => rfl
      | some f => simp only [processPlugin]; split <;> split <;> rfl

end
end Txstatsd
