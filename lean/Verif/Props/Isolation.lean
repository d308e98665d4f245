import Verif.Lemmas.Isolation
import Verif.Props.Counters

/-!
# C09-C11: isolation, malformed values, bad rates
-/

namespace Txstatsd
open Spec
section
variable [Rounding] {PF PM : Type}

/-- C09: a message for key `k` leaves everything stored for another key unchanged: counter, timer, meter,
plugin metric and the gauge readings, in every state. -/
theorem C09_other_keys (ops : PluginOps PF PM) (w : World) (s : MPState PF PM) (msg t k k' : Str) (fields : List Str)
    (h : Parsed msg t k fields) (hk : k' ≠ k) :
    let s' := (process (messageProcessor ops) w s msg).1
    s'.counters.find k' = s.counters.find k' ∧ s'.timers.find k' = s.timers.find k' ∧
      s'.meters.find k' = s.meters.find k' ∧ s'.pluginMetrics.find k' = s.pluginMetrics.find k' ∧
      (s'.gauges.filter fun p => decide (p.2 = k')) = s.gauges.filter fun p => decide (p.2 = k') := by
  have hp := parsed_iff.1 h
  intro s'
  refine ⟨?_, ?_, ?_, process_pluginMetrics_ne ops w s hp hk, ?_⟩
  · show (process (messageProcessor ops) w s msg).1.counters.find k' = _
    rw [process_counters]
    rcases he : counterEffect msg with _ | ⟨k1, _ | c⟩
    · rfl
    · have : k1 = k := counterEffect_parsed h he
      subst this
      simp only [applyCounter]; split
      · rfl
      · exact Dict.find_put_ne _ _ hk
    · have : k1 = k := counterEffect_parsed h he
      subst this
      exact Dict.find_put_ne _ _ hk
  · show (process (messageProcessor ops) w s msg).1.timers.find k' = _
    rw [process_timers]
    unfold timerEffect timerEffectM
    rw [hp]
    simp only
    split
    · cases parseFloat (fields.headD []) with
      | none => rfl
      | some d => exact Dict.find_put_ne _ _ hk
    · rfl
  · show (process (messageProcessor ops) w s msg).1.meters.find k' = _
    rw [process_meters]
    unfold meterEffect meterEffectM
    rw [hp]
    simp only
    split
    · split
      · rfl
      · cases parseFloat ((splitOn ':' (fields.headD [])).headD []) with
        | none => rfl
        | some d => exact Dict.find_put_ne _ _ hk
    · rfl
  · show ((process (messageProcessor ops) w s msg).1.gauges.filter _) = _
    rw [process_gauges]
    unfold gaugeEffect gaugeEffectM
    rw [hp]
    simp only
    split
    · split
      · rfl
      · cases parseFloat ((splitOn ':' (fields.headD [])).headD []) with
        | none => rfl
        | some d => simp [applyGauge, Ne.symm hk]
    · rfl

/-- C09: a message of one type leaves the collections of all other built-in types unchanged, and a message
of a built-in type leaves the plugin metrics unchanged. -/
theorem C09_other_types (ops : PluginOps PF PM) (w : World) (s : MPState PF PM) (msg t k : Str) (fields : List Str)
    (h : Parsed msg t k fields) :
    let s' := (process (messageProcessor ops) w s msg).1
    (t ≠ c!"c" → s'.counters = s.counters) ∧ (t ≠ c!"ms" → s'.timers = s.timers) ∧
      (t ≠ c!"g" → s'.gauges = s.gauges) ∧ (t ≠ c!"m" → s'.meters = s.meters) ∧
      (t ∈ [c!"c", c!"ms", c!"g", c!"m"] → s'.pluginMetrics = s.pluginMetrics) := by
  have hp := parsed_iff.1 h
  refine ⟨fun ht => ?_, fun ht => ?_, fun ht => ?_, fun ht => ?_, fun ht => ?_⟩
  · rw [process_counters, counterEffect, hp]; simp [counterEffectM, ht, applyCounter]
  · rw [process_timers, timerEffect, hp]; simp [timerEffectM, ht, applyTimer]
  · rw [process_gauges, gaugeEffect, hp]; simp [gaugeEffectM, ht, applyGauge]
  · rw [process_meters, meterEffect, hp]; simp [meterEffectM, ht, applyMeter]
  · exact process_pluginMetrics_builtin ops w s hp ht

/-- C09: what the next flush reports for a counter does not depend on a message for another key or of another
type (only its timestamp can, through the clock). -/
theorem C09_reported (ops : PluginOps PF PM) (hq : Quiet ops c!"stats_counts.") (plugins : List PF) (w : World)
    (os : List Op) (msg t k k' : Str) (fields : List Str) (h : Parsed msg t k fields) (hk : k' ≠ k ∨ t ≠ c!"c")
    (interval percent : ℤ) (hi : 1000 ≤ interval) :
    let s := (runOps (messageProcessor ops) w (MPState.init ops plugins) os).1
    (named (c!"stats_counts." ++ k')
        (flush (messageProcessor ops) w interval percent (process (messageProcessor ops) w s msg).1).2.1).map
        Datapoint.value =
      (named (c!"stats_counts." ++ k') (flush (messageProcessor ops) w interval percent s).2.1).map
        Datapoint.value := by
  intro s
  have hwf : MPWf ops s := mpwf_runOps ops w (mpwf_init ops plugins) os
  rw [flush_named_counts ops hq w hi percent hwf, flush_named_counts ops hq w hi percent (mpwf_process ops w hwf msg)]
  have : (process (messageProcessor ops) w s msg).1.counters.find k' = s.counters.find k' := by
    rcases hk with hk | ht
    · exact (C09_other_keys ops w s msg t k k' fields h hk).1
    · rw [(C09_other_types ops w s msg t k fields h).1 ht]
  rw [this]
  cases s.counters.find k' <;> rfl

/-- The aggregates of a processor. -/
def aggregates (s : MPState PF PM) :=
  (s.counters, s.timers, s.gauges, s.meters, s.pluginMetrics, s.plugins)

/-- C10: a counter or timer message whose value is not a number is logged as bad, changes no aggregate, raises
nothing, and is counted in the receive statistics. -/
theorem C10_counter_timer (ops : PluginOps PF PM) (w : World) (s : MPState PF PM) (msg t k f0 : Str)
    (fields : List Str) (h : Parsed msg t k (f0 :: fields)) (ht : t = c!"c" ∨ t = c!"ms")
    (hv : parseFloat f0 = none) :
    let r := process (messageProcessor ops) w s msg
    aggregates r.1 = aggregates s ∧ r.2 = { bad := [msg], exc := none } ∧
      r.1.byType.find t = some ((s.byType.find t).getD 0 + 1) := by
  rw [process_parsed ops w s h]
  rcases ht with rfl | rfl
  · simp [processMessage, dispatch, messageProcessor, processCounter, hv, finish, account, aggregates]
  · simp [processMessage, dispatch, messageProcessor, processTimer, hv, finish, account, aggregates]

/-- C10: a gauge or meter message whose value is not a number is logged as bad and then raises
`UnboundLocalError`; it changes no aggregate and is not counted. -/
theorem C10_gauge_meter (ops : PluginOps PF PM) (w : World) (s : MPState PF PM) (msg t k f0 : Str)
    (fields : List Str) (h : Parsed msg t k (f0 :: fields)) (ht : t = c!"g" ∨ t = c!"m")
    (hv : parseFloat f0 = none) (hc : ':' ∉ f0) :
    let r := process (messageProcessor ops) w s msg
    aggregates r.1 = aggregates s ∧ r.2 = { bad := [msg], exc := some .unboundLocalError } ∧
      r.1.byType = s.byType := by
  rw [process_parsed ops w s h]
  rcases ht with rfl | rfl
  · simp [processMessage, dispatch, messageProcessor, processGauge, hv, finish, account, aggregates,
      splitOn_of_not_mem hc]
  · simp [processMessage, dispatch, messageProcessor, processMeter, hv, finish, account, aggregates,
      splitOn_of_not_mem hc]

/-- C10: a gauge or meter message whose value contains a colon is logged as bad, changes no aggregate, raises
nothing and is counted. -/
theorem C10_gauge_meter_colon (ops : PluginOps PF PM) (w : World) (s : MPState PF PM) (msg t k f0 : Str)
    (fields : List Str) (h : Parsed msg t k (f0 :: fields)) (ht : t = c!"g" ∨ t = c!"m") (hc : ':' ∈ f0) :
    let r := process (messageProcessor ops) w s msg
    aggregates r.1 = aggregates s ∧ r.2 = { bad := [msg], exc := none } ∧
      r.1.byType.find t = some ((s.byType.find t).getD 0 + 1) := by
  rw [process_parsed ops w s h]
  have hl : (splitOn ':' f0).length ≠ 1 := by
    intro hl
    obtain ⟨x, hx⟩ := List.length_eq_one_iff.1 hl
    have h1 := join_splitOn ':' f0
    have h2 := splitOn_parts ':' f0 x (by simp [hx])
    rw [hx] at h1
    simp [joinWith] at h1
    rw [h1] at h2; exact h2 hc
  rcases ht with rfl | rfl
  · simp [processMessage, dispatch, messageProcessor, processGauge, hl, finish, account, aggregates]
  · simp [processMessage, dispatch, messageProcessor, processMeter, hl, finish, account, aggregates]

/-- C11: a counter message whose third field does not start with `@` and a digit or dot is logged as bad and
changes no aggregate. -/
theorem C11_no_rate (ops : PluginOps PF PM) (w : World) (s : MPState PF PM) (msg k f0 f2 : Str)
    (h : Parsed msg c!"c" k [f0, c!"c", f2])
    (hr : ∀ c rest, f2 = '@' :: c :: rest → ¬ (c.isDigit = true ∨ c = '.')) :
    let r := process (messageProcessor ops) w s msg
    aggregates r.1 = aggregates s ∧ r.2 = { bad := [msg], exc := none } := by
  rw [process_parsed ops w s h]
  have hn : rateMatch f2 = none := by
    cases hm : rateMatch f2 with
    | none => rfl
    | some g =>
      obtain ⟨rest, e1, e2, e3, _⟩ := rateMatch_some.1 hm
      cases g with
      | nil => exact absurd rfl e2
      | cons c g => exact absurd (e3 c (by simp)) (hr c (g ++ rest) (by simpa using e1))
  cases hv : parseFloat f0 with
  | none => simp [processMessage, dispatch, messageProcessor, processCounter, hv, finish, account, aggregates]
  | some v => simp [processMessage, dispatch, messageProcessor, processCounter, hv, hn, finish, account, aggregates]

/-- C11: a counter message whose rate text is not a number, or is a zero, raises (`ValueError` or
`ZeroDivisionError`); the value of no counter changes, at most the key starts to exist with value 0, and no other
aggregate changes. -/
theorem C11_bad_rate (ops : PluginOps PF PM) (w : World) (s : MPState PF PM) (msg k f0 digits rest : Str)
    (v : PyFloat) (h : Parsed msg c!"c" k [f0, c!"c", '@' :: (digits ++ rest)]) (hv : parseFloat f0 = some v)
    (hne : digits ≠ []) (hd : ∀ c ∈ digits, c.isDigit = true ∨ c = '.')
    (hrest : ∀ c, rest.head? = some c → ¬ (c.isDigit = true ∨ c = '.'))
    (hbad : parseFloat digits = none ∨ parseFloat digits = some (.fin 0)) :
    let r := process (messageProcessor ops) w s msg
    r.2 = { bad := [], exc := some (if parseFloat digits = none then .valueError else .zeroDivisionError) } ∧
      (∀ k', (r.1.counters.find k').getD (.int 0) = (s.counters.find k').getD (.int 0)) ∧
      (∀ k', k' ∈ r.1.counters.keys ↔ k' = k ∨ k' ∈ s.counters.keys) ∧
      r.1.timers = s.timers ∧ r.1.gauges = s.gauges ∧ r.1.meters = s.meters ∧
      r.1.pluginMetrics = s.pluginMetrics := by
  have hm : rateMatch ('@' :: (digits ++ rest)) = some digits := rateMatch_some.2 ⟨rest, rfl, hne, hd, hrest⟩
  have hce : counterEffect msg = some (k, none) := by
    unfold counterEffect
    rw [parsed_iff.1 h]
    rcases hbad with hb | hb
    · simp [counterEffectM, hv, hm, hb]
    · simp [counterEffectM, hv, hm, hb, div_zero]
  obtain ⟨-, a2, a3, a4, a5⟩ := C09_other_types ops w s msg _ k _ h
  refine ⟨?_, ?_, ?_, a2 (by decide), a3 (by decide), a4 (by decide), a5 (by decide)⟩
  · rw [process_parsed ops w s h]
    rcases hbad with hb | hb
    · simp [processMessage, dispatch, messageProcessor, processCounter, hv, hm, hb, finish]
    · simp [processMessage, dispatch, messageProcessor, processCounter, composeCounter, hv, hm, hb, div_zero, finish]
  · intro k'
    rw [process_counters, hce]
    simp only [applyCounter]
    split
    · rfl
    · rename_i hh
      rw [Dict.find_put]
      split
      · rename_i e; subst e
        have : k' ∉ s.counters.keys := by rwa [← Dict.has_iff]
        rw [(Dict.find_eq_none _ _).2 this]; rfl
      · rfl
  · intro k'
    rw [process_counters, hce]
    simp only [applyCounter]
    split
    · rename_i hh
      constructor
      · exact Or.inr
      · rintro (rfl | h)
        · exact (Dict.has_iff _ _).1 hh
        · exact h
    · exact Dict.mem_keys_put _ _ _ _

end

/-! ## The hypotheses can be met -/

section
attribute [local instance] ratRounding

example : Parsed c!"a b:3|c" c!"c" c!"a_b" [c!"3", c!"c"] := parsed_iff.2 (by decide +kernel)
example : Parsed c!"a:x|g" c!"g" c!"a" [c!"x", c!"g"] ∧ parseFloat c!"x" = none ∧ ':' ∉ c!"x" :=
  ⟨parsed_iff.2 (by decide +kernel), by decide +kernel, by decide⟩
example : Parsed c!"a:1:2|m" c!"m" c!"a" [c!"1:2", c!"m"] := parsed_iff.2 (by decide +kernel)
example : Parsed c!"a:1|c|0.5" c!"c" c!"a" [c!"1", c!"c", c!"0.5"] := parsed_iff.2 (by decide +kernel)
example : Parsed c!"a:1|c|@0.0x" c!"c" c!"a" [c!"1", c!"c", '@' :: (c!"0.0" ++ c!"x")] ∧
    parseFloat c!"0.0" = some (.fin 0) := ⟨parsed_iff.2 (by decide +kernel), by decide +kernel⟩
example : parseFloat c!"1.2.3" = none := by decide +kernel

end
end Txstatsd
