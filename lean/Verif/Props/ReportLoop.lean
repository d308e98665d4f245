import Verif.Lemmas.ReportLoop
import Verif.Props.HostService

/-!
# C161: when the reports are made, and how old the statistics in a flush are
-/

set_option linter.unusedVariables false
set_option linter.unusedSectionVars false

namespace Txstatsd
open Spec
section
variable [Rounding] {C T G PF PM : Type}

/-- Reports with their periods, none of them started. -/
abbrev loopsOf (jobs : List (HostReport × ℤ)) : List ReportLoop := jobs.map fun j => { report := j.1, period := j.2 }

/-- A service of the default processor with scheduled reports. -/
abbrev timedFresh (ops : PluginOps PF PM) (plugins : List PF) (ext : Bool) (jobs : List (HostReport × ℤ)) :
    TimedHost Num (List PyFloat) (List (PyFloat × Str)) PF PM :=
  { loops := loopsOf jobs
    host := { self := { client := { conn := true, namespc := some [], ext := ext }, ps := MPState.init ops plugins } } }

/-- Likewise of the configurable processor. -/
abbrev timedFreshC (ops : PluginOps PF PM) (plugins : List PF) (ext : Bool) (jobs : List (HostReport × ℤ)) :
    TimedHost CounterRep TimerRep (Dict GaugeRep) PF PM :=
  { loops := loopsOf jobs
    host := { self := { client := { conn := true, namespc := some [], ext := ext }, ps := CPState.init ops plugins } } }

theorem loopsOf_inv (jobs : List (HostReport × ℤ)) (hj : ∀ j ∈ jobs, 0 ≤ j.2) : ∀ l ∈ loopsOf jobs, l.running = false ∧ 0 ≤ l.period := by
  intro l hl
  obtain ⟨j, h, rfl⟩ := List.mem_map.1 hl
  exact ⟨rfl, hj j h⟩

/-- The loops just after a start. -/
theorem started_loop (j : HostReport × ℤ) (before : List (ℚ × HostEvent)) (hb : StoppedAgain before) (s : ℚ) :
    let l := (({ report := j.1, period := j.2 } : ReportLoop).over before).step s .start
    l.running = true ∧ l.report = j.1 ∧ l.period = j.2 ∧ l.startTime = s ∧ l.due = some (nextCall s j.2 s) := by
  intro l
  have h1 : (({ report := j.1, period := j.2 } : ReportLoop).over before).running = false := by
    rw [over_running]; exact up_false before hb
  have h2 := over_report before ({ report := j.1, period := j.2 } : ReportLoop)
  simp only at h2
  simp [l, ReportLoop.step, h1, h2.1, h2.2]

theorem last_timed (env : ℚ → HostMoment) (jobs : List (HostReport × ℤ)) (k : HostReport) (p : ℤ) (hk : (k, p) ∈ jobs) (hp : 0 < p)
    (before since : List (ℚ × HostEvent)) (s : ℚ) (hb : StoppedAgain before) (hs : NeverStopped since) (hf : Forward since)
    (x : ℚ) (hx : x ∈ clockReadings since) (hsx : s + p ≤ x) :
    ∃ u ∈ clockReadings since, x - p < u ∧ LastCall (timedOps env (loopsOf jobs) (before ++ (s, .start) :: since)) k (env u) := by
  obtain ⟨h1, h2, h3, h4, h5⟩ := started_loop (k, p) before hb s
  have hn : nextCall s p s ≤ x := by
    unfold nextCall; rw [if_neg (by omega)]; simpa using hsx
  obtain ⟨u, hu, hu1, b, a, e1, e2⟩ := fresh_since env k hp since
    (((loopsOf jobs).map fun l => l.over before).map fun l => l.step s .start) _
    (List.mem_map_of_mem (List.mem_map_of_mem (List.mem_map_of_mem hk))) h1 h2 h3 (nextCall s p s) h5 hs hf x hx hn
  refine ⟨u, hu, hu1, hostCalls (timedOps env (loopsOf jobs) before) ++ b, a, ?_, e2⟩
  rw [timedOps_append, timedOps, hostCalls_append, hostCalls_append, e1, List.append_assoc]
  rfl

/-- The values of a report in a flush are those of a moment less than a period before the clock was last read. -/
theorem timed_latest (ops : PluginOps PF PM) (hq : Quiet ops c!"stats.gauge.") (plugins : List PF) (w : World)
    (inst : Str) (ext : Bool) (env : ℚ → HostMoment) (henv : LegalEnv inst env)
    (jobs : List (HostReport × ℤ)) (hj : ∀ j ∈ jobs, 0 ≤ j.2) (k : HostReport) (p : ℤ) (hk : (k, p) ∈ jobs) (hp : 0 < p)
    (before since : List (ℚ × HostEvent)) (s : ℚ) (hb : StoppedAgain before) (hs : NeverStopped since) (hf : Forward since)
    (x : ℚ) (hx : x ∈ clockReadings since) (hsx : s + p ≤ x) (name : Str) (val : ℚ → Num) (y : ℚ → PyFloat)
    (hval : ∀ u ∈ clockReadings since, ∀ g : HostGens, ∃ d, (g.call (env u) k).2 = .ok d ∧ d.Wf ∧ d.find name = some (val u))
    (hy : ∀ u ∈ clockReadings since, parseFloat ((val u).render pyStr) = some (y u))
    (ho : ∀ m ∈ timedOutside (before ++ (s, .start) :: since), ∀ v, ¬ Reading c!"g" (reportedAs inst name) m v) (interval percent : ℤ) :
    let st := ((timedFresh ops plugins ext jobs).run (messageProcessor ops) w pyStr inst env (before ++ (s, .start) :: since)).host.self.ps
    let r := flush (messageProcessor ops) w interval percent st
    r.2.2 = none → ∃ u ∈ clockReadings since, x - p < u ∧
    (named (c!"stats.gauge." ++ reportedAs inst name ++ c!".value") r.2.1).getLast? =
      some ⟨c!"stats.gauge." ++ reportedAs inst name ++ c!".value", .flt (y u), truncQ (w.clk st.ticks)⟩ := by
  intro st r hok
  obtain ⟨u, hu, hu1, hl⟩ := last_timed env jobs k p hk hp before since s hb hs hf x hx hsx
  have hrun := (timed_run (messageProcessor ops) w pyStr inst env (before ++ (s, .start) :: since) false (timedFresh ops plugins ext jobs)
    (loopsOf_inv jobs hj)).2
  have hst : st = hostService ops plugins w inst ext (timedOps env (loopsOf jobs) (before ++ (s, .start) :: since)) :=
    congrArg (fun h : HostState _ _ _ PF PM => h.self.ps) hrun
  refine ⟨u, hu, hu1, ?_⟩
  have := host_latest ops hq plugins w inst ext (timedOps env (loopsOf jobs) (before ++ (s, .start) :: since))
    (henv _ fun c hc => by obtain ⟨t, _, h⟩ := timedOps_calls env _ _ c hc; exact ⟨t, h⟩)
    (env u) k hl name (val u) (y u) (hval u hu) (hy u hu) (by rw [timedOps_outside]; exact ho) interval percent
  rw [← hst] at this
  exact this hok

theorem timed_latest_configurable (ops : PluginOps PF PM) (pre int : Str) (plugins : List PF) (w : World)
    (inst : Str) (ext : Bool) (env : ℚ → HostMoment) (henv : LegalEnv inst env)
    (jobs : List (HostReport × ℤ)) (hj : ∀ j ∈ jobs, 0 ≤ j.2) (k : HostReport) (p : ℤ) (hk : (k, p) ∈ jobs) (hp : 0 < p)
    (before since : List (ℚ × HostEvent)) (s : ℚ) (hb : StoppedAgain before) (hs : NeverStopped since) (hf : Forward since)
    (x : ℚ) (hx : x ∈ clockReadings since) (hsx : s + p ≤ x) (name : Str) (val : ℚ → Num) (y : ℚ → PyFloat)
    (hval : ∀ u ∈ clockReadings since, ∀ g : HostGens, ∃ d, (g.call (env u) k).2 = .ok d ∧ d.Wf ∧ d.find name = some (val u))
    (hy : ∀ u ∈ clockReadings since, parseFloat ((val u).render pyStr) = some (y u))
    (ho : ∀ m ∈ timedOutside (before ++ (s, .start) :: since), ∀ v, ¬ Reading c!"g" (reportedAs inst name) m v) (interval percent : ℤ) :
    let st := ((timedFreshC ops plugins ext jobs).run (configurable ops pre int) w pyStr inst env
      (before ++ (s, .start) :: since)).host.self.ps
    let r := flush (configurable ops pre int) w interval percent st
    r.2.2 = none → ∃ u ∈ clockReadings since, x - p < u ∧
    (⟨prefixed pre (reportedAs inst name) c!".value", .flt (y u), truncQ (w.clk st.ticks)⟩ : Datapoint) ∈ r.2.1 := by
  intro st r hok
  obtain ⟨u, hu, hu1, hl⟩ := last_timed env jobs k p hk hp before since s hb hs hf x hx hsx
  have hrun := (timed_run (configurable ops pre int) w pyStr inst env (before ++ (s, .start) :: since) false
    (timedFreshC ops plugins ext jobs) (loopsOf_inv jobs hj)).2
  have hst : st = hostServiceC ops pre int plugins w inst ext (timedOps env (loopsOf jobs) (before ++ (s, .start) :: since)) :=
    congrArg (fun h : HostState _ _ _ PF PM => h.self.ps) hrun
  refine ⟨u, hu, hu1, ?_⟩
  have := host_latest_configurable ops pre int plugins w inst ext (timedOps env (loopsOf jobs) (before ++ (s, .start) :: since))
    (henv _ fun c hc => by obtain ⟨t, _, h⟩ := timedOps_calls env _ _ c hc; exact ⟨t, h⟩)
    (env u) k hl name (val u) (y u) (hval u hu) (hy u hu) (by rw [timedOps_outside]; exact ho) interval percent
  rw [← hst] at this
  exact this hok

/-- C161: the service is started at `s` (perhaps not for the first time) and not stopped since; its report about the process has a period
of `p` seconds. If the clock has been read at `x`, at least one period after the start, a completed flush shows memory and threads as
`psutil` gave them at a moment later than `x - p`. -/
theorem C161_process [IntExact] (ops : PluginOps PF PM) (hq : Quiet ops c!"stats.gauge.") (plugins : List PF) (w : World)
    (inst : Str) (ext : Bool) (env : ℚ → HostMoment) (henv : LegalEnv inst env)
    (jobs : List (HostReport × ℤ)) (hj : ∀ j ∈ jobs, 0 ≤ j.2) (p : ℤ) (hk : (.process, p) ∈ jobs) (hp : 0 < p)
    (before since : List (ℚ × HostEvent)) (s : ℚ) (hb : StoppedAgain before) (hs : NeverStopped since) (hf : Forward since)
    (x : ℚ) (hx : x ∈ clockReadings since) (hsx : s + p ≤ x)
    (vsize rss : ℚ → ℤ) (hmem : ∀ t ∈ clockReadings since, (env t).memory = [.int (vsize t), .int (rss t)]) (name : Str) (z : ℚ → ℤ)
    (hz : ∀ t ∈ clockReadings since, |z t| ≤ 2 ^ 53)
    (hn : name = c!"memory.vsize" ∧ z = vsize ∨ name = c!"memory.rss" ∧ z = rss ∨
      name = c!"threads" ∧ ∀ t ∈ clockReadings since, (env t).threads = some (.int (z t)))
    (ho : ∀ m ∈ timedOutside (before ++ (s, .start) :: since), ∀ v, ¬ Reading c!"g" (reportedAs inst (c!"proc." ++ name)) m v)
    (interval percent : ℤ) :
    let st := ((timedFresh ops plugins ext jobs).run (messageProcessor ops) w pyStr inst env (before ++ (s, .start) :: since)).host.self.ps
    let r := flush (messageProcessor ops) w interval percent st
    r.2.2 = none → ∃ u ∈ clockReadings since, x - p < u ∧
    (named (c!"stats.gauge." ++ reportedAs inst (c!"proc." ++ name) ++ c!".value") r.2.1).getLast? =
      some ⟨c!"stats.gauge." ++ reportedAs inst (c!"proc." ++ name) ++ c!".value", .flt (.fin (z u)), truncQ (w.clk st.ticks)⟩ :=
  timed_latest ops hq plugins w inst ext env henv jobs hj .process p hk hp before since s hb hs hf x hx hsx _ (fun u => .int (z u))
    (fun u => .fin (z u))
    (fun u hu => process_call (hmem u hu) (by
      rcases hn with ⟨rfl, rfl⟩ | ⟨rfl, rfl⟩ | ⟨rfl, ht⟩
      · simp
      · simp
      · simp [ht u hu])) (fun u hu => int_text (hz u hu)) ho interval percent

/-- C161: likewise on the configurable processor. -/
theorem C161_process_configurable [IntExact] (ops : PluginOps PF PM) (pre int : Str) (plugins : List PF) (w : World)
    (inst : Str) (ext : Bool) (env : ℚ → HostMoment) (henv : LegalEnv inst env)
    (jobs : List (HostReport × ℤ)) (hj : ∀ j ∈ jobs, 0 ≤ j.2) (p : ℤ) (hk : (.process, p) ∈ jobs) (hp : 0 < p)
    (before since : List (ℚ × HostEvent)) (s : ℚ) (hb : StoppedAgain before) (hs : NeverStopped since) (hf : Forward since)
    (x : ℚ) (hx : x ∈ clockReadings since) (hsx : s + p ≤ x)
    (vsize rss : ℚ → ℤ) (hmem : ∀ t ∈ clockReadings since, (env t).memory = [.int (vsize t), .int (rss t)]) (name : Str) (z : ℚ → ℤ)
    (hz : ∀ t ∈ clockReadings since, |z t| ≤ 2 ^ 53)
    (hn : name = c!"memory.vsize" ∧ z = vsize ∨ name = c!"memory.rss" ∧ z = rss ∨
      name = c!"threads" ∧ ∀ t ∈ clockReadings since, (env t).threads = some (.int (z t)))
    (ho : ∀ m ∈ timedOutside (before ++ (s, .start) :: since), ∀ v, ¬ Reading c!"g" (reportedAs inst (c!"proc." ++ name)) m v)
    (interval percent : ℤ) :
    let st := ((timedFreshC ops plugins ext jobs).run (configurable ops pre int) w pyStr inst env
      (before ++ (s, .start) :: since)).host.self.ps
    let r := flush (configurable ops pre int) w interval percent st
    r.2.2 = none → ∃ u ∈ clockReadings since, x - p < u ∧
    (⟨prefixed pre (reportedAs inst (c!"proc." ++ name)) c!".value", .flt (.fin (z u)), truncQ (w.clk st.ticks)⟩ : Datapoint) ∈ r.2.1 :=
  timed_latest_configurable ops pre int plugins w inst ext env henv jobs hj .process p hk hp before since s hb hs hf x hx hsx _
    (fun u => .int (z u)) (fun u => .fin (z u))
    (fun u hu => process_call (hmem u hu) (by
      rcases hn with ⟨rfl, rfl⟩ | ⟨rfl, rfl⟩ | ⟨rfl, ht⟩
      · simp
      · simp
      · simp [ht u hu])) (fun u hu => int_text (hz u hu)) ho interval percent

/-- C161: and the memory of the machine as `/proc/meminfo` gave it at a moment later than `x - p`. -/
theorem C161_memory [IntExact] (ops : PluginOps PF PM) (hq : Quiet ops c!"stats.gauge.") (plugins : List PF) (w : World)
    (inst : Str) (ext : Bool) (env : ℚ → HostMoment) (henv : LegalEnv inst env)
    (jobs : List (HostReport × ℤ)) (hj : ∀ j ∈ jobs, 0 ≤ j.2) (p : ℤ) (hk : (.sys .meminfo, p) ∈ jobs) (hp : 0 < p)
    (before since : List (ℚ × HostEvent)) (s : ℚ) (hb : StoppedAgain before) (hs : NeverStopped since) (hf : Forward since)
    (x : ℚ) (hx : x ∈ clockReadings since) (hsx : s + p ≤ x)
    (text : ℚ → Str) (hfile : ∀ t ∈ clockReadings since, (env t).sys.files c!"/proc/meminfo" = some (text t))
    (hl : ∀ t ∈ clockReadings since, ∀ l ∈ splitOn '\n' (text t), OtherLine l ∨ ∃ label v, MemLine l label v)
    (label : Str) (z : ℚ → ℤ) (hz : ∀ t ∈ clockReadings since, LastWith (fun l v => MemLine l label v) (splitOn '\n' (text t)) (z t))
    (hbd : ∀ t ∈ clockReadings since, |z t| ≤ 2 ^ 53)
    (ho : ∀ m ∈ timedOutside (before ++ (s, .start) :: since), ∀ v, ¬ Reading c!"g" (reportedAs inst (c!"sys.mem." ++ label)) m v)
    (interval percent : ℤ) :
    let st := ((timedFresh ops plugins ext jobs).run (messageProcessor ops) w pyStr inst env (before ++ (s, .start) :: since)).host.self.ps
    let r := flush (messageProcessor ops) w interval percent st
    r.2.2 = none → ∃ u ∈ clockReadings since, x - p < u ∧
    (named (c!"stats.gauge." ++ reportedAs inst (c!"sys.mem." ++ label) ++ c!".value") r.2.1).getLast? =
      some ⟨c!"stats.gauge." ++ reportedAs inst (c!"sys.mem." ++ label) ++ c!".value", .flt (.fin (z u)), truncQ (w.clk st.ticks)⟩ :=
  timed_latest ops hq plugins w inst ext env henv jobs hj _ p hk hp before since s hb hs hf x hx hsx _ (fun u => .int (z u))
    (fun u => .fin (z u)) (fun u hu g => memory_call (hfile u hu) (hl u hu) (hz u hu) g.sys) (fun u hu => int_text (hbd u hu)) ho interval percent

theorem times_since (I : Impl C T G PF PM) (w : World) (fmt : PyFloat → Str) (inst : Str) (env : ℚ → HostMoment)
    (host : HostState C T G PF PM) (ja jb : List (HostReport × ℤ)) (k : HostReport) (p : ℤ) (hp : 0 ≤ p)
    (hj : ∀ j ∈ ja ++ jb, 0 ≤ j.2 ∧ j.1 ≠ k) (before since : List (ℚ × HostEvent)) (s : ℚ) (hb : StoppedAgain before)
    (hs : NeverStopped since) :
    let v : TimedHost C T G PF PM := { loops := loopsOf (ja ++ (k, p) :: jb), host := host }
    ∃ os, (v.run I w fmt inst env (before ++ (s, .start) :: since)).host = (v.run I w fmt inst env before).host.run I w fmt inst os ∧
      hostOutside os = timedOutside since ∧
      (hostCalls os).filter (fun c => c.2 = k) = (callsFrom s p (nextCall s p s) (clockReadings since)).map (fun t => (env t, k)) := by
  intro v
  have hinv : ∀ l ∈ v.loops, l.running = false ∧ 0 ≤ l.period := by
    refine loopsOf_inv _ fun j h => ?_
    rcases List.mem_append.1 h with h | h
    · exact (hj j (List.mem_append_left _ h)).1
    · rcases List.mem_cons.1 h with rfl | h
      · exact hp
      · exact (hj j (List.mem_append_right _ h)).1
  have r1 := (timed_run I w fmt inst env (before ++ (s, .start) :: since) false v hinv).2
  have r2 := (timed_run I w fmt inst env before false v hinv).2
  let st : ReportLoop → ReportLoop := fun l => (l.over before).step s .start
  refine ⟨timedOps env (v.loops.map st) since, ?_, timedOps_outside env since _, ?_⟩
  · rw [r1, r2, timedOps_append, timedOps]
    simp only [HostState.run, List.foldl_append]
    have hm : ∀ (f : ReportLoop → ReportLoop) (ls : List ReportLoop),
        (ls.map fun l => l.over before).map f = ls.map fun l => f (l.over before) :=
      fun f ls => List.map_map
    rw [hm]
    rfl
  · obtain ⟨h1, h2, h3, h4, h5⟩ := started_loop (k, p) before hb s
    show (hostCalls (timedOps env ((loopsOf (ja ++ (k, p) :: jb)).map st) since)).filter _ = _
    rw [loopsOf, List.map_append, List.map_cons, List.map_append, List.map_cons]
    refine calls_since env k s p since _ _ _ ?_ h1 h2 h3 h4 _ h5 hs
    intro l hl
    rw [← List.map_append, ← List.map_append] at hl
    obtain ⟨l', hl', rfl⟩ := List.mem_map.1 hl
    obtain ⟨j, hj', rfl⟩ := List.mem_map.1 hl'
    show ((ReportLoop.over _ before).step s .start).report ≠ k
    rw [step_report, (over_report before _).1]
    exact (hj j hj').2

/-- C161: from a start at `s` to the next stop, a report with a period of `p` seconds is made at readings of the clock only, not in the
first period, and not twice in the same period after `s`; a reading in a period without a report so far makes one. What the reports say
and what arrives meanwhile is all that happens to the service. -/
theorem C161_times (I : Impl C T G PF PM) (w : World) (fmt : PyFloat → Str) (inst : Str) (env : ℚ → HostMoment)
    (host : HostState C T G PF PM) (ja jb : List (HostReport × ℤ)) (k : HostReport) (p : ℤ) (hp : 0 < p)
    (hj : ∀ j ∈ ja ++ jb, 0 ≤ j.2 ∧ j.1 ≠ k) (before since : List (ℚ × HostEvent)) (s : ℚ) (hb : StoppedAgain before)
    (hs : NeverStopped since) :
    let v : TimedHost C T G PF PM := { loops := loopsOf (ja ++ (k, p) :: jb), host := host }
    ∃ (os : List HostOp) (new : List ℚ),
      (v.run I w fmt inst env (before ++ (s, .start) :: since)).host = (v.run I w fmt inst env before).host.run I w fmt inst os ∧
      hostOutside os = timedOutside since ∧ (hostCalls os).filter (fun c => c.2 = k) = new.map (fun t => (env t, k)) ∧
      new.Sublist (clockReadings since) ∧ (∀ t ∈ new, s + p ≤ t) ∧
      new.Pairwise (fun t t' => ⌊(t - s) / p⌋ < ⌊(t' - s) / p⌋) ∧
      ∀ t ∈ clockReadings since, s + p ≤ t → ∃ t' ∈ new, ⌊(t - s) / p⌋ ≤ ⌊(t' - s) / p⌋ := by
  intro v
  obtain ⟨os, h1, h2, h3⟩ := times_since I w fmt inst env host ja jb k p hp.le hj before since s hb hs
  have hn : nextCall s p s = s + p * ((1 : ℤ) : ℚ) := by
    unfold nextCall; rw [if_neg (by omega)]; simp
  rw [hn] at h3
  refine ⟨os, _, h1, h2, h3, callsFrom_sublist .., ?_, List.pairwise_map.mp (callsFrom_spaced (s := s) hp _ 1).1, ?_⟩
  · intro t ht
    simpa using (floor_ge_iff hp 1).mp ((callsFrom_spaced (s := s) hp _ 1).2 t ht)
  · intro t ht hle
    exact callsFrom_none_missed hp _ 1 t ht ((floor_ge_iff hp 1).mpr (by simpa using hle))

/-- C161: when the clock is looked at on time, the report is made exactly one period after the start, two periods after it, and so on. -/
theorem C161_on_time (I : Impl C T G PF PM) (w : World) (fmt : PyFloat → Str) (inst : Str) (env : ℚ → HostMoment)
    (host : HostState C T G PF PM) (ja jb : List (HostReport × ℤ)) (k : HostReport) (p : ℤ) (hp : 0 < p)
    (hj : ∀ j ∈ ja ++ jb, 0 ≤ j.2 ∧ j.1 ≠ k) (before since : List (ℚ × HostEvent)) (s : ℚ) (hb : StoppedAgain before)
    (hs : NeverStopped since) (n : ℕ) (hc : clockReadings since = (List.range' 1 n).map fun i : ℕ => s + p * (i : ℚ)) :
    let v : TimedHost C T G PF PM := { loops := loopsOf (ja ++ (k, p) :: jb), host := host }
    ∃ os, (v.run I w fmt inst env (before ++ (s, .start) :: since)).host = (v.run I w fmt inst env before).host.run I w fmt inst os ∧
      hostOutside os = timedOutside since ∧
      (hostCalls os).filter (fun c => c.2 = k) = (List.range' 1 n).map fun i : ℕ => (env (s + p * (i : ℚ)), k) := by
  intro v
  obtain ⟨os, h1, h2, h3⟩ := times_since I w fmt inst env host ja jb k p hp.le hj before since s hb hs
  have hn : nextCall s p s = s + p * (((0 + 1 : ℕ) : ℤ) : ℚ) := by
    unfold nextCall; rw [if_neg (by omega)]; simp
  rw [hn, hc, callsFrom_prompt hp n 0, List.map_map] at h3
  exact ⟨os, h1, h2, h3⟩

/-- C161: from a stop to the next start no report is made. -/
theorem C161_stopped (I : Impl C T G PF PM) (w : World) (fmt : PyFloat → Str) (inst : Str) (env : ℚ → HostMoment)
    (host : HostState C T G PF PM) (jobs : List (HostReport × ℤ)) (hj : ∀ j ∈ jobs, 0 ≤ j.2)
    (before since : List (ℚ × HostEvent)) (s : ℚ) (hs : ∀ e ∈ since, e.2 ≠ .start) :
    let v : TimedHost C T G PF PM := { loops := loopsOf jobs, host := host }
    ∃ os, (v.run I w fmt inst env (before ++ (s, .stop) :: since)).host = (v.run I w fmt inst env before).host.run I w fmt inst os ∧
      hostOutside os = timedOutside since ∧ hostCalls os = [] := by
  intro v
  have hinv := loopsOf_inv jobs hj
  have r1 := (timed_run I w fmt inst env (before ++ (s, .stop) :: since) false v hinv).2
  have r2 := (timed_run I w fmt inst env before false v hinv).2
  refine ⟨timedOps env (v.loops.map fun l => (l.over before).step s .stop) since, ?_, timedOps_outside env since _,
    calls_idle env since hs _ ?_⟩
  · rw [r1, r2, timedOps_append, timedOps]
    simp only [HostState.run, List.foldl_append]
    have hm : ∀ (f : ReportLoop → ReportLoop) (ls : List ReportLoop),
        (ls.map fun l => l.over before).map f = ls.map fun l => f (l.over before) :=
      fun f ls => List.map_map
    rw [hm]
    rfl
  · intro l hl
    obtain ⟨l', hl', rfl⟩ := List.mem_map.1 hl
    obtain ⟨j, hj', rfl⟩ := List.mem_map.1 hl'
    have hr : ∀ l : ReportLoop, (l.step s .stop).running = false := fun l => by rw [step_running]; rfl
    have hi : ∀ l : ReportLoop, (l.running = false → l.due = none) → (l.step s .stop).due = none := by
      intro l hl
      by_cases h : l.running = true
      · simp [ReportLoop.step, h]
      · simp only [ReportLoop.step, if_neg h]
        exact hl (by simpa using h)
    exact ⟨hr _, hi _ (over_idle before _ fun _ => rfl)⟩

/-- C161: starting reports that run fails an assertion, and so does stopping reports that do not; neither changes anything. -/
theorem C161_errors (I : Impl C T G PF PM) (w : World) (fmt : PyFloat → Str) (inst : Str) (env : ℚ → HostMoment)
    (v : TimedHost C T G PF PM) (hl : v.loops ≠ []) (t : ℚ) :
    ((∀ l ∈ v.loops, l.running = true) → v.step I w fmt inst env t .start = (v, some .assertionError) ∧
      (v.step I w fmt inst env t .stop).2 = none ∧ ∀ l ∈ (v.step I w fmt inst env t .stop).1.loops, l.running = false) ∧
    ((∀ l ∈ v.loops, l.running = false) → v.step I w fmt inst env t .stop = (v, some .assertionError) ∧
      ((∀ l ∈ v.loops, 0 ≤ l.period) → (v.step I w fmt inst env t .start).2 = none ∧
        ∀ l ∈ (v.step I w fmt inst env t .start).1.loops, l.running = true)) := by
  obtain ⟨ls, host⟩ := v
  have hstop : ∀ ls : List ReportLoop, (∀ l ∈ ls, l.running = true) →
      (stopLoops ls).2 = none ∧ ∀ l ∈ (stopLoops ls).1, l.running = false := by
    intro ls
    induction ls with
    | nil => intro _; exact ⟨rfl, by simp [stopLoops]⟩
    | cons l ls ih =>
      intro h
      have := ih fun l hl => h l (List.mem_cons_of_mem _ hl)
      simpa [stopLoops, h l (by simp)] using this
  have hstart : ∀ ls : List ReportLoop, (∀ l ∈ ls, l.running = false) → (∀ l ∈ ls, 0 ≤ l.period) →
      (startLoops t ls).2 = none ∧ ∀ l ∈ (startLoops t ls).1, l.running = true := by
    intro ls
    induction ls with
    | nil => intro _ _; exact ⟨rfl, by simp [startLoops]⟩
    | cons l ls ih =>
      intro h h'
      have := ih (fun l hl => h l (List.mem_cons_of_mem _ hl)) fun l hl => h' l (List.mem_cons_of_mem _ hl)
      simpa [startLoops, h l (by simp), not_lt.2 (h' l (by simp))] using this
  refine ⟨fun h => ⟨?_, hstop ls h⟩, fun h => ⟨?_, hstart ls h⟩⟩
  · cases ls with
    | nil => exact absurd rfl hl
    | cons l ls => simp [TimedHost.step, startLoops, show l.running = true from h l (by simp)]
  · cases ls with
    | nil => exact absurd rfl hl
    | cons l ls => simp [TimedHost.step, stopLoops, show l.running = false from h l (by simp)]

end
section
attribute [local instance] binary64

/-- A process that grows by 4096 bytes a minute. -/
def exEnv (t : ℚ) : HostMoment :=
  ⟨⟨fun _ => none, []⟩, [.int 8192, .int (4096 * ⌊t / 60⌋)], .int 0, .int 0, some (.int 3), [.int 1, .int 2], none, some [], 4, 5⟩

/-- A run with a late reading of the clock. -/
def exTimed : List (ℚ × HostEvent) :=
  [(60, .clock), (70, .msg c!"x:1|c"), (71, .flush 10000 90), (185, .clock), (200, .clock), (240, .clock), (250, .clock)]

/-- The start at 0 is stopped; the one at 1 counts, so that the reports are made at 185 and at 250. -/
theorem exTimed_flush :
    let v := (timedFresh noPlugins [] false [(.reactor, 60), (.process, 60)]).run (messageProcessor noPlugins) exWorld pyStr c!"host" exEnv
      ([(0, .start), (1, .stop)] ++ (1, .start) :: exTimed)
    let r := flush (messageProcessor noPlugins) exWorld 10000 90 v.host.self.ps
    r.2.2 = none ∧ (named c!"stats.gauge.host.proc.memory.rss.value" r.2.1).map (·.value) =
      [.flt (.fin (4096 * 3)), .flt (.fin (4096 * 4))] := by
  decide +kernel

theorem exEnv_legal : LegalEnv c!"host" exEnv := by
  intro os hos
  have legal : ∀ s : Str, (s.all fun c => decide (Legal c)) = true → ∀ c ∈ s, Legal c := by
    intro s hs c hc
    have := List.all_eq_true.1 hs c hc
    simpa using this
  refine ⟨legal _ (by decide), fun k d hd hk n hn => ?_⟩
  exfalso
  obtain ⟨m, g, hm, hcall⟩ := hostRun_call _ _ hd
  obtain ⟨t, ht⟩ := hos _ hm
  simp only at ht
  subst ht
  have hnext : ∀ (c : CounterGen) (reading : Except PyErr (Dict Num)), (∀ r, reading = .ok r → r = []) →
      (c.next reading).2 = .ok d → False := by
    intro c reading hr hc
    unfold CounterGen.next at hc
    split at hc
    · cases hc
    · cases reading with
      | error e => cases hc
      | ok r =>
        obtain rfl := hr r rfl
        simp only at hc
        split at hc
        · cases hc; cases hn
        · simp only [diffs] at hc
          cases hc; cases hn
  rcases hk with rfl | rfl | rfl
  · exact hnext _ _ (fun r hr => by simp [exEnv, reportFile, asNums, loadFile] at hr) hcall
  · exact hnext _ _ (fun r hr => by simpa [exEnv, systemStats, putModes] using hr.symm) hcall
  · simp only [HostGens.call, exEnv, getNetStats, Except.ok.injEq] at hcall
    subst hcall
    simp [Dict.keys] at hn

example : StoppedAgain [(0, .start), (1, .stop)] ∧ NeverStopped exTimed ∧ Forward exTimed ∧ 250 ∈ clockReadings exTimed ∧
    (1 : ℚ) + (60 : ℤ) ≤ 250 := by
  refine ⟨?_, ?_, ?_, ?_, by norm_num⟩
  · intro a t b h hn
    match a, h with
    | [], h =>
      simp only [List.nil_append, List.cons.injEq] at h
      exact hn (1, .stop) (by rw [← h.2]; simp) rfl
    | [x], h => simp at h
    | x :: y :: a, h => simp at h
  · intro e he
    simp only [exTimed, List.mem_cons, List.not_mem_nil, or_false] at he
    rcases he with rfl | rfl | rfl | rfl | rfl | rfl | rfl <;> simp
  · norm_num [Forward, exTimed]
  · simp [clockReadings, exTimed]

/-- The hypotheses of `C161_process` about this machine: between 200 and 250 the memory was 12288 or 16384 bytes. -/
example : (∀ t ∈ clockReadings exTimed, (exEnv t).memory = [.int 8192, .int (4096 * ⌊t / 60⌋)]) ∧
    (∀ t ∈ clockReadings exTimed, |4096 * ⌊t / 60⌋| ≤ 2 ^ 53) := by
  refine ⟨fun t _ => rfl, ?_⟩
  decide +kernel

end
end Txstatsd
