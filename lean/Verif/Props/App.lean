import Verif.Lemmas.App
import Verif.Props.Schedules
import Verif.Props.Router

/-!
# The assembled service: C92–C96
-/

namespace Txstatsd
open Spec
section
variable [Rounding] {PF PM R : Type}

/-! ## C92 -/

/-- C92: in every schedule of a service without rules, the processor has been given some of the texts taken in and the rest is
still scheduled: nothing is lost, nothing is processed twice, and the monitor's messages are not processed. The state,
the running flushes and the datapoints are those of a server to which exactly these texts arrived. -/
theorem C92_processed_once {C T G : Type} (I : Impl C T G PF PM) (hI : TextFree I) (cf : AppConf R) (hr : cf.rules = [])
    (w : World) (s : PS C T G PF PM) (es : List AppEvent) :
    let v := App.run I.proc cf w { ps := s } es
    ∃ es' : List Event, (arrivals es' ++ v.scheduled).Perm (takenIn cf.monitor.message es) ∧
      (∀ i p, Event.spawn i p ∈ es' → i = cf.flushInterval ∧ p = 90) ∧
      v.ps = ((startUp s).run I w es').ps ∧ v.gens = ((startUp s).run I w es').gens ∧
      v.out = ((startUp s).run I w es').out := by
  obtain ⟨es', h1, h2, h3⟩ := app_server hI cf hr w es { ps := s }
  refine ⟨es', by simpa using h2, h3, ?_, ?_, ?_⟩
  · exact congrArg Server.ps h1
  · exact congrArg Server.gens h1
  · exact congrArg Server.out h1

/-- C92: with exact arithmetic, at every moment of every schedule of the service, the counts sent to carbon, those under way,
the stored count and the increments still scheduled add up to the increments of all datagrams and lines received (but for
the monitor's) and of all texts the service wrote to itself. -/
theorem C92_no_loss [Exact] (ops : PluginOps PF PM) (hq : Quiet ops c!"stats_counts.") (plugins : List PF) (cf : AppConf R)
    (hr : cf.rules = []) (hi : 1000 ≤ cf.flushInterval) (w : World) (es : List AppEvent) (key : Str) (qs : List (ℚ × ℚ))
    (hinc : Increments key (takenIn cf.monitor.message es) (qs.map fun p => (.fin p.1, .fin p.2))) :
    let v := App.run (messageProcessor ops).proc cf w { ps := MPState.init ops plugins } es
    ∃ waiting : List (ℚ × ℚ), Increments key v.scheduled (waiting.map fun p => (.fin p.1, .fin p.2)) ∧
      ((named (c!"stats_counts." ++ key) v.out).map fun d => d.value.rat).sum +
      ((named (c!"stats_counts." ++ key) (underWay v.gens)).map fun d => d.value.rat).sum +
      ((v.ps.counters.find key).getD (.int 0)).rat + (waiting.map fun p => p.1 / p.2).sum =
        (qs.map fun p => p.1 / p.2).sum := by
  intro v
  obtain ⟨es', h2, h3, hps, hgens, hout⟩ :=
    C92_processed_once (messageProcessor ops) (textFree_messageProcessor ops) cf hr w (MPState.init ops plugins) es
  obtain ⟨done, hd⟩ := increments_exist key (arrivals es')
  obtain ⟨wait, hw⟩ := increments_exist key v.scheduled
  obtain ⟨y, hy, hyp⟩ := increments_perm h2 (increments_append hd hw)
  have hyq := increments_unique hy hinc
  have hfin : ∀ p ∈ done ++ wait, ∃ q : ℚ × ℚ, p = (.fin q.1, .fin q.2) := by
    intro p hp
    have : p ∈ y := hyp.subset hp
    rw [hyq] at this
    obtain ⟨q, _, rfl⟩ := List.mem_map.1 this
    exact ⟨q, rfl⟩
  have hlift : ∀ l : List (PyFloat × PyFloat), (∀ p ∈ l, ∃ q : ℚ × ℚ, p = (.fin q.1, .fin q.2)) →
      ∃ qs : List (ℚ × ℚ), l = qs.map fun p => (.fin p.1, .fin p.2) := by
    intro l
    induction l with
    | nil => intro _; exact ⟨[], rfl⟩
    | cons p l ih =>
      intro h
      obtain ⟨q, rfl⟩ := h p (by simp)
      obtain ⟨qs, rfl⟩ := ih fun p hp => h p (by simp [hp])
      exact ⟨q :: qs, rfl⟩
  obtain ⟨dq, rfl⟩ := hlift done fun p hp => hfin p (by simp [hp])
  obtain ⟨wq, rfl⟩ := hlift wait fun p hp => hfin p (by simp [hp])
  refine ⟨wq, hw, ?_⟩
  have hb := C22_exact_balance ops hq plugins w es' (fun i p h => (h3 i p h).1 ▸ hi) key dq hd
  have hsum : (dq.map fun p => p.1 / p.2).sum + (wq.map fun p => p.1 / p.2).sum = (qs.map fun p => p.1 / p.2).sum := by
    rw [hyq] at hyp
    have hv := (hyp.map fun p : PyFloat × PyFloat => (Num.flt p.1).rat / (Num.flt p.2).rat).sum_eq
    simp only [List.map_append, List.map_map, List.sum_append] at hv
    exact hv
  rw [← hsum]
  have e1 : v.out = _ := hout
  have e2 : v.gens = _ := hgens
  have e3 : v.ps = _ := hps
  rw [e1, e2, e3]
  exact congrArg (· + _) hb

/-! ## C93 -/

theorem get_withDump (o : Opts) (z : ℤ) (name : Str) (h : name ≠ c!"dump-mode") : (withDump o z).get name = o.get name := by
  simp only [Opts.get, withDump, Dict.find_put_ne _ _ h]

theorem get_dump (o : Opts) (z : ℤ) : (withDump o z).get c!"dump-mode" = .ok (.int z) := by
  simp only [Opts.get, withDump, Dict.find_put_self]

theorem choose_withDump (node : Str) (o : Opts) (z : ℤ) : chooseProcessor node false (withDump o z) = (do
    let pre ← o.get c!"prefix"
    let inst ← o.get c!"instance-name"
    let compliant ← o.get c!"statsd-compliance"
    if compliant.truthy then .ok (if z ≠ 0 then .logging [] [] else .default)
    else
      let pre := prefixOf pre
      let internal := pre ++ c!"." ++ instanceName node inst ++ c!"."
      .ok (if z ≠ 0 then .logging pre internal else .configurable pre internal)) := by
  unfold chooseProcessor
  rw [get_withDump _ _ _ (by decide), get_withDump _ _ _ (by decide), get_dump, get_withDump _ _ _ (by decide)]
  cases o.get c!"prefix" with
  | error e => rfl
  | ok pre =>
    cases o.get c!"instance-name" with
    | error e => rfl
    | ok inst =>
      cases o.get c!"statsd-compliance" with
      | error e => rfl
      | ok c =>
        have ht : (OptVal.int z).truthy = decide (z ≠ 0) := rfl
        simp only [bind, Except.bind, Bool.and_false, Bool.false_eq_true, if_false, ht, decide_eq_true_eq]

/-- C93, the part that holds: without statsd compliance the dump mode changes nothing of what is seen of the service, in any
schedule, with any rules. -/
theorem C93_dump_partial (str : Num → Str) (ops : PluginOps PF PM) (plugins : List PF) (cf : AppConf R) (w : World)
    (node : Str) (o : Opts) (z : ℤ) (k k' : ProcKind) (ho : o.get c!"statsd-compliance" = .ok (.int 0))
    (hk : chooseProcessor node false (withDump o 0) = .ok k) (hk' : chooseProcessor node false (withDump o z) = .ok k')
    (es : List AppEvent) :
    behaviour str ops plugins cf w es k' = behaviour str ops plugins cf w es k := by
  rw [choose_withDump, ho] at hk hk'
  cases h1 : o.get c!"prefix" with
  | error e => rw [h1] at hk; cases hk
  | ok pre =>
    cases h2 : o.get c!"instance-name" with
    | error e => rw [h1, h2] at hk; cases hk
    | ok inst =>
      rw [h1, h2] at hk hk'
      simp only [bind, Except.bind, OptVal.truthy, ne_eq, not_true_eq_false, decide_false, Bool.false_eq_true, if_false,
        Except.ok.injEq] at hk hk'
      subst hk
      split at hk' <;> subst hk'
      · exact behaviour_logging str ops plugins cf w es _ _
      · rfl

/-- C93, what happens with statsd compliance: in dump mode the service is one without compliance and with empty prefixes. -/
theorem C93_compliant (str : Num → Str) (ops : PluginOps PF PM) (plugins : List PF) (cf : AppConf R) (w : World)
    (node : Str) (o : Opts) (z c : ℤ) (hz : z ≠ 0) (hc : c ≠ 0) (k : ProcKind) (ho : o.get c!"statsd-compliance" = .ok (.int c))
    (hk : chooseProcessor node false (withDump o z) = .ok k) (es : List AppEvent) :
    behaviour str ops plugins cf w es k = behaviour str ops plugins cf w es (.configurable [] []) := by
  rw [choose_withDump, ho] at hk
  cases h1 : o.get c!"prefix" with
  | error e => rw [h1] at hk; cases hk
  | ok pre =>
    cases h2 : o.get c!"instance-name" with
    | error e => rw [h1, h2] at hk; cases hk
    | ok inst =>
      rw [h1, h2] at hk
      simp only [bind, Except.bind, OptVal.truthy, ne_eq, hc, not_false_eq_true, decide_true, if_true, hz, Except.ok.injEq] at hk
      subst hk
      exact behaviour_logging str ops plugins cf w es _ _

/-- C93: a second service in dump mode in the same process cannot be created. -/
theorem C93_again (node : Str) (o : Opts) (z : ℤ) (hz : z ≠ 0) (k : ProcKind) : chooseProcessor node true (withDump o z) ≠ .ok k := by
  unfold chooseProcessor
  rw [get_withDump _ _ _ (by decide), get_withDump _ _ _ (by decide), get_dump, get_withDump _ _ _ (by decide)]
  cases o.get c!"prefix" with
  | error e => intro h; cases h
  | ok pre =>
    cases o.get c!"instance-name" with
    | error e => intro h; cases h
    | ok inst =>
      cases o.get c!"statsd-compliance" with
      | error e => intro h; cases h
      | ok c => simp [bind, Except.bind, OptVal.truthy, hz]

/-! ## C94 -/

/-- C94, what happens: a datagram with a well-formed message on its first line and a bar behind that line is one bad message: it
changes nothing but the number of clock readings. -/
theorem C94_two_lines {C T G : Type} (I : Impl C T G PF PM) (w : World) (s : PS C T G PF PM) (first t raw rest : Str)
    (fields : List Str) (h : Message first t raw fields) (hrest : '|' ∈ rest) (hp : ∀ t ∈ s.plugins.keys, '\n' ∉ t) :
    (process I w s (first ++ '\n' :: rest)).2 = { bad := [first ++ '\n' :: rest] } ∧
      ∃ n, (process I w s (first ++ '\n' :: rest)).1 = { s with ticks := s.ticks + n } :=
  process_two I w s h hrest hp

/-- C94, the part that holds: white space around the only message of a datagram, such as a final newline, is ignored. -/
theorem C94_one_line_partial {C T G : Type} (I : Impl C T G PF PM) (hI : TextFree I) (w : World) (s : PS C T G PF PM)
    (text before after : Str) (m : Metric) (hb : ∀ c ∈ before, White c) (ha : ∀ c ∈ after, White c)
    (hs : Stripped text text) (hm : parseMessage text = some m) :
    (process I w s (before ++ text ++ after)).1 = (process I w s text).1 := by
  have hst : Stripped (before ++ text ++ after) text := by
    obtain ⟨a, b, _, _, _, h1, h2⟩ := hs
    exact ⟨before, after, rfl, hb, ha, h1, h2⟩
  have hp : parseMessage (before ++ text ++ after) = some m := by
    rw [parseMessage_spec] at hm ⊢
    obtain ⟨raw, ⟨t, ht, h⟩, hk⟩ := hm
    have : t = text := by rw [← strip_of_stripped ht, strip_of_stripped hs]
    subst this
    exact ⟨raw, ⟨t, hst, h⟩, hk⟩
  unfold process
  rw [hp, hm]
  exact (processMessage_text hI w s _ _ m).1

end

/-! ## C95 -/

/-- C95: a report function of one of the groups is scheduled, every 60 seconds, iff the group is named in the list, in any case. -/
theorem C95_groups (flushInterval : ℤ) (text : Str) (f : ReportFn) (period : ℤ) (hf : groupOf f ≠ none) :
    (f, period) ∈ (scheduledReports flushInterval (some text)).1 ↔
      period = 60 ∧ ∃ n g, Listed text n ∧ groupOf f = some g ∧ SameName n g := by
  have h1 : f ≠ .clientManager := by rintro rfl; exact hf rfl
  have h2 : f ≠ .reactorStats := by rintro rfl; exact hf rfl
  simp only [scheduledReports, List.mem_cons, Prod.mk.injEq, h1, h2, false_and, false_or, List.mem_flatMap, List.mem_map]
  constructor
  · rintro ⟨n, hn, f', hf', rfl, rfl⟩
    obtain ⟨g, hg, hs⟩ := (mem_statsOf _ n).1 hf'
    exact ⟨rfl, n, g, (listed_iff text n).1 hn, hg, hs⟩
  · rintro ⟨rfl, n, g, hn, hg, hs⟩
    exact ⟨n, (listed_iff text n).2 hn, f, (mem_statsOf f n).2 ⟨g, hg, hs⟩, rfl, rfl⟩

/-- C95: the carbon client's statistics are always reported, once per flush period; the reactor's iff reports are asked for at
all; without the option nothing else is. -/
theorem C95_always (flushInterval : ℤ) (report : Option Str) :
    (∃ rest, (scheduledReports flushInterval report).1 = (.clientManager, flushInterval.fdiv 1000) :: rest ∧
      ∀ p, (ReportFn.clientManager, p) ∉ rest) ∧
    ((∃ p, (ReportFn.reactorStats, p) ∈ (scheduledReports flushInterval report).1) ↔ report.isSome) ∧
    (report = none → (scheduledReports flushInterval report).1.length = 1) := by
  have hno : ∀ (n : Str) (f : ReportFn), f ∈ statsOf (n.map upperChar) → groupOf f ≠ none := by
    intro n f hf
    obtain ⟨g, hg, _⟩ := (mem_statsOf f n).1 hf
    simp [hg]
  cases report with
  | none => exact ⟨⟨[], rfl, by simp⟩, by simp [scheduledReports], fun _ => rfl⟩
  | some text =>
    refine ⟨⟨_, rfl, ?_⟩, ?_, by simp⟩
    · intro p h
      simp only [List.mem_cons, Prod.mk.injEq, reduceCtorEq, false_and, false_or, List.mem_flatMap, List.mem_map] at h
      obtain ⟨n, _, f, hf, rfl, _⟩ := h
      exact hno n _ hf rfl
    · simp only [Option.isSome_some, iff_true]
      exact ⟨60, by simp [scheduledReports]⟩

/-- C95: the reactor inspector is started once per entry that is exactly `reactor`. -/
theorem C95_inspector (flushInterval : ℤ) (text : Str) :
    0 < (scheduledReports flushInterval (some text)).2 ↔ Listed text c!"reactor" := by
  rw [← listed_iff]
  simp only [scheduledReports, List.length_pos_iff_exists_mem, List.mem_filter, decide_eq_true_eq]
  constructor
  · rintro ⟨n, hn, rfl⟩; exact hn
  · intro h; exact ⟨_, h, rfl⟩

/-- C95, the part that holds of the expectation that every name counts: a list whose names are groups schedules a report for each
of them. -/
theorem C95_known_partial (flushInterval : ℤ) (text n : Str) (hn : Listed text n)
    (hg : ∃ f g, groupOf f = some g ∧ SameName n g) :
    ∃ f p, f ≠ .clientManager ∧ f ≠ .reactorStats ∧ (f, p) ∈ (scheduledReports flushInterval (some text)).1 := by
  obtain ⟨f, g, hg, hs⟩ := hg
  refine ⟨f, 60, ?_, ?_, (C95_groups flushInterval text f 60 (by simp [hg])).2 ⟨rfl, n, g, hn, hg, hs⟩⟩
  · rintro rfl; cases hg
  · rintro rfl; cases hg

/-- C95, the expectation: whoever asks for a report gets one (or the inspector). False: a misspelt name is ignored. -/
theorem C95_refuted : ¬ ∀ (text n : Str), Listed text n →
    0 < (scheduledReports 60000 (some text)).2 ∨
    ∃ f p, f ≠ .clientManager ∧ f ≠ .reactorStats ∧ (f, p) ∈ (scheduledReports 60000 (some text)).1 := by
  intro h
  have := h c!"sytem" c!"sytem" ((listed_iff _ _).1 (by decide +kernel))
  rcases this with h | ⟨f, p, h1, h2, h⟩
  · revert h; decide +kernel
  · have e : (scheduledReports 60000 (some c!"sytem")).1 = [(.clientManager, 60), (.reactorStats, 60)] := by decide +kernel
    rw [e] at h
    simp only [List.mem_cons, Prod.mk.injEq, List.not_mem_nil, or_false] at h
    rcases h with h | h
    · exact h1 h.1
    · exact h2 h.1

example : (scheduledReports 10000 (some c!"process, Net ,reactor")) =
    ([(.clientManager, 10), (.reactorStats, 60), (.memoryAndCpu, 60), (.netStats, 60)], 1) := by decide +kernel

example : Listed c!"io, Net ,x" c!"Net" := (listed_iff _ _).1 (by decide +kernel)

/-! ## C96 -/

/-- C96: the options are refused iff some class of the hierarchy other than `OptionsGlue` declares a parameter named `config` or
with the short name `c`. -/
theorem C96_reserved (cls : PyClass) :
    glueInit cls = .error .valueError ↔ ∃ p, Declares cls p ∧ (p.1 = c!"config" ∨ p.2 = c!"c") := by
  unfold glueInit
  constructor
  · intro h
    split at h
    · next ha =>
      obtain ⟨p, hp, hc⟩ := List.any_eq_true.1 ha
      exact ⟨p, (mem_accumulate p cls).1 hp, by simpa using hc⟩
    · cases h
  · rintro ⟨p, hp, hc⟩
    rw [if_pos]
    exact List.any_eq_true.2 ⟨p, (mem_accumulate p cls).2 hp, by simpa using hc⟩

/-- C96: otherwise they are accepted; `StatsDOptions` is. -/
theorem C96_accepted (cls : PyClass) :
    glueInit cls = .ok () ↔ ∀ p, Declares cls p → p.1 ≠ c!"config" ∧ p.2 ≠ c!"c" := by
  have h := C96_reserved cls
  constructor
  · intro hok p hp
    by_contra hn
    have : glueInit cls = .error .valueError := h.2 ⟨p, hp, by by_contra hc; simp only [not_or] at hc; exact hn hc⟩
    rw [this] at hok; cases hok
  · intro hall
    unfold glueInit at h ⊢
    split at h
    · obtain ⟨p, hp, hc⟩ := h.1 rfl
      have := hall p hp
      rcases hc with hc | hc
      · exact absurd hc this.1
      · exact absurd hc this.2
    · next hn => rw [if_neg hn]

/-- `StatsDOptions`, `OptionsGlue`, `usage.Options`. -/
def statsdClass : PyClass :=
  .mk false [.mk true [.mk false [] []] [(c!"config", c!"c")]]
    ((statsdDecls.filter fun d => d.long ≠ c!"config").map fun d => (d.long, d.short))

example : glueInit statsdClass = .ok () := by decide +kernel
example : glueInit (.mk false [statsdClass] [(c!"colour", c!"c")]) = .error .valueError := by decide +kernel

section
attribute [local instance] ratRounding

/-! ## Counterexamples and examples -/

/-- A service of the examples: no rules, the default monitor. -/
def exAppConf : AppConf Str := ⟨exRx, [], ⟨some c!"txstatsd ping", c!"txstatsd pong"⟩, 60000⟩

/-- C93, the expectation: the dump mode changes nothing of what is seen of the service. False with the default options: the
counter is reported under another name. -/
theorem C93_refuted : ¬ ∀ (o : Opts) (es : List AppEvent) (k k' : ProcKind),
    chooseProcessor c!"host" false (withDump o 0) = .ok k → chooseProcessor c!"host" false (withDump o 1) = .ok k' →
    behaviour (fun _ => []) noPlugins [] exAppConf exWorld es k = behaviour (fun _ => []) noPlugins [] exAppConf exWorld es k' := by
  intro h
  have := h statsdOpts ([.receive c!"a:1|c", .turn 0, .tick] ++ List.replicate 5 (.advance 0)) .default (.logging [] [])
    (by decide +kernel) (by decide +kernel)
  revert this
  decide +kernel

/-- Two increments by 1: the service reports their sum 2 under `stats_counts.a`; in dump mode it reports the last one under
`a.count`. -/
example :
    (behaviour (fun _ => []) noPlugins [] exAppConf exWorld
      ([.receive c!"a:1|c", .receive c!"a:1|c", .turn 0, .turn 0, .tick] ++ List.replicate 5 (.advance 0)) .default).out =
      [⟨c!"stats.a", .flt (.fin (2 / 60)), 4⟩, ⟨c!"stats_counts.a", .flt (.fin 2), 4⟩] ∧
    (behaviour (fun _ => []) noPlugins [] exAppConf exWorld
      ([.receive c!"a:1|c", .receive c!"a:1|c", .turn 0, .turn 0, .tick] ++ List.replicate 5 (.advance 0)) (.logging [] [])).out =
      [⟨c!"a.count", .int 1, 4⟩] := by decide +kernel

/-- C94, the expectation: a datagram with two lines is processed as the two messages on them. False. -/
theorem C94_refuted : ¬ ∀ (a b : Str) (m m' : Metric), parseMessage a = some m → parseMessage b = some m' →
    '\n' ∉ a → '\n' ∉ b →
    (process (messageProcessor noPlugins) exWorld (MPState.init noPlugins []) (a ++ '\n' :: b)).1.counters =
      (processAll (messageProcessor noPlugins) exWorld (MPState.init noPlugins []) [a, b]).counters := by
  intro h
  have := h c!"a:1|c" c!"b:2|c" ⟨c!"c", c!"a", [c!"1", c!"c"]⟩ ⟨c!"c", c!"b", [c!"2", c!"c"]⟩ (by decide +kernel)
    (by decide +kernel) (by decide) (by decide)
  revert this
  decide +kernel

example : Message c!"a:1|c" c!"c" c!"a" [c!"1", c!"c"] :=
  ⟨c!"a:1|c", ⟨[], [], rfl, by simp, by simp, by decide, by decide⟩, by decide, by decide, Or.inl ⟨c!"1", rfl, rfl⟩⟩

/-- A ping among the datagrams, processed out of order. -/
example : (App.run (messageProcessor noPlugins).proc exAppConf exWorld { ps := MPState.init noPlugins [] }
      [.receive c!"a:1|c", .receive c!"txstatsd ping", .receive c!"a:2|c", .turn 1, .receive c!"a:4|c"]).scheduled =
      [c!"a:1|c", c!"a:4|c"] ∧
    takenIn exAppConf.monitor.message
      [.receive c!"a:1|c", .receive c!"txstatsd ping", .receive c!"a:2|c", .turn 1, .receive c!"a:4|c"] =
      [c!"a:1|c", c!"a:2|c", c!"a:4|c"] := by decide +kernel

end
end Txstatsd
