import Verif.Lemmas.HostService
import Verif.Props.SysService

/-!
# C160: the statistics of the process, from `psutil` to the flushes
-/

set_option linter.unusedVariables false
set_option linter.unusedSectionVars false

namespace Txstatsd
open Spec
section
variable [Rounding] {PF PM : Type}

/-- A service of the default processor with all its reports, after a history. -/
abbrev hostService (ops : PluginOps PF PM) (plugins : List PF) (w : World) (inst : Str) (ext : Bool) (os : List HostOp) :=
  (HostState.run (messageProcessor ops) w pyStr inst
    { self := { client := { conn := true, namespc := some [], ext := ext }, ps := MPState.init ops plugins } } os).self.ps

/-- Likewise of the configurable processor. -/
abbrev hostServiceC (ops : PluginOps PF PM) (pre int : Str) (plugins : List PF) (w : World) (inst : Str) (ext : Bool)
    (os : List HostOp) :=
  (HostState.run (configurable ops pre int) w pyStr inst
    { self := { client := { conn := true, namespc := some [], ext := ext }, ps := CPState.init ops plugins } } os).self.ps

/-- The last value of a report arrives, if its text is read back. -/
theorem host_latest (ops : PluginOps PF PM) (hq : Quiet ops c!"stats.gauge.") (plugins : List PF) (w : World)
    (inst : Str) (ext : Bool) (os : List HostOp) (h : LegalHost inst os) (m : HostMoment) (k : HostReport) (hm : LastCall os k m) (name : Str)
    (x : Num) (y : PyFloat) (hx : ∀ g : HostGens, ∃ d, (g.call m k).2 = .ok d ∧ d.Wf ∧ d.find name = some x)
    (hy : parseFloat (x.render pyStr) = some y)
    (ho : ∀ m ∈ hostOutside os, ∀ v, ¬ Reading c!"g" (reportedAs inst name) m v) (interval percent : ℤ) :
    let s := hostService ops plugins w inst ext os
    let r := flush (messageProcessor ops) w interval percent s
    r.2.2 = none →
    (named (c!"stats.gauge." ++ reportedAs inst name ++ c!".value") r.2.1).getLast? =
      some ⟨c!"stats.gauge." ++ reportedAs inst name ++ c!".value", .flt y, truncQ (w.clk s.ticks)⟩ := by
  intro s r hok
  have hs : s = _ := congrArg SelfState.ps (hostState_run (messageProcessor ops) w pyStr inst os _)
  have := self_latest ops hq plugins w pyStr C116_accepted inst name ext (hostSelf {} os) (legal_host h)
    (by rw [hostSelf_outside]; exact ho) interval percent x y hy (host_last hm hx)
  simp only [← hs] at this
  exact this hok

theorem host_latest_configurable (ops : PluginOps PF PM) (pre int : Str) (plugins : List PF) (w : World)
    (inst : Str) (ext : Bool) (os : List HostOp) (h : LegalHost inst os) (m : HostMoment) (k : HostReport) (hm : LastCall os k m) (name : Str)
    (x : Num) (y : PyFloat) (hx : ∀ g : HostGens, ∃ d, (g.call m k).2 = .ok d ∧ d.Wf ∧ d.find name = some x)
    (hy : parseFloat (x.render pyStr) = some y)
    (ho : ∀ m ∈ hostOutside os, ∀ v, ¬ Reading c!"g" (reportedAs inst name) m v) (interval percent : ℤ) :
    let s := hostServiceC ops pre int plugins w inst ext os
    let r := flush (configurable ops pre int) w interval percent s
    r.2.2 = none →
    (⟨prefixed pre (reportedAs inst name) c!".value", .flt y, truncQ (w.clk s.ticks)⟩ : Datapoint) ∈ r.2.1 := by
  intro s r hok
  have hs : s = _ := congrArg SelfState.ps (hostState_run (configurable ops pre int) w pyStr inst os _)
  have := self_latest_configurable ops pre int plugins w pyStr C116_accepted inst name ext (hostSelf {} os) (legal_host h)
    (by rw [hostSelf_outside]; exact ho) interval percent x y hy (host_last hm hx)
  simp only [← hs] at this
  exact this hok

theorem int_text [IntExact] {z : ℤ} (hz : |z| ≤ 2 ^ 53) : parseFloat (Num.render pyStr (.int z)) = some (.fin z) := by
  simp only [Num.render, parseFloat_intStr, IntExact.rnd_int z hz]

/-- C160: the reports do not disturb each other: what one of them returns over any sequence of calls is what it would return alone. -/
theorem C160_alone (k : HostReport) (calls : List (HostMoment × HostReport)) :
    (({} : HostGens).run calls).filter (fun o => o.1 = k) = ({} : HostGens).run (calls.filter fun c => c.2 = k) :=
  host_alone k calls {} {} rfl

/-- C160: in every history of reports (of all kinds), messages and flushes, a completed flush shows the memory and the number of threads
that `psutil` gave at the last report about the process. -/
theorem C160_process [IntExact] (ops : PluginOps PF PM) (hq : Quiet ops c!"stats.gauge.") (plugins : List PF) (w : World)
    (inst : Str) (ext : Bool) (os : List HostOp) (h : LegalHost inst os) (m : HostMoment) (hm : LastCall os .process m)
    (vsize rss : ℤ) (hmem : m.memory = [.int vsize, .int rss]) (name : Str) (z : ℤ) (hz : |z| ≤ 2 ^ 53)
    (hn : name = c!"memory.vsize" ∧ z = vsize ∨ name = c!"memory.rss" ∧ z = rss ∨ name = c!"threads" ∧ m.threads = some (.int z))
    (ho : ∀ m ∈ hostOutside os, ∀ v, ¬ Reading c!"g" (reportedAs inst (c!"proc." ++ name)) m v) (interval percent : ℤ) :
    let s := hostService ops plugins w inst ext os
    let r := flush (messageProcessor ops) w interval percent s
    r.2.2 = none →
    (named (c!"stats.gauge." ++ reportedAs inst (c!"proc." ++ name) ++ c!".value") r.2.1).getLast? =
      some ⟨c!"stats.gauge." ++ reportedAs inst (c!"proc." ++ name) ++ c!".value", .flt (.fin z), truncQ (w.clk s.ticks)⟩ :=
  host_latest ops hq plugins w inst ext os h m .process hm _ (.int z) (.fin z)
    (process_call hmem (by
      rcases hn with ⟨rfl, rfl⟩ | ⟨rfl, rfl⟩ | ⟨rfl, ht⟩
      · simp
      · simp
      · simp [ht])) (int_text hz) ho interval percent

/-- C160: likewise on the configurable processor. -/
theorem C160_process_configurable [IntExact] (ops : PluginOps PF PM) (pre int : Str) (plugins : List PF) (w : World)
    (inst : Str) (ext : Bool) (os : List HostOp) (h : LegalHost inst os) (m : HostMoment) (hm : LastCall os .process m)
    (vsize rss : ℤ) (hmem : m.memory = [.int vsize, .int rss]) (name : Str) (z : ℤ) (hz : |z| ≤ 2 ^ 53)
    (hn : name = c!"memory.vsize" ∧ z = vsize ∨ name = c!"memory.rss" ∧ z = rss ∨ name = c!"threads" ∧ m.threads = some (.int z))
    (ho : ∀ m ∈ hostOutside os, ∀ v, ¬ Reading c!"g" (reportedAs inst (c!"proc." ++ name)) m v) (interval percent : ℤ) :
    let s := hostServiceC ops pre int plugins w inst ext os
    let r := flush (configurable ops pre int) w interval percent s
    r.2.2 = none →
    (⟨prefixed pre (reportedAs inst (c!"proc." ++ name)) c!".value", .flt (.fin z), truncQ (w.clk s.ticks)⟩ : Datapoint) ∈ r.2.1 :=
  host_latest_configurable ops pre int plugins w inst ext os h m .process hm _ (.int z) (.fin z)
    (process_call hmem (by
      rcases hn with ⟨rfl, rfl⟩ | ⟨rfl, rfl⟩ | ⟨rfl, ht⟩
      · simp
      · simp
      · simp [ht])) (int_text hz) ho interval percent

/-- C160: the percentages of the process arrive as the nearest numbers of twelve digits. -/
theorem C160_percent (ops : PluginOps PF PM) (hq : Quiet ops c!"stats.gauge.") (plugins : List PF) (w : World)
    (inst : Str) (ext : Bool) (os : List HostOp) (h : LegalHost inst os) (m : HostMoment) (hm : LastCall os .process m)
    (vsize rss : Num) (hmem : m.memory = [vsize, rss]) (name : Str) (u : ℚ)
    (hn : name = c!"cpu.percent" ∧ m.cpu = .flt (.fin u) ∨ name = c!"memory.percent" ∧ m.percent = .flt (.fin u))
    (ho : ∀ m ∈ hostOutside os, ∀ v, ¬ Reading c!"g" (reportedAs inst (c!"proc." ++ name)) m v) (interval percent : ℤ) :
    let s := hostService ops plugins w inst ext os
    let r := flush (messageProcessor ops) w interval percent s
    r.2.2 = none → ∃ y, Nearest12 u y ∧ |y - u| ≤ |u| * 5 / 10 ^ 12 ∧
    (named (c!"stats.gauge." ++ reportedAs inst (c!"proc." ++ name) ++ c!".value") r.2.1).getLast? =
      some ⟨c!"stats.gauge." ++ reportedAs inst (c!"proc." ++ name) ++ c!".value", .flt (rnd y), truncQ (w.clk s.ticks)⟩ := by
  intro s r hok
  obtain ⟨y, h1, h2⟩ := C116_value u
  refine ⟨y, h1, C116_close u y h1, host_latest ops hq plugins w inst ext os h m .process hm _ (.flt (.fin u)) (rnd y)
    (process_call hmem (by
      rcases hn with ⟨rfl, ht⟩ | ⟨rfl, ht⟩
      · simp [ht]
      · simp [ht])) h2 ho interval percent hok⟩

/-- C160: exactly, if they have no more digits. -/
theorem C160_percent_exact [Ieee] (ops : PluginOps PF PM) (hq : Quiet ops c!"stats.gauge.") (plugins : List PF) (w : World)
    (inst : Str) (ext : Bool) (os : List HostOp) (h : LegalHost inst os) (m : HostMoment) (hm : LastCall os .process m)
    (vsize rss : Num) (hmem : m.memory = [vsize, rss]) (name : Str) (d u : ℚ)
    (hn : name = c!"cpu.percent" ∧ m.cpu = .flt (.fin u) ∨ name = c!"memory.percent" ∧ m.percent = .flt (.fin u))
    (hd : Decimal12 d) (hu : rnd d = .fin u) (h0 : 2 ^ (-1022 : ℤ) ≤ |d|)
    (ho : ∀ m ∈ hostOutside os, ∀ v, ¬ Reading c!"g" (reportedAs inst (c!"proc." ++ name)) m v) (interval percent : ℤ) :
    let s := hostService ops plugins w inst ext os
    let r := flush (messageProcessor ops) w interval percent s
    r.2.2 = none →
    (named (c!"stats.gauge." ++ reportedAs inst (c!"proc." ++ name) ++ c!".value") r.2.1).getLast? =
      some ⟨c!"stats.gauge." ++ reportedAs inst (c!"proc." ++ name) ++ c!".value", .flt (.fin u), truncQ (w.clk s.ticks)⟩ :=
  host_latest ops hq plugins w inst ext os h m .process hm _ (.flt (.fin u)) (.fin u)
    (process_call hmem (by
      rcases hn with ⟨rfl, ht⟩ | ⟨rfl, ht⟩
      · simp [ht]
      · simp [ht])) (C116_decimal d u hd h0 hu) ho interval percent

/-- C160: the report of the memory of the machine arrives as in C157, among all the others. -/
theorem C160_memory [IntExact] (ops : PluginOps PF PM) (hq : Quiet ops c!"stats.gauge.") (plugins : List PF) (w : World)
    (inst : Str) (ext : Bool) (os : List HostOp) (h : LegalHost inst os) (m : HostMoment) (hm : LastCall os (.sys .meminfo) m)
    (text : Str) (hf : m.sys.files c!"/proc/meminfo" = some text)
    (hl : ∀ l ∈ splitOn '\n' text, OtherLine l ∨ ∃ label v, MemLine l label v)
    (label : Str) (z : ℤ) (hz : LastWith (fun l v => MemLine l label v) (splitOn '\n' text) z) (hb : |z| ≤ 2 ^ 53)
    (ho : ∀ m ∈ hostOutside os, ∀ v, ¬ Reading c!"g" (reportedAs inst (c!"sys.mem." ++ label)) m v) (interval percent : ℤ) :
    let s := hostService ops plugins w inst ext os
    let r := flush (messageProcessor ops) w interval percent s
    r.2.2 = none →
    (named (c!"stats.gauge." ++ reportedAs inst (c!"sys.mem." ++ label) ++ c!".value") r.2.1).getLast? =
      some ⟨c!"stats.gauge." ++ reportedAs inst (c!"sys.mem." ++ label) ++ c!".value", .flt (.fin z), truncQ (w.clk s.ticks)⟩ :=
  host_latest ops hq plugins w inst ext os h m _ hm _ (.int z) (.fin z) (fun g => memory_call hf hl hz g.sys) (int_text hb) ho interval
    percent

/-- C160 (partial): a completed flush shows how many streams were in a state at the last report of the connections, if there were any. The
full claim, without `hp`, is refuted below: when the last connection has left a state, its gauge keeps the old number. -/
theorem C160_connections_partial [IntExact] (ops : PluginOps PF PM) (hq : Quiet ops c!"stats.gauge.") (plugins : List PF) (w : World)
    (inst : Str) (ext : Bool) (os : List HostOp) (h : LegalHost inst os) (m : HostMoment) (hm : LastCall os .connections m)
    (conns : List (Bool × Str)) (hc : m.conns = some conns) (status : Str) (hp : 0 < inState conns status)
    (hb : inState conns status ≤ 2 ^ 53)
    (ho : ∀ m ∈ hostOutside os, ∀ v, ¬ Reading c!"g" (reportedAs inst (c!"proc.net.status." ++ status)) m v) (interval percent : ℤ) :
    let s := hostService ops plugins w inst ext os
    let r := flush (messageProcessor ops) w interval percent s
    r.2.2 = none →
    (named (c!"stats.gauge." ++ reportedAs inst (c!"proc.net.status." ++ status) ++ c!".value") r.2.1).getLast?.map (·.value) =
      some (.flt (.fin (inState conns status))) := by
  intro s r hok
  have := host_latest ops hq plugins w inst ext os h m .connections hm (c!"proc.net.status." ++ status) (.int (inState conns status)) _
    (connections_call hc hp) (int_text (by rw [abs_of_nonneg (by positivity)]; exact_mod_cast hb)) ho interval percent hok
  rw [this]
  simp

/-- C160: in general, a completed flush shows how many streams were in a state at the last report of the connections at which there were
any. -/
theorem C160_connections_last [IntExact] (ops : PluginOps PF PM) (hq : Quiet ops c!"stats.gauge.") (plugins : List PF) (w : World)
    (inst : Str) (ext : Bool) (os : List HostOp) (h : LegalHost inst os) (m : HostMoment) (before after : List (HostMoment × HostReport))
    (hcalls : hostCalls os = before ++ (m, .connections) :: after) (conns : List (Bool × Str)) (hc : m.conns = some conns) (status : Str)
    (hp : 0 < inState conns status) (hb : inState conns status ≤ 2 ^ 53)
    (hafter : ∀ c ∈ after, c.2 = .connections → ∀ conns', c.1.conns = some conns' → inState conns' status = 0)
    (ho : ∀ m ∈ hostOutside os, ∀ v, ¬ Reading c!"g" (reportedAs inst (c!"proc.net.status." ++ status)) m v) (interval percent : ℤ) :
    let s := hostService ops plugins w inst ext os
    let r := flush (messageProcessor ops) w interval percent s
    r.2.2 = none →
    (named (c!"stats.gauge." ++ reportedAs inst (c!"proc.net.status." ++ status) ++ c!".value") r.2.1).getLast?.map (·.value) =
      some (.flt (.fin (inState conns status))) := by
  intro s r hok
  have hs : s = _ := congrArg SelfState.ps (hostState_run (messageProcessor ops) w pyStr inst os _)
  have := self_latest ops hq plugins w pyStr C116_accepted inst (c!"proc.net.status." ++ status) ext (hostSelf {} os) (legal_host h)
    (by rw [hostSelf_outside]; exact ho) interval percent (.int (inState conns status)) _
    (int_text (by rw [abs_of_nonneg (by positivity)]; exact_mod_cast hb))
    (host_last_said hcalls (connections_call hc hp) fun c hcm hk g => by
      obtain ⟨m', k⟩ := c
      simp only at hk
      subst hk
      exact connections_silent (hafter _ hcm rfl) g)
  simp only [← hs] at this
  rw [this hok]
  simp

/-- C160: and nothing about a state that no stream was in at any report. -/
theorem C160_connections_none (ops : PluginOps PF PM) (hq : Quiet ops c!"stats.gauge.") (plugins : List PF) (w : World)
    (inst : Str) (ext : Bool) (os : List HostOp) (h : LegalHost inst os) (status : Str)
    (hlow : status.map Char.toLower = status)
    (hnone : ∀ c ∈ hostCalls os, c.2 = .connections → ∀ conns', c.1.conns = some conns' → inState conns' status = 0)
    (ho : ∀ m ∈ hostOutside os, ∀ v, ¬ Reading c!"g" (reportedAs inst (c!"proc.net.status." ++ status)) m v) (interval percent : ℤ) :
    let s := hostService ops plugins w inst ext os
    let r := flush (messageProcessor ops) w interval percent s
    (c!"gauge." ++ reportedAs inst (c!"proc.net.status." ++ status) ++ c!".value") ∉ s.counters.keys → r.2.2 = none →
    named (c!"stats.gauge." ++ reportedAs inst (c!"proc.net.status." ++ status) ++ c!".value") r.2.1 = [] := by
  intro s r hc hok
  have hs : s = _ := congrArg SelfState.ps (hostState_run (messageProcessor ops) w pyStr inst os _)
  have hkind : ReportsName (hostKind .connections) (c!"proc.net.status." ++ status) := by
    refine .connections (some [(true, status)]) _ ((Dict.find_isSome_iff _ _).1 ?_)
    rw [show c!"proc.net.status." ++ status = c!"proc.net" ++ c!".status." ++ status from rfl, C73_connections,
      show lowerChar = Char.toLower from funext lowerChar_eq]
    simp [hlow]
  have hvals : reportedValues (c!"proc.net.status." ++ status) (hostSelf {} os) = [] := by
    rw [hostSelf_values, host_values hkind, List.flatMap_eq_nil_iff]
    rintro ⟨k', e⟩ ho'
    obtain ⟨ho', hk⟩ := List.mem_filter.1 ho'
    simp only [decide_eq_true_eq] at hk
    subst hk
    obtain ⟨m', g'', h5, h6⟩ := hostRun_call _ _ ho'
    rw [← h6]
    exact connections_silent (hnone _ h5 rfl) g''
  have hb := C99_backlog ops hq plugins w pyStr C116_accepted inst _ ext (hostSelf {} os) (legal_host h)
    (by rw [hostSelf_outside]; exact ho) interval percent
  simp only [← hs] at hb
  have hb := hb hc hok
  rw [hvals, List.forall₂_nil_left_iff] at hb
  exact hb

/-- C160: what is read and written since the first report of it: the readings in a completed flush add up to it. -/
theorem C160_io (ops : PluginOps PF PM) (hq : Quiet ops c!"stats.gauge.") (plugins : List PF) (w : World)
    (inst : Str) (ext : Bool) (os : List HostOp) (h : LegalHost inst os) (m0 : HostMoment) (ms : List HostMoment)
    (hms : ((hostCalls os).filter fun c => c.2 = .io).map Prod.fst = m0 :: ms) (count : HostMoment → List ℤ)
    (hio : ∀ m ∈ m0 :: ms, (count m).length = 4 ∧ m.io = some ((count m).map .int))
    (name : Str) (i : ℕ) (hn : [c!"read.count", c!"write.count", c!"read.bytes", c!"write.bytes"][i]? = some name) (v0 v : ℤ)
    (h0 : (count m0)[i]? = some v0) (hv : (count ((m0 :: ms).getLast (by simp)))[i]? = some v)
    (ho : ∀ m ∈ hostOutside os, ∀ v, ¬ Reading c!"g" (reportedAs inst (c!"proc.io." ++ name)) m v) (interval percent : ℤ) :
    let s := hostService ops plugins w inst ext os
    let r := flush (messageProcessor ops) w interval percent s
    (c!"gauge." ++ reportedAs inst (c!"proc.io." ++ name) ++ c!".value") ∉ s.counters.keys → r.2.2 = none →
    ∃ zs : List ℤ, zs.sum = v - v0 ∧
      (named (c!"stats.gauge." ++ reportedAs inst (c!"proc.io." ++ name) ++ c!".value") r.2.1).map (·.value) =
        zs.map fun z : ℤ => .flt (rnd z) := by
  intro s r hc hok
  have hs : s = _ := congrArg SelfState.ps (hostState_run (messageProcessor ops) w pyStr inst os _)
  have hcalls : (hostCalls os).filter (fun c => c.2 = .io) = (m0 :: ms).map fun m => (m, .io) := by
    rw [← hms, List.map_map]
    have : ∀ l : List (HostMoment × HostReport), (∀ c ∈ l, c.2 = .io) → l = l.map ((fun m => (m, .io)) ∘ Prod.fst) := by
      intro l hl
      conv_lhs => rw [← List.map_id l]
      refine List.map_congr_left fun c hc => ?_
      obtain ⟨m, k⟩ := c
      have := hl _ hc
      simp only at this
      subst this; rfl
    exact this _ fun c hc => by simpa using (List.mem_filter.1 hc).2
  -- what each moment reads
  let names : List Str := [c!"proc.io.read.count", c!"proc.io.write.count", c!"proc.io.read.bytes", c!"proc.io.write.bytes"]
  let rz : HostMoment → Dict ℤ := fun m => names.zip (count m)
  let rd : HostMoment → Dict Num := fun m => (rz m).map fun p => (p.1, Num.int p.2)
  have hread : ∀ m ∈ m0 :: ms, getIoCounters c!"proc.io" m.io = asNums Num.int (.ok (rz m)) := by
    intro m hm
    obtain ⟨h1, h2⟩ := hio m hm
    rw [h2]
    show _ = Except.ok ((names.zip (count m)).map fun p => (p.1, Num.int p.2))
    match hq : count m, h1 with
    | [a, b, c, d], _ => rfl
  have hkeys : ∀ m ∈ m0 :: ms, (rd m).keys = names := by
    intro m hm
    show Dict.keys ((rz m).map _) = _
    rw [asNums_keys]
    show (names.zip (count m)).map Prod.fst = names
    rw [List.map_fst_zip]
    rw [(hio m hm).1]; exact le_refl _
  have hwf : ∀ m ∈ m0 :: ms, Dict.Wf (rd m) := by
    intro m hm
    unfold Dict.Wf
    rw [hkeys m hm]
    decide
  have hname : names[i]? = some (c!"proc.io." ++ name) := by
    match i with
    | 0 => simp at hn; subst hn; rfl
    | 1 => simp at hn; subst hn; rfl
    | 2 => simp at hn; subst hn; rfl
    | 3 => simp at hn; subst hn; rfl
    | _ + 4 => simp at hn
  have hfind : ∀ m ∈ m0 :: ms, ∀ z, (count m)[i]? = some z → Dict.find (rd m) (c!"proc.io." ++ name) = some (.int z) := by
    intro m hm z hz
    refine Dict.find_of_mem (hwf m hm) ?_
    refine List.mem_map.2 ⟨(c!"proc.io." ++ name, z), ?_, rfl⟩
    refine List.mem_of_getElem? (i := i) ?_
    show (names.zip (count m))[i]? = _
    rw [List.getElem?_zip_eq_some]
    exact ⟨hname, hz⟩
  have hi4 : i < 4 := by
    have := (List.getElem?_eq_some_iff.1 hn).1
    simpa using this
  have hchain : List.IsChain (fun a b : Dict Num => ∀ k ∈ b.keys, k ∈ a.keys) ((m0 :: ms).map rd) := by
    have : ∀ l : List HostMoment, (∀ m ∈ l, m ∈ m0 :: ms) →
        List.IsChain (fun a b : Dict Num => ∀ k ∈ b.keys, k ∈ a.keys) (l.map rd) := by
      intro l
      induction l with
      | nil => intro _; exact .nil
      | cons a l ih =>
        intro hl
        cases l with
        | nil => exact .singleton _
        | cons b l =>
          rw [List.map_cons, List.map_cons, List.isChain_cons_cons]
          refine ⟨fun k hk => ?_, ih fun m hm => hl m (List.mem_cons_of_mem _ hm)⟩
          rw [hkeys a (hl a (by simp))]
          rwa [hkeys b (hl b (by simp))] at hk
    exact this _ fun m hm => hm
  have hz : ∀ r ∈ (m0 :: ms).map rd, Dict.Wf r ∧ ∃ z, Dict.find r (c!"proc.io." ++ name) = some (.int z) := by
    intro r hr
    obtain ⟨m, hm, rfl⟩ := List.mem_map.1 hr
    have hl : i < (count m).length := by rw [(hio m hm).1]; exact hi4
    exact ⟨hwf m hm, _, hfind m hm _ (List.getElem?_eq_getElem hl)⟩
  obtain ⟨outs, e1, e2⟩ := C72_sum (k := c!"proc.io." ++ name) (ms.map rd) (rd m0) hchain hz
  have hl : (rd m0 :: ms.map rd).getLast (by simp) = rd ((m0 :: ms).getLast (by simp)) := by
    show ((m0 :: ms).map rd).getLast (by simp) = _
    rw [List.getLast_map]
  have hat : ∀ m ∈ m0 :: ms, ∀ z, (count m)[i]? = some z → intAt (rd m) (c!"proc.io." ++ name) = z := by
    intro m hm z hz
    unfold intAt
    rw [hfind m hm z hz]
  rw [hl, hat _ (List.getLast_mem _) v hv, hat m0 (by simp) v0 h0] at e2
  have hrun : ({} : CounterGen).run ((m0 :: ms).map fun m => getIoCounters c!"proc.io" m.io) = .ok [] :: outs.map .ok := by
    rw [← e1]
    congr 1
    show _ = ((m0 :: ms).map rd).map Except.ok
    rw [List.map_map]
    exact List.map_congr_left fun m hm => hread m hm
  have hints : ∀ o ∈ outs, AllInts o ∧ o.Wf := by
    intro o ho'
    refine genRun_ints ((m0 :: ms).map fun m => .ok (rz m)) {} (fun d hd => by cases hd) o ?_
    rw [List.map_map]
    have : (m0 :: ms).map (asNums Num.int ∘ fun m => Except.ok (rz m)) = (m0 :: ms).map fun m => getIoCounters c!"proc.io" m.io :=
      List.map_congr_left fun m hm => (hread m hm).symm
    rw [this, hrun]
    exact List.mem_cons_of_mem _ (List.mem_map.2 ⟨o, ho', rfl⟩)
  have hkind : ReportsName (hostKind .io) (c!"proc.io." ++ name) := by
    let zeros : Dict Num := [(c!"proc.io.read.count", .int 0), (c!"proc.io.write.count", .int 0), (c!"proc.io.read.bytes", .int 0),
      (c!"proc.io.write.bytes", .int 0)]
    refine .io { last := some zeros } (some [.int 0, .int 0, .int 0, .int 0]) zeros _ rfl ?_
    · show _ ∈ names
      exact List.mem_of_getElem? hname
  obtain ⟨zs, e3, e4⟩ := says_sum (c!"proc.io." ++ name) outs hints
  have hvals : reportedValues (c!"proc.io." ++ name) (hostSelf {} os) = zs.map Num.int := by
    rw [hostSelf_values, host_values hkind, C160_alone, hcalls, run_io]
    show List.flatMap _ (List.map _ (({} : CounterGen).run _)) = _
    rw [hrun, ← e3, List.map_cons, List.flatMap_cons, List.map_map, List.flatMap_map]
    rfl
  have hb := C99_backlog ops hq plugins w pyStr C116_accepted inst (c!"proc.io." ++ name) ext (hostSelf {} os) (legal_host h)
    (by rw [hostSelf_outside]; exact ho) interval percent
  simp only [← hs] at hb
  have hb := hb hc hok
  rw [hvals, List.forall₂_map_left_iff] at hb
  refine ⟨zs, e4.trans e2, ?_⟩
  show List.map _ (named _ r.2.1) = _
  generalize named (c!"stats.gauge." ++ reportedAs inst (c!"proc.io." ++ name) ++ c!".value") r.2.1 = ds at hb ⊢
  clear e3 e4 hvals
  induction hb with
  | nil => rfl
  | cons a _ ih =>
    obtain ⟨y, a1, a2⟩ := a
    simp only [Num.render, parseFloat_intStr, Option.some.injEq] at a1
    subst a1
    rw [List.map_cons, List.map_cons, ih, a2]

end
section
attribute [local instance] binary64

/-- What `psutil` says at a moment. -/
def exHost (rss : ℤ) (io : List ℤ) (conns : List (Bool × Str)) : HostMoment :=
  ⟨⟨fun _ => none, []⟩, [.int 8192, .int rss], .flt (rnd (25 / 10)), .flt (rnd (1 / 2)), some (.int 3), [.int 1, .int 2], some (io.map .int),
    some conns, 4, 5⟩

/-- A history with all reports of the process. -/
def exHostRun : List HostOp :=
  [.report (exHost 4096 [1, 2, 3, 4] [(true, c!"LISTEN"), (false, c!"NONE"), (true, c!"CLOSE_WAIT")]) .process,
   .report (exHost 4096 [1, 2, 3, 4] [(true, c!"LISTEN"), (false, c!"NONE"), (true, c!"CLOSE_WAIT")]) .io,
   .report (exHost 4096 [1, 2, 3, 4] [(true, c!"LISTEN"), (false, c!"NONE"), (true, c!"CLOSE_WAIT")]) .connections,
   .msg c!"x:1|c", .flush 10000 90, .report (exHost 5000 [2, 4, 300, 4] [(true, c!"LISTEN"), (true, c!"LISTEN")]) .process,
   .report (exHost 5000 [2, 4, 300, 4] [(true, c!"LISTEN"), (true, c!"LISTEN")]) .io,
   .report (exHost 5000 [2, 4, 300, 4] [(true, c!"LISTEN"), (true, c!"LISTEN")]) .connections,
   .report (exHost 5000 [2, 4, 300, 4] []) .reactor, .report (exHost 5000 [2, 4, 300, 4] []) (.sys .meminfo)]

/-- What the flush of this service shows; no connection is in state `close_wait` any more. -/
theorem exHostRun_flush :
    let r := flush (messageProcessor noPlugins) exWorld 10000 90 (hostService noPlugins [] exWorld c!"host" false exHostRun)
    r.2.2 = none ∧
    (named c!"stats.gauge.host.proc.memory.rss.value" r.2.1).getLast?.map (·.value) = some (.flt (.fin 5000)) ∧
    (named c!"stats.gauge.host.proc.io.read.bytes.value" r.2.1).map (·.value) = [.flt (.fin 297)] ∧
    (named c!"stats.gauge.host.proc.net.status.listen.value" r.2.1).getLast?.map (·.value) = some (.flt (.fin 2)) ∧
    (named c!"stats.gauge.host.proc.net.status.close_wait.value" r.2.1).map (·.value) = [.flt (.fin 1)] := by decide +kernel

theorem exHostRun_legal : LegalHost c!"host" exHostRun := by
  have legal : ∀ s : Str, (s.all fun c => decide (Legal c)) = true → ∀ c ∈ s, Legal c := by
    intro s hs c hc
    have := List.all_eq_true.1 hs c hc
    simpa using this
  refine ⟨legal _ (by decide), fun k d hd hk n hn => ?_⟩
  have hall : ∀ o ∈ ({} : HostGens).run (hostCalls exHostRun), o.1 = .sys .netdev ∨ o.1 = .sys .cpu ∨ o.1 = .connections →
      (match o.2 with | .ok d => d.all fun p => p.1.all fun c => decide (Legal c) | .error _ => true) = true := by decide +kernel
  have := hall _ hd hk
  simp only [List.all_eq_true] at this
  obtain ⟨p, hp, rfl⟩ := List.mem_map.1 hn
  intro c hc
  simpa using this p hp c hc

example : LastCall exHostRun .process (exHost 5000 [2, 4, 300, 4] [(true, c!"LISTEN"), (true, c!"LISTEN")]) :=
  ⟨hostCalls (exHostRun.take 5), hostCalls (exHostRun.drop 6), rfl, by simp [exHostRun, hostCalls]⟩

theorem exHostRun_last : LastCall exHostRun .connections (exHost 5000 [2, 4, 300, 4] [(true, c!"LISTEN"), (true, c!"LISTEN")]) :=
  ⟨hostCalls (exHostRun.take 7), hostCalls (exHostRun.drop 8), rfl, by simp [exHostRun, hostCalls]⟩

theorem exHostRun_outside (v : PyFloat) :
    ∀ m ∈ hostOutside exHostRun, ¬ Reading c!"g" (reportedAs c!"host" c!"proc.net.status.close_wait") m v := by
  intro m hm; obtain rfl : m = c!"x:1|c" := by simpa [exHostRun, hostOutside] using hm
  exact not_reading_of (by decide +kernel) v

example : 0 < inState [(true, c!"LISTEN"), (true, c!"LISTEN")] c!"listen" := by decide

example : ((hostCalls exHostRun).filter fun c => c.2 = .io).map Prod.fst =
    [exHost 4096 [1, 2, 3, 4] [(true, c!"LISTEN"), (false, c!"NONE"), (true, c!"CLOSE_WAIT")],
     exHost 5000 [2, 4, 300, 4] [(true, c!"LISTEN"), (true, c!"LISTEN")]] := rfl

example : hostCalls exHostRun = hostCalls (exHostRun.take 2) ++
    (exHost 4096 [1, 2, 3, 4] [(true, c!"LISTEN"), (false, c!"NONE"), (true, c!"CLOSE_WAIT")], .connections) :: hostCalls (exHostRun.drop 3) ∧
    ∀ c ∈ hostCalls (exHostRun.drop 3), c.2 = .connections → ∀ conns', c.1.conns = some conns' → inState conns' c!"close_wait" = 0 := by
  refine ⟨rfl, fun c hc hk conns' h' => ?_⟩
  simp only [exHostRun, List.drop, hostCalls, List.mem_cons, List.not_mem_nil, or_false] at hc
  rcases hc with rfl | rfl | rfl | rfl | rfl <;> first | (cases hk; done) | (cases h'; decide)

example : c!"time_wait".map Char.toLower = c!"time_wait" ∧ ∀ c ∈ hostCalls exHostRun, c.2 = .connections →
    ∀ conns', c.1.conns = some conns' → inState conns' c!"time_wait" = 0 := by
  refine ⟨by decide, fun c hc hk conns' h' => ?_⟩
  simp only [exHostRun, hostCalls, List.mem_cons, List.not_mem_nil, or_false] at hc
  rcases hc with rfl | rfl | rfl | rfl | rfl | rfl | rfl | rfl <;> first | (cases hk; done) | (cases h'; decide)

/-- C160, refuted: the gauge of a state should show how many streams are in it at the last report. Nothing is reported about a state that
no connection is in, so that its gauge keeps the number from before. -/
theorem C160_connections_refuted : ¬ ∀ (inst : Str) (os : List HostOp), LegalHost inst os → ∀ m : HostMoment, LastCall os .connections m →
    ∀ conns, m.conns = some conns → ∀ status : Str,
    (∀ m ∈ hostOutside os, ∀ v, ¬ Reading c!"g" (reportedAs inst (c!"proc.net.status." ++ status)) m v) →
    let r := flush (messageProcessor noPlugins) exWorld 10000 90 (hostService noPlugins [] exWorld inst false os)
    r.2.2 = none →
    ∀ d ∈ (named (c!"stats.gauge." ++ reportedAs inst (c!"proc.net.status." ++ status) ++ c!".value") r.2.1).getLast?,
      d.value = .flt (.fin (inState conns status)) := by
  intro h
  have hs := exHostRun_flush
  have h1 := h c!"host" exHostRun exHostRun_legal _ exHostRun_last _ rfl c!"close_wait" (fun m hm v => exHostRun_outside v m hm) hs.1
  have h2 := hs.2.2.2.2
  have h3 : inState [(true, c!"LISTEN"), (true, c!"LISTEN")] c!"close_wait" = 0 := by decide
  rw [h3] at h1
  obtain ⟨d, hd⟩ : ∃ d, named c!"stats.gauge.host.proc.net.status.close_wait.value"
      (flush (messageProcessor noPlugins) exWorld 10000 90 (hostService noPlugins [] exWorld c!"host" false exHostRun)).2.1 = [d] := by
    have := congrArg List.length h2
    rw [List.length_map] at this
    exact List.length_eq_one_iff.1 this
  have h4 := h1 d (by
    show d ∈ (named c!"stats.gauge.host.proc.net.status.close_wait.value"
      (flush (messageProcessor noPlugins) exWorld 10000 90 (hostService noPlugins [] exWorld c!"host" false exHostRun)).2.1).getLast?
    rw [hd]; rfl)
  rw [hd] at h2
  simp only [List.map_cons, List.map_nil, List.cons.injEq, and_true, h4] at h2
  have : (PyFloat.fin ((0 : ℕ) : ℚ)) ≠ .fin 1 := by decide
  exact this (by injection h2)

end
end Txstatsd
