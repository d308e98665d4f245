import Verif.Props.CpuTimes

set_option linter.unusedSectionVars false
set_option linter.unusedSimpArgs false
set_option linter.unusedVariables false

/-!
# C171: counters of the machine and the process on the configurable processor; the reports of C157 and C160 there
-/

namespace Txstatsd
open Spec

section
variable [Rounding] {PF PM : Type}

/-- C157: the load on the configurable processor. -/
theorem C157_load_configurable [Ieee] (ops : PluginOps PF PM) (pre int : Str) (plugins : List PF) (w : World)
    (inst : Str) (ext : Bool) (os : List SysOp) (h : LegalMachine inst os) (m : Moment) (hm : LastReport os .loadavg m)
    (text a b c : Str) (rest : List Str) (hf : m.files c!"/proc/loadavg" = some text)
    (hs : Separated (fun c => isSpace c = true) text (a :: b :: c :: rest))
    (x y z : PyFloat) (hx : parseFloat a = some x) (hy : parseFloat b = some y) (hz : parseFloat c = some z)
    (name : Str) (d u : ℚ)
    (hn : (name, PyFloat.fin u) ∈ [(c!"oneminute", x), (c!"fiveminutes", y), (c!"fifthteenminutes", z)])
    (hd : Decimal12 d) (hu : rnd d = .fin u) (h0 : d = 0 ∨ 2 ^ (-1022 : ℤ) ≤ |d|)
    (ho : ∀ m ∈ sysOutside os, ∀ v, ¬ Reading c!"g" (reportedAs inst (c!"sys.loadavg." ++ name)) m v) (interval percent : ℤ) :
    let s := machineServiceC ops pre int plugins w inst ext os
    let r := flush (configurable ops pre int) w interval percent s
    r.2.2 = none →
    (⟨prefixed pre (reportedAs inst (c!"sys.loadavg." ++ name)) c!".value", .flt (.fin u), truncQ (w.clk s.ticks)⟩ : Datapoint) ∈ r.2.1 := by
  intro s r hok
  have hs' : s = _ := congrArg SelfState.ps (sysState_run (configurable ops pre int) w pyStr inst os _)
  have htext : parseFloat (Num.render pyStr (.flt (.fin u))) = some (.fin u) := by
    show parseFloat (pyStr (.fin u)) = _
    rcases h0 with rfl | h0
    · have hu0 := C116_exact (0 : ℚ) ⟨0, 0, by norm_num, by norm_num⟩
      have h1 : (rnd (0 : ℚ)) = .fin 0 := by
        have := IntExact.rnd_int (0 : ℤ) (by norm_num)
        simpa using this
      rw [h1] at hu hu0
      cases hu
      exact hu0
    · exact C116_decimal d u hd h0 hu
  have hcall : ∀ g : SysGens, ∃ e, (g.call m .loadavg).2 = .ok e ∧ e.Wf ∧ e.find (c!"sys.loadavg." ++ name) = some (.flt (.fin u)) := by
    intro g
    obtain ⟨e, e1, e2, e3, e4, e5⟩ := load_call hf hs hx hy hz g
    refine ⟨e, e1, e2, ?_⟩
    simp only [List.mem_cons, Prod.mk.injEq, List.not_mem_nil, or_false] at hn
    rcases hn with ⟨rfl, hn⟩ | ⟨rfl, hn⟩ | ⟨rfl, hn⟩
    · rw [hn]; exact e3
    · rw [hn]; exact e4
    · rw [hn]; exact e5
  have := self_latest_configurable ops pre int plugins w pyStr C116_accepted inst (c!"sys.loadavg." ++ name) ext (selfOps {} os) (legal_machine h)
    (by rw [selfOps_outside]; exact ho) interval percent (.flt (.fin u)) (.fin u) htext (last_value hm hcall)
  simp only [← hs'] at this
  exact this hok

/-- C160: the percentages of the process on the configurable processor. -/
theorem C160_percent_configurable (ops : PluginOps PF PM) (pre int : Str) (plugins : List PF) (w : World)
    (inst : Str) (ext : Bool) (os : List HostOp) (h : LegalHost inst os) (m : HostMoment) (hm : LastCall os .process m)
    (vsize rss : Num) (hmem : m.memory = [vsize, rss]) (name : Str) (u : ℚ)
    (hn : name = c!"cpu.percent" ∧ m.cpu = .flt (.fin u) ∨ name = c!"memory.percent" ∧ m.percent = .flt (.fin u))
    (ho : ∀ m ∈ hostOutside os, ∀ v, ¬ Reading c!"g" (reportedAs inst (c!"proc." ++ name)) m v) (interval percent : ℤ) :
    let s := hostServiceC ops pre int plugins w inst ext os
    let r := flush (configurable ops pre int) w interval percent s
    r.2.2 = none → ∃ y, Nearest12 u y ∧ |y - u| ≤ |u| * 5 / 10 ^ 12 ∧
    (⟨prefixed pre (reportedAs inst (c!"proc." ++ name)) c!".value", .flt (rnd y), truncQ (w.clk s.ticks)⟩ : Datapoint) ∈ r.2.1 := by
  intro s r hok
  obtain ⟨y, h1, h2⟩ := C116_value u
  exact ⟨y, h1, C116_close u y h1, host_latest_configurable ops pre int plugins w inst ext os h m .process hm _ (.flt (.fin u)) (rnd y)
    (process_call hmem (by
      rcases hn with ⟨rfl, ht⟩ | ⟨rfl, ht⟩
      · simp [ht]
      · simp [ht])) h2 ho interval percent hok⟩

/-- C160: the memory of the machine on the configurable processor, among all the other reports. -/
theorem C160_memory_configurable [IntExact] (ops : PluginOps PF PM) (pre int : Str) (plugins : List PF) (w : World)
    (inst : Str) (ext : Bool) (os : List HostOp) (h : LegalHost inst os) (m : HostMoment) (hm : LastCall os (.sys .meminfo) m)
    (text : Str) (hf : m.sys.files c!"/proc/meminfo" = some text)
    (hl : ∀ l ∈ splitOn '\n' text, OtherLine l ∨ ∃ label v, MemLine l label v)
    (label : Str) (z : ℤ) (hz : LastWith (fun l v => MemLine l label v) (splitOn '\n' text) z) (hb : |z| ≤ 2 ^ 53)
    (ho : ∀ m ∈ hostOutside os, ∀ v, ¬ Reading c!"g" (reportedAs inst (c!"sys.mem." ++ label)) m v) (interval percent : ℤ) :
    let s := hostServiceC ops pre int plugins w inst ext os
    let r := flush (configurable ops pre int) w interval percent s
    r.2.2 = none →
    (⟨prefixed pre (reportedAs inst (c!"sys.mem." ++ label)) c!".value", .flt (.fin z), truncQ (w.clk s.ticks)⟩ : Datapoint) ∈ r.2.1 :=
  host_latest_configurable ops pre int plugins w inst ext os h m _ hm _ (.int z) (.fin z) (fun g => memory_call hf hl hz g.sys) (int_text hb) ho
    interval percent

/-- What is said last about a name arrives on the configurable processor. -/
theorem host_said_configurable (ops : PluginOps PF PM) (pre int : Str) (plugins : List PF) (w : World)
    (inst : Str) (ext : Bool) (os : List HostOp) (h : LegalHost inst os) (name : Str) (x : Num) (y : PyFloat)
    (hx : (reportedValues name (hostSelf {} os)).getLast? = some x) (hy : parseFloat (x.render pyStr) = some y)
    (ho : ∀ m ∈ hostOutside os, ∀ v, ¬ Reading c!"g" (reportedAs inst name) m v) (interval percent : ℤ) :
    let s := hostServiceC ops pre int plugins w inst ext os
    let r := flush (configurable ops pre int) w interval percent s
    r.2.2 = none →
    (⟨prefixed pre (reportedAs inst name) c!".value", .flt y, truncQ (w.clk s.ticks)⟩ : Datapoint) ∈ r.2.1 := by
  intro s r hok
  have hs : s = _ := congrArg SelfState.ps (hostState_run (configurable ops pre int) w pyStr inst os _)
  have := self_latest_configurable ops pre int plugins w pyStr C116_accepted inst name ext (hostSelf {} os) (legal_host h)
    (by rw [hostSelf_outside]; exact ho) interval percent x y hy hx
  simp only [← hs] at this
  exact this hok

/-- C160: the number of streams in a state at the last report at which there were any, on the configurable processor. -/
theorem C160_connections_configurable [IntExact] (ops : PluginOps PF PM) (pre int : Str) (plugins : List PF) (w : World)
    (inst : Str) (ext : Bool) (os : List HostOp) (h : LegalHost inst os) (m : HostMoment) (before after : List (HostMoment × HostReport))
    (hcalls : hostCalls os = before ++ (m, .connections) :: after) (conns : List (Bool × Str)) (hc : m.conns = some conns) (status : Str)
    (hp : 0 < inState conns status) (hb : inState conns status ≤ 2 ^ 53)
    (hafter : ∀ c ∈ after, c.2 = .connections → ∀ conns', c.1.conns = some conns' → inState conns' status = 0)
    (ho : ∀ m ∈ hostOutside os, ∀ v, ¬ Reading c!"g" (reportedAs inst (c!"proc.net.status." ++ status)) m v) (interval percent : ℤ) :
    let s := hostServiceC ops pre int plugins w inst ext os
    let r := flush (configurable ops pre int) w interval percent s
    r.2.2 = none →
    (⟨prefixed pre (reportedAs inst (c!"proc.net.status." ++ status)) c!".value", .flt (.fin ((inState conns status : ℕ) : ℤ)),
      truncQ (w.clk s.ticks)⟩ : Datapoint) ∈ r.2.1 :=
  host_said_configurable ops pre int plugins w inst ext os h _ (.int (inState conns status)) _
    (host_last_said hcalls (connections_call hc hp) fun c hcm hk g => by
      obtain ⟨m', k⟩ := c
      simp only at hk
      subst hk
      exact connections_silent (hafter _ hcm rfl) g)
    (int_text (by rw [abs_of_nonneg (by positivity)]; exact_mod_cast hb)) ho interval percent

/-! ## Differences -/

/-- A report of differences says one for each reading but the first. -/
theorem differences_said {os : List HostOp} {k : HostReport} {m0 : HostMoment} {ms : List HostMoment}
    (hms : ((hostCalls os).filter fun c => c.2 = k).map Prod.fst = m0 :: ms) {name : Str} (hkind : ReportsName (hostKind k) name)
    (rd : HostMoment → Dict Num) (val : HostMoment → Num)
    (hrun : ({} : HostGens).run ((m0 :: ms).map fun m => (m, k)) =
      (({} : CounterGen).run ((m0 :: ms).map fun m => .ok (rd m))).map fun o => (k, o))
    (hrd : ∀ m ∈ m0 :: ms, (rd m).Wf ∧ (rd m).find name = some (val m))
    (hkeys : ∀ a ∈ m0 :: ms, ∀ b ∈ m0 :: ms, ∀ x ∈ (rd b).keys, x ∈ (rd a).keys) :
    reportedValues name (hostSelf {} os) = List.zipWith (fun a b => (val b).sub (val a)) (m0 :: ms) ms := by
  have hcalls : (hostCalls os).filter (fun c => c.2 = k) = (m0 :: ms).map fun m => (m, k) := by
    rw [← hms, List.map_map]
    have : ∀ l : List (HostMoment × HostReport), (∀ c ∈ l, c.2 = k) → l = l.map ((fun m => (m, k)) ∘ Prod.fst) := by
      intro l hl
      conv_lhs => rw [← List.map_id l]
      refine List.map_congr_left fun c hc => ?_
      obtain ⟨m, k'⟩ := c
      have := hl _ hc
      simp only at this
      subst this; rfl
    exact this _ fun c hc => by simpa using (List.mem_filter.1 hc).2
  rw [hostSelf_values, host_values hkind, C160_alone, hcalls, hrun, List.flatMap_map]
  show List.flatMap (saysOf name) _ = _
  rw [List.map_cons, CounterGen.run, (C72_first (rd m0)).1, (C72_first (rd m0)).2, List.flatMap_cons, counter_says rd val name ms m0 hrd hkeys]
  rfl

theorem zipWith_last {A B : Type} (f : A → A → B) (a b : A) : ∀ pre : List A,
    (List.zipWith f (pre ++ [a, b]) (pre ++ [a, b]).tail).getLast? = some (f a b)
  | [] => rfl
  | [x] => rfl
  | x :: y :: pre => by
    have := zipWith_last f a b (y :: pre)
    simp only [List.cons_append, List.tail_cons, List.zipWith_cons_cons] at this ⊢
    rw [List.getLast?_cons, this]
    rfl

theorem last_difference {os : List HostOp} {k : HostReport} {earlier : List HostMoment} {a b : HostMoment}
    (hms : ((hostCalls os).filter fun c => c.2 = k).map Prod.fst = earlier ++ [a, b]) {name : Str} (hkind : ReportsName (hostKind k) name)
    (rd : HostMoment → Dict Num) (val : HostMoment → Num)
    (hrun : ∀ ms : List HostMoment, (∀ m ∈ ms, m ∈ earlier ++ [a, b]) → ({} : HostGens).run (ms.map fun m => (m, k)) =
      (({} : CounterGen).run (ms.map fun m => .ok (rd m))).map fun o => (k, o))
    (hrd : ∀ m ∈ earlier ++ [a, b], (rd m).Wf ∧ (rd m).find name = some (val m))
    (hkeys : ∀ a' ∈ earlier ++ [a, b], ∀ b' ∈ earlier ++ [a, b], ∀ x ∈ (rd b').keys, x ∈ (rd a').keys) :
    (reportedValues name (hostSelf {} os)).getLast? = some ((val b).sub (val a)) := by
  obtain ⟨m0, ms, he⟩ : ∃ m0 ms, earlier ++ [a, b] = m0 :: ms := by
    cases earlier with
    | nil => exact ⟨a, [b], rfl⟩
    | cons x l => exact ⟨x, l ++ [a, b], rfl⟩
  have h1 := zipWith_last (fun a b => (val b).sub (val a)) a b earlier
  rw [he] at hms hrd hkeys h1
  rw [differences_said hms hkind rd val (hrun _ (by rw [he]; exact fun m hm => hm)) hrd hkeys]
  exact h1

/-- C171 (partial): what the process has read and written. On the configurable processor every completed flush shows the difference between
the last two reports of it: neither differences before it, which are lost if several reports fall between two flushes, nor nothing, if none
does. -/
theorem C171_io_partial [IntExact] (ops : PluginOps PF PM) (pre int : Str) (plugins : List PF) (w : World)
    (inst : Str) (ext : Bool) (os : List HostOp) (h : LegalHost inst os) (earlier : List HostMoment) (a b : HostMoment)
    (hms : ((hostCalls os).filter fun c => c.2 = .io).map Prod.fst = earlier ++ [a, b]) (count : HostMoment → List ℤ)
    (hio : ∀ m ∈ earlier ++ [a, b], (count m).length = 4 ∧ m.io = some ((count m).map .int))
    (name : Str) (i : ℕ) (hn : [c!"read.count", c!"write.count", c!"read.bytes", c!"write.bytes"][i]? = some name) (va vb : ℤ)
    (ha : (count a)[i]? = some va) (hb : (count b)[i]? = some vb) (hle : |vb - va| ≤ 2 ^ 53)
    (ho : ∀ m ∈ hostOutside os, ∀ v, ¬ Reading c!"g" (reportedAs inst (c!"proc.io." ++ name)) m v) (interval percent : ℤ) :
    let s := hostServiceC ops pre int plugins w inst ext os
    let r := flush (configurable ops pre int) w interval percent s
    r.2.2 = none →
    (⟨prefixed pre (reportedAs inst (c!"proc.io." ++ name)) c!".value", .flt (.fin ((vb - va : ℤ) : ℚ)), truncQ (w.clk s.ticks)⟩ : Datapoint) ∈
      r.2.1 := by
  let names : List Str := [c!"proc.io.read.count", c!"proc.io.write.count", c!"proc.io.read.bytes", c!"proc.io.write.bytes"]
  let rd : HostMoment → Dict Num := fun m => names.zip ((count m).map Num.int)
  let val : HostMoment → Num := fun m => .int ((count m)[i]?.getD 0)
  have hi4 : i < 4 := by
    have := (List.getElem?_eq_some_iff.1 hn).1
    simpa using this
  have hname : names[i]? = some (c!"proc.io." ++ name) := by
    match i with
    | 0 => simp at hn; subst hn; rfl
    | 1 => simp at hn; subst hn; rfl
    | 2 => simp at hn; subst hn; rfl
    | 3 => simp at hn; subst hn; rfl
    | _ + 4 => simp at hn
  have hread : ∀ m ∈ earlier ++ [a, b], getIoCounters c!"proc.io" m.io = .ok (rd m) := by
    intro m hm
    obtain ⟨h1, h2⟩ := hio m hm
    rw [h2]
    show _ = Except.ok (names.zip ((count m).map Num.int))
    match hq : count m, h1 with
    | [a, b, c, d], _ => rfl
  have hkeys : ∀ m ∈ earlier ++ [a, b], (rd m).keys = names := by
    intro m hm
    show (names.zip ((count m).map Num.int)).map Prod.fst = names
    rw [List.map_fst_zip]
    rw [List.length_map, (hio m hm).1]; exact le_refl _
  have hkind : ReportsName (hostKind .io) (c!"proc.io." ++ name) := by
    let zeros : Dict Num := [(c!"proc.io.read.count", .int 0), (c!"proc.io.write.count", .int 0), (c!"proc.io.read.bytes", .int 0),
      (c!"proc.io.write.bytes", .int 0)]
    refine .io { last := some zeros } (some [.int 0, .int 0, .int 0, .int 0]) zeros _ rfl ?_
    show _ ∈ names
    exact List.mem_of_getElem? hname
  have hlast := last_difference hms hkind rd val ?_ ?_ ?_
  · refine host_said_configurable ops pre int plugins w inst ext os h _ _ _ hlast ?_ ho interval percent
    show parseFloat (Num.render pyStr (.int ((count b)[i]?.getD 0 - (count a)[i]?.getD 0))) = _
    rw [ha, hb]
    exact int_text hle
  · intro ms hsub
    rw [run_io]
    show ((({} : CounterGen)).run _).map _ = _
    congr 2
    exact List.map_congr_left fun m hm => hread m (hsub m hm)
  · intro m hm
    have hwf : (rd m).Wf := by
      unfold Dict.Wf
      rw [hkeys m hm]
      decide
    refine ⟨hwf, Dict.find_of_mem hwf ?_⟩
    refine List.mem_of_getElem? (i := i) ?_
    show (names.zip ((count m).map Num.int))[i]? = _
    rw [List.getElem?_zip_eq_some]
    have hl : i < (count m).length := by rw [(hio m hm).1]; exact hi4
    refine ⟨hname, ?_⟩
    show ((count m).map Num.int)[i]? = some (.int ((count m)[i]?.getD 0))
    rw [List.getElem?_map, List.getElem?_eq_getElem hl]
    rfl
  · intro a' ha' b' hb' x hx
    rw [hkeys a' ha']
    rwa [hkeys b' hb'] at hx

/-- C171 (partial): likewise the CPU times of the process, to eleven digits. -/
theorem C171_cpu_partial [Ieee] (ops : PluginOps PF PM) (pre int : Str) (plugins : List PF) (w : World)
    (inst : Str) (ext : Bool) (os : List HostOp) (h : LegalHost inst os) (earlier : List HostMoment) (a b : HostMoment)
    (hms : ((hostCalls os).filter fun c => c.2 = .cpuCounters).map Prod.fst = earlier ++ [a, b]) (user system : HostMoment → ℚ)
    (htimes : ∀ m ∈ earlier ++ [a, b], m.times = [.flt (.fin (user m)), .flt (.fin (system m))]) (name : Str) (t : HostMoment → ℚ)
    (hn : name = c!"proc.cpu.user" ∧ t = user ∨ name = c!"proc.cpu.system" ∧ t = system)
    (hle : 0 ≤ t b - t a ∧ t b - t a ≤ 2 ^ 53)
    (ho : ∀ m ∈ hostOutside os, ∀ v, ¬ Reading c!"g" (reportedAs inst name) m v) (interval percent : ℤ) :
    let s := hostServiceC ops pre int plugins w inst ext os
    let r := flush (configurable ops pre int) w interval percent s
    r.2.2 = none → ∃ v : ℚ, |v - (t b - t a)| ≤ (t b - t a) * 6 / 10 ^ 12 + 2 ^ (-1070 : ℤ) ∧
    (⟨prefixed pre (reportedAs inst name) c!".value", .flt (.fin v), truncQ (w.clk s.ticks)⟩ : Datapoint) ∈ r.2.1 := by
  intro s r hok
  have hkind : ReportsName (hostKind .cpuCounters) name := by
    let zeros : Dict Num := [(c!"proc.cpu.user", .int 0), (c!"proc.cpu.system", .int 0)]
    refine .cpuCounters { last := some zeros } [.int 0, .int 0] zeros _ rfl ?_
    rcases hn with ⟨rfl, _⟩ | ⟨rfl, _⟩ <;> simp [zeros, Dict.keys]
  let rd : HostMoment → Dict Num := fun m => [(c!"proc.cpu.user", .flt (.fin (user m))), (c!"proc.cpu.system", .flt (.fin (system m)))]
  obtain ⟨v, v1, v2⟩ := cpu_close hle.1 hle.2
  refine ⟨v, v2, host_said_configurable ops pre int plugins w inst ext os h _ _ _
    (last_difference hms hkind rd (fun m => .flt (.fin (t m))) ?_ ?_ fun _ _ _ _ x hx => hx) v1 ho interval percent hok⟩
  · intro ms hsub
    rw [run_cpuCounters]
    show ((({} : CounterGen)).run _).map _ = _
    congr 2
    refine List.map_congr_left fun m hm => ?_
    rw [htimes m (hsub m hm)]
    rfl
  · intro m _
    refine ⟨by simp [Dict.Wf, Dict.keys, rd], ?_⟩
    rcases hn with ⟨rfl, rfl⟩ | ⟨rfl, rfl⟩ <;> simp [rd, Dict.find]

theorem run_sysNet (ms : List HostMoment) (g : HostGens) :
    g.run (ms.map fun m => (m, .sys .netdev)) =
      (g.sys.net.run (ms.map fun m => netReading m.sys)).map fun o => (HostReport.sys .netdev, o) := by
  induction ms generalizing g with
  | nil => rfl
  | cons m ms ih =>
    show (_, _) :: HostGens.run _ (ms.map fun m => (m, .sys .netdev)) = _
    rw [ih]
    rfl

/-- C171 (partial): likewise the traffic of a network device, if every reading of `/proc/net/dev` has the same devices. -/
theorem C171_traffic_partial [IntExact] (ops : PluginOps PF PM) (pre int : Str) (plugins : List PF) (w : World)
    (inst : Str) (ext : Bool) (os : List HostOp) (h : LegalHost inst os) (earlier : List HostMoment) (a b : HostMoment)
    (hms : ((hostCalls os).filter fun c => c.2 = .sys .netdev).map Prod.fst = earlier ++ [a, b])
    (text : HostMoment → Str) (dev suffix column : Str) (va vb : ℤ)
    (ht : ∀ m ∈ earlier ++ [a, b], m.sys.files c!"/proc/net/dev" = some (text m) ∧ ∃ columns lines, NetText (text m) columns lines)
    (hd : ∀ m ∈ earlier ++ [a, b], ∀ m' ∈ earlier ++ [a, b], ∀ d, HasDevice (text m) d → HasDevice (text m') d)
    (hn : NetName suffix column) (ha : NetCount (text a) dev column va) (hb : NetCount (text b) dev column vb) (hle : |vb - va| ≤ 2 ^ 53)
    (ho : ∀ m ∈ hostOutside os, ∀ v, ¬ Reading c!"g" (reportedAs inst (c!"sys.net." ++ dev ++ suffix)) m v) (interval percent : ℤ) :
    let s := hostServiceC ops pre int plugins w inst ext os
    let r := flush (configurable ops pre int) w interval percent s
    r.2.2 = none →
    (⟨prefixed pre (reportedAs inst (c!"sys.net." ++ dev ++ suffix)) c!".value", .flt (.fin ((vb - va : ℤ) : ℚ)), truncQ (w.clk s.ticks)⟩ : Datapoint) ∈
      r.2.1 := by
  have hread : ∀ m ∈ earlier ++ [a, b], ∃ res : Dict ℤ, netReading m.sys = .ok (res.map fun p => (p.1, Num.int p.2)) ∧ res.Wf ∧
      (∀ dev s c v, NetName s c → (res.find (c!"sys.net" ++ c!"." ++ dev ++ s) = some v ↔ NetCount (text m) dev c v)) ∧
      (∀ k ∈ res.keys, ∃ dev s c, NetName s c ∧ k = c!"sys.net" ++ c!"." ++ dev ++ s ∧ HasDevice (text m) dev) ∧
      (∀ dev s c, NetName s c → HasDevice (text m) dev → ∃ v, res.find (c!"sys.net" ++ c!"." ++ dev ++ s) = some v) := by
    intro m hm
    obtain ⟨hf, columns, lines, hnt⟩ := ht m hm
    obtain ⟨res, h1, h2, h3, h4, h5⟩ := netText_parse hnt c!"sys.net"
    refine ⟨res, ?_, h2, fun dev s c v hs => ?_, fun k hk => ?_, fun dev s c hs hdv => ?_⟩
    · simp [netReading, reportFile, loadFile, hf, h1, asNums]
    · rw [h3 dev s c v hs]
      constructor
      · rintro ⟨nums, g1, g2⟩; exact ⟨columns, lines, nums, hnt, g1, g2⟩
      · rintro ⟨c', l', nums, g0, g1, g2⟩
        obtain ⟨rfl, rfl⟩ := netText_unique g0 hnt
        exact ⟨nums, g1, g2⟩
    · obtain ⟨d, s, c, g1, g2, g3⟩ := h4 k hk
      exact ⟨d, s, c, g1, g2, columns, lines, hnt, g3⟩
    · obtain ⟨c', l', g0, g1⟩ := hdv
      obtain ⟨rfl, rfl⟩ := netText_unique g0 hnt
      exact h5 dev s c hs g1
  classical
  choose! res hres using hread
  let rd : HostMoment → Dict Num := fun m => (res m).map fun p => (p.1, Num.int p.2)
  have hfind : ∀ m k, (rd m).find k = ((res m).find k).map Num.int := fun m k => Dict.find_map (res m) (fun _ v => Num.int v) k
  have hkeys : ∀ m, (rd m).keys = (res m).keys := fun m => asNums_keys
  let val : HostMoment → Num := fun m => .int (((res m).find (c!"sys.net." ++ dev ++ suffix)).getD 0)
  have hdev : HasDevice (text a) dev := by
    obtain ⟨columns, lines, nums, g1, ⟨pre', l, post, rfl, g2, -⟩, -⟩ := ha
    exact ⟨columns, _, g1, l, by simp, nums, g2⟩
  have hval : ∀ m ∈ earlier ++ [a, b], ∀ v, NetCount (text m) dev column v → (res m).find (c!"sys.net." ++ dev ++ suffix) = some v :=
    fun m hm v hv => ((hres m hm).2.2.1 dev suffix column v hn).2 hv
  have hkind : ReportsName (hostKind (.sys .netdev)) (c!"sys.net." ++ dev ++ suffix) := by
    have ha' : a ∈ earlier ++ [a, b] := by simp
    obtain ⟨r, r1, r2⟩ := C72_difference (rd a) (rd a) (asNums_wf (hres a ha').2.1) fun k hk => hk
    refine .netdev { net := { last := some (rd a) } } a.sys r _ ?_ ?_
    · show (CounterGen.next _ (netReading a.sys)).2 = _
      rw [(hres a ha').1, r1]
    · rw [← Dict.find_isSome_iff, r2, hfind, hval a ha' va ha]
      rfl
  have hlast := last_difference hms hkind rd val ?_ ?_ ?_
  · refine host_said_configurable ops pre int plugins w inst ext os h _ _ _ hlast ?_ ho interval percent
    show parseFloat (Num.render pyStr (.int (((res b).find (c!"sys.net." ++ dev ++ suffix)).getD 0 -
      ((res a).find (c!"sys.net." ++ dev ++ suffix)).getD 0))) = _
    rw [hval a (by simp) va ha, hval b (by simp) vb hb]
    exact int_text hle
  · intro ms hsub
    rw [run_sysNet]
    show ((({} : CounterGen)).run _).map _ = _
    congr 2
    exact List.map_congr_left fun m hm => (hres m (hsub m hm)).1
  · intro m hm
    refine ⟨asNums_wf (hres m hm).2.1, ?_⟩
    obtain ⟨v, hv⟩ := (hres m hm).2.2.2.2 dev suffix column hn (hd a (by simp) m hm dev hdev)
    have hv : (res m).find (c!"sys.net." ++ dev ++ suffix) = some v := hv
    rw [hfind, hv]
    show some (Num.int v) = some (.int (((res m).find (c!"sys.net." ++ dev ++ suffix)).getD 0))
    rw [hv]
    rfl
  · intro a' ha' b' hb' x hx
    rw [hkeys] at hx ⊢
    obtain ⟨d, s, c, g1, rfl, g3⟩ := (hres b' hb').2.2.2.1 x hx
    obtain ⟨v, hv⟩ := (hres a' ha').2.2.2.2 d s c g1 (hd b' hb' a' ha' d g3)
    rw [← Dict.find_isSome_iff, hv]; rfl

end

section
attribute [local instance] binary64 binary64_ieee

/-- Three reports of what the process has read and written: 3, 53 and 153 bytes read. -/
def exReads : List HostOp :=
  [.report (exHost 4096 [1, 2, 3, 4] []) .io, .report (exHost 4096 [1, 2, 53, 4] []) .io, .report (exHost 4096 [1, 2, 153, 4] []) .io]

theorem exReads_legal : LegalHost c!"host" exReads := by
  refine ⟨by decide, fun k d hd hk => ?_⟩
  have hall : ∀ o ∈ ({} : HostGens).run (hostCalls exReads), o.1 = .io := by decide +kernel
  have := hall _ hd
  simp only at this
  subst this
  rcases hk with hk | hk | hk <;> cases hk

/-- The four numbers at a moment. -/
def exCount (m : HostMoment) : List ℤ := (m.io.getD []).map fun x => match x with | .int z => z | _ => 0

/-- The hypotheses of C171_io_partial are met, also when a flush without a report follows. -/
example := C171_io_partial noPlugins c!"p" c!"s" [] exWorld c!"host" false exReads exReads_legal [exHost 4096 [1, 2, 3, 4] []]
  (exHost 4096 [1, 2, 53, 4] []) (exHost 4096 [1, 2, 153, 4] []) rfl exCount
  (fun m hm => by
    simp only [List.cons_append, List.nil_append, List.mem_cons, List.not_mem_nil, or_false] at hm
    rcases hm with rfl | rfl | rfl <;> exact ⟨rfl, rfl⟩) c!"read.bytes" 2 rfl 53 153 rfl rfl (by norm_num)
  (by intro m hm; cases hm) 10000 90 (by decide +kernel)

/-- Those of C171_cpu_partial. -/
example := C171_cpu_partial noPlugins c!"p" c!"s" [] exWorld c!"host" false exSpentRun exSpentRun_legal
  [exSpent (1 / 2) (1 / 4) 100] (exSpent (5 / 4) (1 / 4) 110) (exSpent (3 / 2) (1 / 4) (441 / 4)) rfl exUser exSystem
  (fun m hm => by
    simp only [List.cons_append, List.nil_append, List.mem_cons, List.not_mem_nil, or_false] at hm
    rcases hm with rfl | rfl | rfl <;> rfl) c!"proc.cpu.user" exUser (.inl ⟨rfl, rfl⟩)
  (by simp [exUser, exSpent]; norm_num)
  (fun m hm v => exSpentRun_outside _ (.inl rfl) v m hm) 10000 90 (by decide +kernel)

/-- Those of C160_connections_configurable. -/
example := C160_connections_configurable noPlugins c!"p" c!"s" [] exWorld c!"host" false exHostRun exHostRun_legal
  (exHost 4096 [1, 2, 3, 4] [(true, c!"LISTEN"), (false, c!"NONE"), (true, c!"CLOSE_WAIT")]) (hostCalls (exHostRun.take 2))
  (hostCalls (exHostRun.drop 3)) rfl _ rfl c!"close_wait" (by decide) (by decide)
  (fun c hc hk conns' h' => by
    simp only [exHostRun, List.drop, hostCalls, List.mem_cons, List.not_mem_nil, or_false] at hc
    rcases hc with rfl | rfl | rfl | rfl | rfl <;> first | (cases hk; done) | (cases h'; decide))
  (fun m hm v => exHostRun_outside v m hm) 10000 90 (by decide +kernel)

/-- What the machine says at a moment about its devices. -/
def exNetHost (lines : List Str) : HostMoment := { exHost 4096 [1, 2, 3, 4] [] with sys := ⟨exNet lines, []⟩ }

/-- Two reports of the traffic. -/
def exTraffic : List HostOp := [.report (exNetHost [c!"lo: 1 2 3 4"]) (.sys .netdev), .report (exNetHost [c!"lo: 5 3 10 5"]) (.sys .netdev)]

theorem exTraffic_legal : LegalHost c!"host" exTraffic := by
  have legal : ∀ s : Str, (s.all fun c => decide (Legal c)) = true → ∀ c ∈ s, Legal c := by
    intro s hs c hc
    have := List.all_eq_true.1 hs c hc
    simpa using this
  refine ⟨legal _ (by decide), fun k d hd hk n hn => ?_⟩
  have hall : ∀ o ∈ ({} : HostGens).run (hostCalls exTraffic),
      (match o.2 with | .ok d => d.all fun p => p.1.all fun c => decide (Legal c) | .error _ => true) = true := by decide +kernel
  have := hall _ hd
  simp only [List.all_eq_true] at this
  obtain ⟨p, hp, rfl⟩ := List.mem_map.1 hn
  intro c hc
  simpa using this p hp c hc

/-- The hypotheses of C171_traffic_partial are met. -/
example : (⟨prefixed c!"p" (reportedAs c!"host" c!"sys.net.lo.bytes.received") c!".value", .flt (.fin ((5 - 1 : ℤ) : ℚ)),
      truncQ (exWorld.clk (hostServiceC noPlugins c!"p" c!"s" [] exWorld c!"host" false exTraffic).ticks)⟩ : Datapoint) ∈
    (flush (configurable noPlugins c!"p" c!"s") exWorld 10000 90 (hostServiceC noPlugins c!"p" c!"s" [] exWorld c!"host" false exTraffic)).2.1 := by
  have d1 : DeviceLine c!"lo: 1 2 3 4" c!"lo" [1, 2, 3, 4] := ⟨c!"lo", c!" 1 2 3 4", [c!"1", c!"2", c!"3", c!"4"], rfl, by decide, by decide,
    strip_spec c!"lo", separated_iff.2 (by decide +kernel), intsOf_iff.1 (by decide +kernel)⟩
  have d2 : DeviceLine c!"lo: 5 3 10 5" c!"lo" [5, 3, 10, 5] := ⟨c!"lo", c!" 5 3 10 5", [c!"5", c!"3", c!"10", c!"5"], rfl, by decide, by decide,
    strip_spec c!"lo", separated_iff.2 (by decide +kernel), intsOf_iff.1 (by decide +kernel)⟩
  have t1 := exNet_text [c!"lo: 1 2 3 4"] (by decide +kernel) (by simpa using ⟨_, _, d1, by decide⟩)
  have t2 := exNet_text [c!"lo: 5 3 10 5"] (by decide +kernel) (by simpa using ⟨_, _, d2, by decide⟩)
  have only1 : ∀ d, HasDevice ((exNet [c!"lo: 1 2 3 4"] c!"/proc/net/dev").getD []) d → d = c!"lo" := by
    rintro d ⟨c, ls, h, l, hl, nums, hd⟩
    obtain ⟨rfl, rfl⟩ := netText_unique h t1
    obtain rfl : l = c!"lo: 1 2 3 4" := by simpa using hl
    exact (deviceLine_unique hd d1).1
  have only2 : ∀ d, HasDevice ((exNet [c!"lo: 5 3 10 5"] c!"/proc/net/dev").getD []) d → d = c!"lo" := by
    rintro d ⟨c, ls, h, l, hl, nums, hd⟩
    obtain ⟨rfl, rfl⟩ := netText_unique h t2
    obtain rfl : l = c!"lo: 5 3 10 5" := by simpa using hl
    exact (deviceLine_unique hd d2).1
  have has1 : HasDevice ((exNet [c!"lo: 1 2 3 4"] c!"/proc/net/dev").getD []) c!"lo" := ⟨_, _, t1, _, by simp, _, d1⟩
  have has2 : HasDevice ((exNet [c!"lo: 5 3 10 5"] c!"/proc/net/dev").getD []) c!"lo" := ⟨_, _, t2, _, by simp, _, d2⟩
  refine C171_traffic_partial noPlugins c!"p" c!"s" [] exWorld c!"host" false exTraffic exTraffic_legal [] (exNetHost [c!"lo: 1 2 3 4"])
    (exNetHost [c!"lo: 5 3 10 5"]) rfl (fun m => (m.sys.files c!"/proc/net/dev").getD []) c!"lo" c!".bytes.received" c!"recv_bytes" 1 5 ?_ ?_
    .recvBytes ⟨_, _, _, t1, ⟨[], _, [], rfl, d1, by simp⟩, 0, rfl, rfl⟩ ⟨_, _, _, t2, ⟨[], _, [], rfl, d2, by simp⟩, 0, rfl, rfl⟩ (by norm_num)
    (by intro m hm; cases hm) 10000 90 (by decide +kernel)
  · intro m hm
    simp only [List.nil_append, List.mem_cons, List.not_mem_nil, or_false] at hm
    rcases hm with rfl | rfl
    · exact ⟨rfl, _, _, t1⟩
    · exact ⟨rfl, _, _, t2⟩
  · intro m hm m' hm' d hd
    simp only [List.nil_append, List.mem_cons, List.not_mem_nil, or_false] at hm hm'
    have hd' : d = c!"lo" := by
      rcases hm with rfl | rfl
      · exact only1 d hd
      · exact only2 d hd
    subst hd'
    rcases hm' with rfl | rfl
    · exact has1
    · exact has2

/-- C171, the expectation that C160_io meets for the default processor: the readings in the flush add up to what was read since the first
report. False for the configurable processor: of the 150 bytes read, the flush shows the last 100. -/
theorem C171_refuted : ¬ ∀ (inst : Str) (os : List HostOp), LegalHost inst os → ∀ (m0 : HostMoment) (ms : List HostMoment),
    ((hostCalls os).filter fun c => c.2 = .io).map Prod.fst = m0 :: ms → (∀ o ∈ os, ∃ m, o = .report m .io) → ∀ (v0 v : ℤ),
    m0.io = some [.int 1, .int 2, .int v0, .int 4] → ((m0 :: ms).getLast (by simp)).io = some [.int 1, .int 2, .int v, .int 4] →
    let r := flush (configurable noPlugins c!"p" c!"s") exWorld 10000 90 (hostServiceC noPlugins c!"p" c!"s" [] exWorld inst false os)
    r.2.2 = none →
    ((named (prefixed c!"p" (reportedAs inst c!"proc.io.read.bytes") c!".value") r.2.1).map fun d => d.value.rat).sum = v - v0 := by
  intro h
  have := h c!"host" exReads exReads_legal _ _ rfl (by
    intro o ho
    simp only [exReads, List.mem_cons, List.not_mem_nil, or_false] at ho
    rcases ho with rfl | rfl | rfl <;> exact ⟨_, rfl⟩) 3 153 rfl rfl (by decide +kernel)
  revert this
  decide +kernel

/-- C171, a second expectation: what is read is shown at most once. False: two flushes after a report both show the difference. -/
theorem C171_twice_refuted : ¬ ∀ (inst : Str) (os : List HostOp), LegalHost inst os → ∀ (m0 : HostMoment) (ms : List HostMoment),
    ((hostCalls os).filter fun c => c.2 = .io).map Prod.fst = m0 :: ms → hostOutside os = [] → ∀ (v0 v : ℤ),
    m0.io = some [.int 1, .int 2, .int v0, .int 4] → ((m0 :: ms).getLast (by simp)).io = some [.int 1, .int 2, .int v, .int 4] →
    ((named (prefixed c!"p" (reportedAs inst c!"proc.io.read.bytes") c!".value") (HostState.run (configurable noPlugins c!"p" c!"s") exWorld pyStr inst
      { self := { client := { conn := true, namespc := some [], ext := false }, ps := CPState.init noPlugins [] } } os).self.out).map
        fun d => d.value.rat).sum ≤ v - v0 := by
  intro h
  have hl : LegalHost c!"host" (exReads ++ [.flush 10000 90, .flush 10000 90]) := exReads_legal
  have := h c!"host" (exReads ++ [.flush 10000 90, .flush 10000 90]) hl _ _ rfl rfl 3 153 rfl rfl
  revert this
  decide +kernel

end
end Txstatsd
