import Verif.Lemmas.SysService

/-!
# C157: the statistics of the machine, from its files to the flushes
-/

set_option linter.unusedVariables false

namespace Txstatsd
open Spec
section
variable [Rounding] {PF PM : Type}

/-- A service of the default processor that reports about its machine, after a history. -/
abbrev machineService (ops : PluginOps PF PM) (plugins : List PF) (w : World) (inst : Str) (ext : Bool) (os : List SysOp) :=
  (SysState.run (messageProcessor ops) w pyStr inst
    { self := { client := { conn := true, namespc := some [], ext := ext }, ps := MPState.init ops plugins } } os).self.ps

/-- Likewise of the configurable processor. -/
abbrev machineServiceC (ops : PluginOps PF PM) (pre int : Str) (plugins : List PF) (w : World) (inst : Str) (ext : Bool)
    (os : List SysOp) :=
  (SysState.run (configurable ops pre int) w pyStr inst
    { self := { client := { conn := true, namespc := some [], ext := ext }, ps := CPState.init ops plugins } } os).self.ps

/-- C157: in every history of reports, messages and flushes, a completed flush shows the bytes that `/proc/meminfo` gave for a label at
the last report of the memory. -/
theorem C157_memory [IntExact] (ops : PluginOps PF PM) (hq : Quiet ops c!"stats.gauge.") (plugins : List PF) (w : World)
    (inst : Str) (ext : Bool) (os : List SysOp) (h : LegalMachine inst os) (m : Moment) (hm : LastReport os .meminfo m)
    (text : Str) (hf : m.files c!"/proc/meminfo" = some text)
    (hl : ∀ l ∈ splitOn '\n' text, OtherLine l ∨ ∃ label v, MemLine l label v)
    (label : Str) (z : ℤ) (hz : LastWith (fun l v => MemLine l label v) (splitOn '\n' text) z) (hb : |z| ≤ 2 ^ 53)
    (ho : ∀ m ∈ sysOutside os, ∀ v, ¬ Reading c!"g" (reportedAs inst (c!"sys.mem." ++ label)) m v) (interval percent : ℤ) :
    let s := machineService ops plugins w inst ext os
    let r := flush (messageProcessor ops) w interval percent s
    r.2.2 = none →
    (named (c!"stats.gauge." ++ reportedAs inst (c!"sys.mem." ++ label) ++ c!".value") r.2.1).getLast? =
      some ⟨c!"stats.gauge." ++ reportedAs inst (c!"sys.mem." ++ label) ++ c!".value", .flt (.fin z), truncQ (w.clk s.ticks)⟩ := by
  intro s r hok
  have hs : s = _ := congrArg SelfState.ps (sysState_run (messageProcessor ops) w pyStr inst os _)
  have := self_latest ops hq plugins w pyStr C116_accepted inst (c!"sys.mem." ++ label) ext (selfOps {} os) (legal_machine h)
    (by rw [selfOps_outside]; exact ho) interval percent (.int z) (.fin z)
    (by simp only [Num.render, parseFloat_intStr, IntExact.rnd_int z hb])
    (last_value hm fun g => memory_call hf hl hz g)
  simp only [← hs] at this
  exact this hok

/-- C157: likewise on the configurable processor. -/
theorem C157_memory_configurable [IntExact] (ops : PluginOps PF PM) (pre int : Str) (plugins : List PF) (w : World)
    (inst : Str) (ext : Bool) (os : List SysOp) (h : LegalMachine inst os) (m : Moment) (hm : LastReport os .meminfo m)
    (text : Str) (hf : m.files c!"/proc/meminfo" = some text)
    (hl : ∀ l ∈ splitOn '\n' text, OtherLine l ∨ ∃ label v, MemLine l label v)
    (label : Str) (z : ℤ) (hz : LastWith (fun l v => MemLine l label v) (splitOn '\n' text) z) (hb : |z| ≤ 2 ^ 53)
    (ho : ∀ m ∈ sysOutside os, ∀ v, ¬ Reading c!"g" (reportedAs inst (c!"sys.mem." ++ label)) m v) (interval percent : ℤ) :
    let s := machineServiceC ops pre int plugins w inst ext os
    let r := flush (configurable ops pre int) w interval percent s
    r.2.2 = none →
    (⟨prefixed pre (reportedAs inst (c!"sys.mem." ++ label)) c!".value", .flt (.fin z), truncQ (w.clk s.ticks)⟩ : Datapoint) ∈ r.2.1 := by
  intro s r hok
  have hs : s = _ := congrArg SelfState.ps (sysState_run (configurable ops pre int) w pyStr inst os _)
  have := self_latest_configurable ops pre int plugins w pyStr C116_accepted inst (c!"sys.mem." ++ label) ext (selfOps {} os)
    (legal_machine h) (by rw [selfOps_outside]; exact ho) interval percent (.int z) (.fin z)
    (by simp only [Num.render, parseFloat_intStr, IntExact.rnd_int z hb])
    (last_value hm fun g => memory_call hf hl hz g)
  simp only [← hs] at this
  exact this hok

/-- C157: likewise the load, for numbers as the kernel writes them (at most twelve digits): what arrives is the double nearest to the
text, although it passed through a second text on its way. -/
theorem C157_load [Ieee] (ops : PluginOps PF PM) (hq : Quiet ops c!"stats.gauge.") (plugins : List PF) (w : World)
    (inst : Str) (ext : Bool) (os : List SysOp) (h : LegalMachine inst os) (m : Moment) (hm : LastReport os .loadavg m)
    (text a b c : Str) (rest : List Str) (hf : m.files c!"/proc/loadavg" = some text)
    (hs : Separated (fun c => isSpace c = true) text (a :: b :: c :: rest))
    (x y z : PyFloat) (hx : parseFloat a = some x) (hy : parseFloat b = some y) (hz : parseFloat c = some z)
    (name : Str) (d u : ℚ)
    (hn : (name, PyFloat.fin u) ∈ [(c!"oneminute", x), (c!"fiveminutes", y), (c!"fifthteenminutes", z)])
    (hd : Decimal12 d) (hu : rnd d = .fin u) (h0 : d = 0 ∨ 2 ^ (-1022 : ℤ) ≤ |d|)
    (ho : ∀ m ∈ sysOutside os, ∀ v, ¬ Reading c!"g" (reportedAs inst (c!"sys.loadavg." ++ name)) m v) (interval percent : ℤ) :
    let s := machineService ops plugins w inst ext os
    let r := flush (messageProcessor ops) w interval percent s
    r.2.2 = none →
    (named (c!"stats.gauge." ++ reportedAs inst (c!"sys.loadavg." ++ name) ++ c!".value") r.2.1).getLast? =
      some ⟨c!"stats.gauge." ++ reportedAs inst (c!"sys.loadavg." ++ name) ++ c!".value", .flt (.fin u), truncQ (w.clk s.ticks)⟩ := by
  intro s r hok
  have hs' : s = _ := congrArg SelfState.ps (sysState_run (messageProcessor ops) w pyStr inst os _)
  have htext : parseFloat (Num.render pyStr (.flt (.fin u))) = some (.fin u) := by
    show parseFloat (pyStr (.fin u)) = _
    rcases h0 with rfl | h0
    · have hu0 := C116_exact (0 : ℚ) ⟨0, 0, by norm_num, by norm_num⟩
      have h1 : (rnd (0 : ℚ)) = .fin 0 := by
        have := IntExact.rnd_int (0 : ℤ) (by norm_num)
        simpa using this
      rw [h1] at hu hu0
      cases hu
      exact hu0
    · exact C116_decimal d u hd h0 hu
  have hcall : ∀ g : SysGens, ∃ e, (g.call m .loadavg).2 = .ok e ∧ e.Wf ∧ e.find (c!"sys.loadavg." ++ name) = some (.flt (.fin u)) := by
    intro g
    obtain ⟨e, e1, e2, e3, e4, e5⟩ := load_call hf hs hx hy hz g
    refine ⟨e, e1, e2, ?_⟩
    simp only [List.mem_cons, Prod.mk.injEq, List.not_mem_nil, or_false] at hn
    rcases hn with ⟨rfl, hn⟩ | ⟨rfl, hn⟩ | ⟨rfl, hn⟩
    · rw [hn]; exact e3
    · rw [hn]; exact e4
    · rw [hn]; exact e5
  have := self_latest ops hq plugins w pyStr C116_accepted inst (c!"sys.loadavg." ++ name) ext (selfOps {} os) (legal_machine h)
    (by rw [selfOps_outside]; exact ho) interval percent (.flt (.fin u)) (.fin u) htext (last_value hm hcall)
  simp only [← hs'] at this
  exact this hok

/-- C157: the readings of a device's traffic in a completed flush add up to what has passed since the first report of it. -/
theorem C157_traffic (ops : PluginOps PF PM) (hq : Quiet ops c!"stats.gauge.") (plugins : List PF) (w : World)
    (inst : Str) (ext : Bool) (os : List SysOp) (h : LegalMachine inst os) (m0 : Moment) (ms : List Moment)
    (hms : ((sysCalls os).filter fun c => c.2 = .netdev).map Prod.fst = m0 :: ms) (text : Moment → Str) (dev suffix column : Str) (v0 v : ℤ)
    (ht : ∀ m ∈ m0 :: ms, m.files c!"/proc/net/dev" = some (text m) ∧ ∃ columns lines, NetText (text m) columns lines)
    (hd : List.IsChain (fun a b => ∀ d, HasDevice (text b) d → HasDevice (text a) d) (m0 :: ms))
    (hn : NetName suffix column) (h0 : NetCount (text m0) dev column v0)
    (hv : NetCount (text ((m0 :: ms).getLast (by simp))) dev column v)
    (ho : ∀ m ∈ sysOutside os, ∀ v, ¬ Reading c!"g" (reportedAs inst (c!"sys.net." ++ dev ++ suffix)) m v) (interval percent : ℤ) :
    let s := machineService ops plugins w inst ext os
    let r := flush (messageProcessor ops) w interval percent s
    (c!"gauge." ++ reportedAs inst (c!"sys.net." ++ dev ++ suffix) ++ c!".value") ∉ s.counters.keys → r.2.2 = none →
    ∃ zs : List ℤ, zs.sum = v - v0 ∧
      (named (c!"stats.gauge." ++ reportedAs inst (c!"sys.net." ++ dev ++ suffix) ++ c!".value") r.2.1).map (·.value) =
        zs.map fun z : ℤ => .flt (rnd z) := by
  intro s r hc hok
  have hs : s = _ := congrArg SelfState.ps (sysState_run (messageProcessor ops) w pyStr inst os _)
  have hcalls : (sysCalls os).filter (fun c => c.2 = .netdev) = (m0 :: ms).map fun m => (m, .netdev) := by
    rw [← hms, List.map_map]
    have : ∀ l : List (Moment × SysReport), (∀ c ∈ l, c.2 = .netdev) → l = l.map ((fun m => (m, .netdev)) ∘ Prod.fst) := by
      intro l hl
      conv_lhs => rw [← List.map_id l]
      refine List.map_congr_left fun c hc => ?_
      obtain ⟨m, k⟩ := c
      have := hl _ hc
      simp only at this
      subst this; rfl
    exact this _ fun c hc => by simpa using (List.mem_filter.1 hc).2
  obtain ⟨outs, e1, e2⟩ := C142_traffic m0 ms text dev suffix column v0 v ht hd hn h0 hv
  have hints : ∀ o ∈ outs, AllInts o ∧ o.Wf := by
    intro o ho'
    refine netRun_ints (m0 :: ms) {} (fun d hd => by cases hd) .netdev o ?_
    rw [e1]
    exact List.mem_cons_of_mem _ (List.mem_map.2 ⟨o, ho', rfl⟩)
  obtain ⟨zs, e3, e4⟩ : ∃ zs : List ℤ, reportedValues (c!"sys.net." ++ dev ++ suffix) (selfOps {} os) = zs.map Num.int ∧
      zs.sum = v - v0 := by
    rw [net_values (by rw [List.append_assoc]; exact List.prefix_append _ _), hcalls, e1, ← e2]
    clear e1 e2
    rw [List.flatMap_cons, show valuesIn (c!"sys.net." ++ dev ++ suffix) (SysReport.netdev, .ok []) = [] from rfl, List.nil_append]
    induction outs with
    | nil => exact ⟨[], rfl, rfl⟩
    | cons o outs ih =>
      obtain ⟨zs, i1, i2⟩ := ih fun o ho => hints o (List.mem_cons_of_mem _ ho)
      obtain ⟨zs', i3, i4⟩ := valuesIn_int (name := c!"sys.net." ++ dev ++ suffix) (o := .netdev) (hints o (List.mem_cons_self ..)).1
        (hints o (List.mem_cons_self ..)).2
      refine ⟨zs' ++ zs, ?_, ?_⟩
      · rw [List.map_cons, List.flatMap_cons, i1, i3, List.map_append]
      · rw [List.sum_append, i2, i4, List.map_cons, List.sum_cons]
  have hb := C99_backlog ops hq plugins w pyStr C116_accepted inst (c!"sys.net." ++ dev ++ suffix) ext (selfOps {} os) (legal_machine h)
    (by rw [selfOps_outside]; exact ho) interval percent
  simp only [← hs] at hb
  have hb := hb hc hok
  rw [e3, List.forall₂_map_left_iff] at hb
  refine ⟨zs, e4, ?_⟩
  show List.map _ (named _ r.2.1) = _
  generalize named (c!"stats.gauge." ++ reportedAs inst (c!"sys.net." ++ dev ++ suffix) ++ c!".value") r.2.1 = ds at hb ⊢
  clear e3 e4
  induction hb with
  | nil => rfl
  | cons a _ ih =>
    obtain ⟨y, a1, a2⟩ := a
    simp only [Num.render, parseFloat_intStr, Option.some.injEq] at a1
    subst a1
    rw [List.map_cons, List.map_cons, ih, a2]

end
section
attribute [local instance] binary64

/-- The files of a machine. -/
def exMachine (mem load : Str) (net : List Str) : Moment :=
  ⟨fun name => if name = c!"/proc/meminfo" then some mem else if name = c!"/proc/loadavg" then some load else exNet net name, []⟩

/-- A history with reports of all files. -/
def exMachineRun : List SysOp :=
  [.report (exMachine c!"MemTotal:  8 kB\nDirty: x" c!"0.10 0.20 0.15 1/234 999" [c!"lo: 1 2 3 4"]) .meminfo,
   .report (exMachine c!"" c!"0.10 0.20 0.15 1/234 999" [c!"lo: 1 2 3 4"]) .loadavg,
   .report (exMachine c!"" c!"" [c!"lo: 1 2 3 4"]) .netdev, .msg c!"x:1|c", .flush 10000 90,
   .report (exMachine c!"" c!"" [c!"lo: 5 3 10 5"]) .netdev, .report ⟨fun _ => none, []⟩ .cpu]

theorem exMachineRun_run : ({} : SysGens).run (sysCalls exMachineRun) =
    [(.meminfo, .ok [(c!"sys.mem.MemTotal", .int 8192)]),
     (.loadavg, .ok [(c!"sys.loadavg.oneminute", .flt (rnd (1 / 10))), (c!"sys.loadavg.fiveminutes", .flt (rnd (2 / 10))),
       (c!"sys.loadavg.fifthteenminutes", .flt (rnd (15 / 100)))]),
     (.netdev, .ok []), (.netdev, .ok [(c!"sys.net.lo.bytes.received", .int 4), (c!"sys.net.lo.bytes.sent", .int 7),
        (c!"sys.net.lo.packets.received", .int 1), (c!"sys.net.lo.packets.sent", .int 1)]), (.cpu, .ok [])] := by decide +kernel

theorem exMachineRun_legal : LegalMachine c!"host" exMachineRun := by
  have legal : ∀ s : Str, (s.all fun c => decide (Legal c)) = true → ∀ c ∈ s, Legal c := by
    intro s hs c hc
    have := List.all_eq_true.1 hs c hc
    simpa using this
  refine ⟨legal _ (by decide), fun k d hd hk n hn => ?_⟩
  rw [exMachineRun_run] at hd
  simp only [List.mem_cons, Prod.mk.injEq, Except.ok.injEq, List.not_mem_nil, or_false] at hd
  rcases hd with ⟨rfl, rfl⟩ | ⟨rfl, rfl⟩ | ⟨rfl, rfl⟩ | ⟨rfl, rfl⟩ | ⟨rfl, rfl⟩
  · simp at hk
  · simp at hk
  · cases hn
  · simp only [Dict.keys, List.map_cons, List.map_nil, List.mem_cons, List.not_mem_nil, or_false] at hn
    rcases hn with rfl | rfl | rfl | rfl <;> exact legal _ (by decide)
  · cases hn

/-- What the flush of this service shows. -/
example : let r := flush (messageProcessor noPlugins) exWorld 10000 90 (machineService noPlugins [] exWorld c!"host" false exMachineRun)
    r.2.2 = none ∧
    (named c!"stats.gauge.host.sys.mem.MemTotal.value" r.2.1).map (·.value) = [.flt (.fin 8192)] ∧
    (named c!"stats.gauge.host.sys.loadavg.fiveminutes.value" r.2.1).map (·.value) = [.flt (rnd (2 / 10))] ∧
    (named c!"stats.gauge.host.sys.net.lo.bytes.sent.value" r.2.1).map (·.value) = [.flt (.fin 7)] := by decide +kernel

example : LastReport exMachineRun .meminfo (exMachine c!"MemTotal:  8 kB\nDirty: x" c!"0.10 0.20 0.15 1/234 999" [c!"lo: 1 2 3 4"]) :=
  ⟨[], _, rfl, by simp [sysCalls]⟩

example : let text := c!"MemTotal:  8 kB\nDirty: x"
    (∀ l ∈ splitOn '\n' text, OtherLine l ∨ ∃ label v, MemLine l label v) ∧
    LastWith (fun l v => MemLine l c!"MemTotal" v) (splitOn '\n' text) 8192 := by
  have h1 : MemLine c!"MemTotal:  8 kB" c!"MemTotal" 8192 :=
    ⟨by decide, c!"8", [c!"kB"], 8, 1024, separated_space.mpr (by decide), .kilo _ _, parseInt_iff.mp (by decide), by norm_num⟩
  have h2 : OtherLine c!"Dirty: x" := memEntry_none.1 (by decide)
  have hs : splitOn '\n' c!"MemTotal:  8 kB\nDirty: x" = [c!"MemTotal:  8 kB", c!"Dirty: x"] := by decide
  refine ⟨?_, ?_⟩
  · rw [hs]
    intro l hl
    simp only [List.mem_cons, List.not_mem_nil, or_false] at hl
    rcases hl with rfl | rfl
    · exact Or.inr ⟨_, _, h1⟩
    · exact Or.inl h2
  · rw [hs]
    refine ⟨[], _, [_], rfl, h1, fun l hl v hv => ?_⟩
    obtain rfl : l = c!"Dirty: x" := by simpa using hl
    have := memEntry_some.2 hv
    rw [memEntry_none.2 h2] at this
    cases this

example (v : PyFloat) : ∀ m ∈ sysOutside exMachineRun, ¬ Reading c!"g" (reportedAs c!"host" c!"sys.mem.MemTotal") m v := by
  intro m hm; obtain rfl : m = c!"x:1|c" := by simpa [exMachineRun, sysOutside] using hm
  exact not_reading_of (by decide +kernel) v

example : Separated (fun c => isSpace c = true) c!"0.10 0.20 0.15 1/234 999" [c!"0.10", c!"0.20", c!"0.15", c!"1/234", c!"999"] ∧
    parseFloat c!"0.20" = some (rnd (2 / 10)) ∧ Decimal12 (2 / 10) :=
  ⟨separated_iff.2 (by decide), by decide +kernel, 2, -1, by norm_num, by norm_num⟩

end
end Txstatsd
