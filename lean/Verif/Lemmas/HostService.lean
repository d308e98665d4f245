import Verif.Spec.HostService
import Verif.Lemmas.SysService

set_option linter.unusedSectionVars false
set_option linter.unusedSimpArgs false
set_option linter.unusedVariables false

/-! # Lemmas on a service with all its reports -/

namespace Txstatsd
open Spec

theorem lowerChar_eq (c : Char) : lowerChar c = c.toLower := by
  unfold lowerChar Char.toLower
  by_cases h : 'A' ≤ c ∧ c ≤ 'Z'
  · have h1 : c.val ≥ 'A'.val ∧ c.val ≤ 'Z'.val := h
    rw [if_pos (by simpa using h)]
    simp only [h1.1, h1.2, and_self, dite_true]
    have hn : c.toNat + 32 < 0xd800 := by
      have : c.val.toNat ≤ 'Z'.val.toNat := h1.2
      have e : 'Z'.val.toNat = 90 := rfl
      show c.val.toNat + 32 < _
      omega
    apply Char.ext
    apply UInt32.toNat_inj.1
    have h90 : c.val.toNat ≤ 90 := h1.2
    rw [Char.ofNat, dif_pos (Or.inl hn)]
    show c.toNat + 32 = (c.val + ('a'.val - 'A'.val)).toNat
    rw [UInt32.toNat_add, show ('a'.val - 'A'.val).toNat = 32 from rfl, Nat.mod_eq_of_lt (by omega)]
    rfl
  · have h1 : ¬ (c.val ≥ 'A'.val ∧ c.val ≤ 'Z'.val) := h
    rw [if_neg (by simpa using h), dif_neg h1]

variable [Rounding] {C T G PF PM : Type}

/-- The reports with what their functions return. -/
def hostSelf (g : HostGens) : List HostOp → List SelfOp
  | [] => []
  | .report m k :: os => .report (g.call m k).2 :: hostSelf (g.call m k).1 os
  | .msg m :: os => .msg m :: hostSelf g os
  | .flush i p :: os => .flush i p :: hostSelf g os

theorem hostState_run (I : Impl C T G PF PM) (w : World) (fmt : PyFloat → Str) (inst : Str) (os : List HostOp)
    (v : HostState C T G PF PM) :
    (v.run I w fmt inst os).self = v.self.run I w fmt inst (hostSelf v.gens os) := by
  induction os generalizing v with
  | nil => rfl
  | cons o os ih =>
    show ((v.step I w fmt inst o).run I w fmt inst os).self = _
    rw [ih]
    cases o <;> rfl

/-- What a result says about a name. -/
def saysOf (name : Str) (e : Except PyErr (Dict Num)) : List Num :=
  match e with
  | .ok d => (d.filter fun m => decide (m.1 = name)).map (·.2)
  | .error _ => []

theorem hostSelf_values (name : Str) (os : List HostOp) (g : HostGens) :
    reportedValues name (hostSelf g os) = (g.run (hostCalls os)).flatMap fun o => saysOf name o.2 := by
  induction os generalizing g with
  | nil => rfl
  | cons o os ih =>
    cases o with
    | report m k =>
      simp only [hostSelf, hostCalls, HostGens.run, List.flatMap_cons, ← ih]
      simp only [reportedValues, List.flatMap_cons, saysOf]
      cases (g.call m k).2 <;> rfl
    | msg m => simpa [hostSelf, hostCalls, reportedValues] using ih g
    | flush i p => simpa [hostSelf, hostCalls, reportedValues] using ih g

theorem hostSelf_outside (os : List HostOp) (g : HostGens) : outside (hostSelf g os) = hostOutside os := by
  induction os generalizing g with
  | nil => rfl
  | cons o os ih =>
    cases o with
    | report m k => simpa [hostSelf, hostOutside, outside] using ih (g.call m k).1
    | msg m => simpa [hostSelf, hostOutside, outside] using ih g
    | flush i p => simpa [hostSelf, hostOutside, outside] using ih g

theorem hostSelf_mem (os : List HostOp) (g : HostGens) (d : Dict Num) (h : SelfOp.report (.ok d) ∈ hostSelf g os) :
    ∃ k, (k, .ok d) ∈ g.run (hostCalls os) := by
  induction os generalizing g with
  | nil => cases h
  | cons o os ih =>
    cases o with
    | report m k =>
      rcases List.mem_cons.1 h with h | h
      · refine ⟨k, ?_⟩
        simp only [SelfOp.report.injEq] at h
        rw [h]
        exact List.mem_cons_self ..
      · obtain ⟨k', hk⟩ := ih _ h
        exact ⟨k', List.mem_cons_of_mem _ hk⟩
    | msg m =>
      rcases List.mem_cons.1 h with h | h
      · cases h
      · exact ih g h
    | flush i p =>
      rcases List.mem_cons.1 h with h | h
      · cases h
      · exact ih g h

/-- The kind of a report. -/
def hostKind : HostReport → Spec.Kind
  | .sys k => sysKind k
  | .process => .process
  | .cpuCounters => .cpuCounters
  | .io => .io
  | .connections => .connections
  | .reactor => .reactor

theorem hostKind_inj {a b : HostReport} (h : hostKind a = hostKind b) : a = b := by
  cases a with
  | sys a =>
    cases b with
    | sys b => rw [sysKind_inj h]
    | _ => cases a <;> cases h
  | _ =>
    cases b with
    | sys b => cases b <;> cases h
    | _ => first | rfl | cases h

theorem call_names {g : HostGens} {m : HostMoment} {k : HostReport} {d : Dict Num} (h : (g.call m k).2 = .ok d) {n : Str}
    (hn : n ∈ d.keys) : ReportsName (hostKind k) n := by
  cases k with
  | sys k =>
    exact sysRun_names [(m.sys, k)] g.sys (k := k) (d := d) (List.mem_singleton.2 (Prod.ext rfl h.symm)) hn
  | process => exact .process _ _ _ _ d n h hn
  | cpuCounters => exact .cpuCounters _ _ d n h hn
  | io => exact .io _ _ d n h hn
  | connections =>
    simp only [HostGens.call, Except.ok.injEq] at h
    subst h
    rw [asNums_keys (f := fun n : ℕ => Num.int n)] at hn
    exact .connections _ n hn
  | reactor =>
    simp only [HostGens.call, Except.ok.injEq] at h
    subst h
    exact .reactor _ _ n hn

theorem hostRun_call (calls : List (HostMoment × HostReport)) (g : HostGens) {k : HostReport} {e : Except PyErr (Dict Num)}
    (h : (k, e) ∈ g.run calls) : ∃ m g', (m, k) ∈ calls ∧ (HostGens.call g' m k).2 = e := by
  induction calls generalizing g with
  | nil => cases h
  | cons c calls ih =>
    obtain ⟨m, k'⟩ := c
    rcases List.mem_cons.1 h with h | h
    · simp only [Prod.mk.injEq] at h
      obtain ⟨rfl, rfl⟩ := h
      exact ⟨m, g, List.mem_cons_self .., rfl⟩
    · obtain ⟨m', g', h1, h2⟩ := ih _ h
      exact ⟨m', g', List.mem_cons_of_mem _ h1, h2⟩

theorem hostRun_append (a b : List (HostMoment × HostReport)) (g : HostGens) :
    ∃ g', g.run (a ++ b) = g.run a ++ HostGens.run g' b := by
  induction a generalizing g with
  | nil => exact ⟨g, rfl⟩
  | cons c a ih =>
    obtain ⟨m, k⟩ := c
    obtain ⟨g', h⟩ := ih (g.call m k).1
    exact ⟨g', by simp [HostGens.run, h]⟩

theorem saysOf_ne {name : Str} {e : Except PyErr (Dict Num)} (h : ∀ d, e = .ok d → name ∉ d.keys) : saysOf name e = [] := by
  unfold saysOf
  split
  · rename_i d
    rw [List.map_eq_nil_iff, List.filter_eq_nil_iff]
    intro p hp hn
    simp only [decide_eq_true_eq] at hn
    exact h d rfl (hn ▸ List.mem_map.2 ⟨p, hp, rfl⟩)
  · rfl

/-- Only reports of the kind of a name say anything about it. -/
theorem host_values {k : HostReport} {name : Str} (hname : ReportsName (hostKind k) name) (calls : List (HostMoment × HostReport))
    (g : HostGens) :
    (g.run calls).flatMap (fun o => saysOf name o.2) = ((g.run calls).filter fun o => o.1 = k).flatMap fun o => saysOf name o.2 := by
  have key : ∀ l : List (HostReport × Except PyErr (Dict Num)), (∀ o ∈ l, o.1 ≠ k → saysOf name o.2 = []) →
      l.flatMap (fun o => saysOf name o.2) = (l.filter fun o => o.1 = k).flatMap fun o => saysOf name o.2 := by
    intro l
    induction l with
    | nil => intro _; rfl
    | cons o l ih =>
      intro h
      rw [List.flatMap_cons, ih fun o ho => h o (List.mem_cons_of_mem _ ho)]
      by_cases hk : o.1 = k
      · rw [List.filter_cons_of_pos (by simpa using hk), List.flatMap_cons]
      · rw [List.filter_cons_of_neg (by simpa using hk), h o (List.mem_cons_self ..) hk, List.nil_append]
  refine key _ fun o ho hk => saysOf_ne fun d hd hn => hk ?_
  obtain ⟨k', e⟩ := o
  simp only at hd
  subst hd
  obtain ⟨m, g', -, h⟩ := hostRun_call _ _ ho
  exact hostKind_inj (C142_names _ _ _ (call_names h hn) hname)

/-- The last value reported is that of the last report that can have it. -/
theorem host_last {os : List HostOp} {k : HostReport} {m : HostMoment} (hl : LastCall os k m) {name : Str} {v : Num}
    (hr : ∀ g : HostGens, ∃ d, (g.call m k).2 = .ok d ∧ d.Wf ∧ d.find name = some v) :
    (reportedValues name (hostSelf {} os)).getLast? = some v := by
  obtain ⟨before, after, hc, ha⟩ := hl
  rw [hostSelf_values, hc]
  obtain ⟨g', hg⟩ := hostRun_append before ((m, k) :: after) {}
  obtain ⟨d, h1, h2, h3⟩ := hr g'
  have hn : name ∈ d.keys := (Dict.find_isSome_iff _ _).1 (by rw [h3]; rfl)
  rw [hg, List.flatMap_append]
  have hrest : (HostGens.run (g'.call m k).1 after).flatMap (fun o => saysOf name o.2) = [] := by
    rw [host_values (call_names h1 hn), List.filter_eq_nil_iff.2, List.flatMap_nil]
    rintro ⟨k', e⟩ ho hk
    simp only [decide_eq_true_eq] at hk
    subst hk
    obtain ⟨m', -, h5, -⟩ := hostRun_call _ _ ho
    exact ha _ h5 rfl
  have hthis : saysOf name (g'.call m k).2 = [v] := by
    rw [h1]; exact filter_wf h2 h3
  simp only [HostGens.run, List.flatMap_cons, hrest, hthis, List.append_nil]
  simp

/-- As `host_last`, where later reports of the kind may be silent about the name. -/
theorem host_last_said {os : List HostOp} {k : HostReport} {m : HostMoment} {before after : List (HostMoment × HostReport)}
    (hc : hostCalls os = before ++ (m, k) :: after) {name : Str} {v : Num}
    (hr : ∀ g : HostGens, ∃ d, (g.call m k).2 = .ok d ∧ d.Wf ∧ d.find name = some v)
    (hs : ∀ c ∈ after, c.2 = k → ∀ g : HostGens, saysOf name (g.call c.1 c.2).2 = []) :
    (reportedValues name (hostSelf {} os)).getLast? = some v := by
  rw [hostSelf_values, hc]
  obtain ⟨g', hg⟩ := hostRun_append before ((m, k) :: after) {}
  obtain ⟨d, h1, h2, h3⟩ := hr g'
  have hn : name ∈ d.keys := (Dict.find_isSome_iff _ _).1 (by rw [h3]; rfl)
  rw [hg, List.flatMap_append]
  have hrest : (HostGens.run (g'.call m k).1 after).flatMap (fun o => saysOf name o.2) = [] := by
    rw [host_values (call_names h1 hn), List.flatMap_eq_nil_iff]
    rintro ⟨k', e⟩ ho
    obtain ⟨ho, hk⟩ := List.mem_filter.1 ho
    simp only [decide_eq_true_eq] at hk
    subst hk
    obtain ⟨m', g'', h5, h6⟩ := hostRun_call _ _ ho
    rw [← h6]
    exact hs _ h5 rfl g''
  have hthis : saysOf name (g'.call m k).2 = [v] := by
    rw [h1]; exact filter_wf h2 h3
  simp only [HostGens.run, List.flatMap_cons, hrest, hthis, List.append_nil]
  simp

theorem process_names {m : List Num} {cpu pc : Num} {th : Option Num} {r : Dict Num} (h : getMemoryAndCpu c!"proc" m cpu pc th = .ok r)
    {k : Str} (hk : k ∈ r.keys) :
    k ∈ [c!"proc.cpu.percent", c!"proc.memory.percent", c!"proc.memory.vsize", c!"proc.memory.rss", c!"proc.threads"] := by
  unfold getMemoryAndCpu at h
  split at h
  · cases h
    cases th with
    | none =>
      have hk' : k ∈ [c!"proc.cpu.percent", c!"proc.memory.percent", c!"proc.memory.vsize", c!"proc.memory.rss"] := hk
      simp only [List.mem_cons, List.not_mem_nil, or_false] at hk' ⊢
      tauto
    | some n =>
      have hk' := (Dict.mem_keys_put _ _ _ _).1 hk
      have hk' : k = c!"proc.threads" ∨ k ∈ [c!"proc.cpu.percent", c!"proc.memory.percent", c!"proc.memory.vsize", c!"proc.memory.rss"] := hk'
      simp only [List.mem_cons, List.not_mem_nil, or_false] at hk' ⊢
      tauto
  · cases h

theorem cpuCounters_names {g : CounterGen} {ts : List Num} {r : Dict Num} (h : (g.next (getCpuCounters c!"proc" ts)).2 = .ok r) {k : Str}
    (hk : k ∈ r.keys) : k ∈ [c!"proc.cpu.user", c!"proc.cpu.system"] := by
  obtain ⟨d, hd, hk⟩ := next_keys g _ r h k hk
  unfold getCpuCounters at hd
  split at hd
  · cases hd; exact hk
  · cases hd

theorem io_names {g : CounterGen} {io : Option (List Num)} {r : Dict Num} (h : (g.next (getIoCounters c!"proc.io" io)).2 = .ok r) {k : Str}
    (hk : k ∈ r.keys) : k ∈ [c!"proc.io.read.count", c!"proc.io.write.count", c!"proc.io.read.bytes", c!"proc.io.write.bytes"] := by
  obtain ⟨d, hd, hk⟩ := next_keys g _ r h k hk
  unfold getIoCounters at hd
  split at hd
  · cases hd; cases hk
  · cases hd; exact hk
  · cases hd

/-- What the reports say has legal names. -/
theorem legal_host {inst : Str} {os : List HostOp} (h : LegalHost inst os) : LegalReports inst (hostSelf {} os) := by
  refine ⟨h.1, fun d hd n hn c hc => ?_⟩
  obtain ⟨k, hk⟩ := hostSelf_mem os {} d hd
  have legal : ∀ s : Str, (s.all fun c => decide (Legal c)) = true → ∀ c ∈ s, Legal c := by
    intro s hs c hc
    have := List.all_eq_true.1 hs c hc
    simpa using this
  obtain ⟨m, g, -, hcall⟩ := hostRun_call _ _ hk
  cases k with
  | sys k =>
    cases k with
    | netdev => exact h.2 _ d hk (Or.inl rfl) n hn c hc
    | cpu => exact h.2 _ d hk (Or.inr (Or.inl rfl)) n hn c hc
    | meminfo =>
      obtain ⟨label, hl, rfl⟩ := meminfo_names (g := g.sys) hcall hn
      revert c
      simp only [memLabels, List.mem_cons, List.not_mem_nil, or_false] at hl
      rcases hl with rfl | rfl | rfl | rfl | rfl | rfl | rfl <;> exact legal _ (by decide)
    | loadavg =>
      rcases loadavg_names (g := g.sys) hcall hn with rfl | rfl | rfl <;> revert c <;> exact legal _ (by decide)
  | connections => exact h.2 _ d hk (Or.inr (Or.inr rfl)) n hn c hc
  | process =>
    have := process_names hcall hn
    simp only [List.mem_cons, List.not_mem_nil, or_false] at this
    rcases this with rfl | rfl | rfl | rfl | rfl <;> revert c <;> exact legal _ (by decide)
  | cpuCounters =>
    have := cpuCounters_names hcall hn
    simp only [List.mem_cons, List.not_mem_nil, or_false] at this
    rcases this with rfl | rfl <;> revert c <;> exact legal _ (by decide)
  | io =>
    have := io_names hcall hn
    simp only [List.mem_cons, List.not_mem_nil, or_false] at this
    rcases this with rfl | rfl | rfl | rfl <;> revert c <;> exact legal _ (by decide)
  | reactor =>
    simp only [HostGens.call, Except.ok.injEq] at hcall
    subst hcall
    have hn' : n ∈ [c!"reactor.readers", c!"reactor.writers"] := hn
    simp only [List.mem_cons, List.not_mem_nil, or_false] at hn'
    rcases hn' with rfl | rfl <;> revert c <;> exact legal _ (by decide)

/-- What the report about the process says. -/
theorem process_call {m : HostMoment} {vsize rss : Num} (hm : m.memory = [vsize, rss]) {name : Str} {x : Num}
    (hx : (name, some x) ∈ [(c!"cpu.percent", some m.cpu), (c!"memory.percent", some m.percent), (c!"memory.vsize", some vsize),
      (c!"memory.rss", some rss), (c!"threads", m.threads)]) (g : HostGens) :
    ∃ d, (g.call m .process).2 = .ok d ∧ d.Wf ∧ d.find (c!"proc." ++ name) = some x := by
  have hw : Dict.Wf ([(c!"proc" ++ c!".cpu.percent", m.cpu), (c!"proc" ++ c!".memory.percent", m.percent),
      (c!"proc" ++ c!".memory.vsize", vsize), (c!"proc" ++ c!".memory.rss", rss)] : Dict Num) := by
    simp [Dict.Wf, Dict.keys]
  simp only [HostGens.call, getMemoryAndCpu, hm]
  refine ⟨_, rfl, ?_, ?_⟩
  · cases m.threads with
    | none => exact hw
    | some n => exact Dict.wf_put hw _ _
  · simp only [List.mem_cons, Prod.mk.injEq, Option.some.injEq, List.not_mem_nil, or_false] at hx
    rcases ht : m.threads with _ | n
    · rw [ht] at hx
      rcases hx with ⟨rfl, rfl⟩ | ⟨rfl, rfl⟩ | ⟨rfl, rfl⟩ | ⟨rfl, rfl⟩ | ⟨-, h⟩
      · rfl
      · rfl
      · rfl
      · rfl
      · cases h
    · rw [ht] at hx
      rcases hx with ⟨rfl, rfl⟩ | ⟨rfl, rfl⟩ | ⟨rfl, rfl⟩ | ⟨rfl, rfl⟩ | ⟨rfl, h⟩
      · rfl
      · rfl
      · rfl
      · rfl
      · cases h; rfl

/-- What the report about the connections says. -/
theorem connections_silent {m : HostMoment} {status : Str} (hs : ∀ conns, m.conns = some conns → inState conns status = 0) (g : HostGens) :
    saysOf (c!"proc.net.status." ++ status) (g.call m .connections).2 = [] := by
  refine saysOf_ne fun d hd hk => ?_
  have hd : Except.ok ((getNetStats c!"proc.net" m.conns).map fun p => (p.1, Num.int (p.2 : ℤ))) = Except.ok d := hd
  cases hd
  cases hc : m.conns with
  | none => rw [hc] at hk; exact absurd hk (by simp [getNetStats, Dict.keys])
  | some conns =>
    rw [hc] at hk
    have h1 := C73_connections c!"proc.net" conns status
    have h2 : (conns.filter fun c => c.1 = true ∧ c.2.map lowerChar = status).length = inState conns status := by
      unfold inState
      rw [show lowerChar = Char.toLower from funext lowerChar_eq]
    simp only [h2, if_pos (hs conns hc)] at h1
    have h3 := (Dict.find_isSome_iff _ _).2 hk
    have e : Dict.find ((getNetStats c!"proc.net" (some conns)).map fun p => (p.1, Num.int (p.2 : ℤ))) (c!"proc.net.status." ++ status) =
      ((getNetStats c!"proc.net" (some conns)).find (c!"proc.net.status." ++ status)).map fun n : ℕ => Num.int n :=
      Dict.find_map _ (fun _ (n : ℕ) => Num.int n) _
    rw [e, show c!"proc.net.status." ++ status = c!"proc.net" ++ c!".status." ++ status from rfl, h1] at h3
    cases h3

theorem connections_call {m : HostMoment} {conns : List (Bool × Str)} (hm : m.conns = some conns) {status : Str}
    (hs : 0 < inState conns status) (g : HostGens) :
    ∃ d, (g.call m .connections).2 = .ok d ∧ d.Wf ∧ d.find (c!"proc.net.status." ++ status) = some (.int (inState conns status)) := by
  refine ⟨_, rfl, asNums_wf (f := fun n : ℕ => Num.int n) ?_, ?_⟩
  · rw [hm]
    have key : ∀ (l : List (Bool × Str)) (r : Dict ℕ), r.Wf → (l.foldl (netStat c!"proc.net") r).Wf := by
      intro l
      induction l with
      | nil => intro r h; exact h
      | cons c l ih =>
        intro r h
        refine ih _ ?_
        unfold netStat
        split
        · simp only
          split <;> exact Dict.wf_put h _ _
        · exact h
    exact key _ _ Dict.wf_nil
  · have h1 := C73_connections c!"proc.net" conns status
    have h2 : (conns.filter fun c => c.1 = true ∧ c.2.map lowerChar = status).length = inState conns status := by
      unfold inState
      rw [show lowerChar = Char.toLower from funext lowerChar_eq]
    simp only [h2, if_neg hs.ne'] at h1
    have e : Dict.find ((getNetStats c!"proc.net" (some conns)).map fun p => (p.1, Num.int (p.2 : ℤ))) (c!"proc.net.status." ++ status) =
      ((getNetStats c!"proc.net" (some conns)).find (c!"proc.net.status." ++ status)).map fun n : ℕ => Num.int n :=
      Dict.find_map _ (fun _ (n : ℕ) => Num.int n) _
    rw [hm, e]
    rw [show (getNetStats c!"proc.net" (some conns)).find (c!"proc.net.status." ++ status) = some (inState conns status) from h1]
    rfl

/-- The generators as one report sees them. -/
def HostGens.view (g : HostGens) : HostReport → Option CounterGen
  | .sys k => g.sys.view k
  | .cpuCounters => some g.cpu
  | .io => some g.io
  | _ => none

theorem host_view (g h : HostGens) (m : HostMoment) (k : HostReport) (e : g.view k = h.view k) :
    (g.call m k).2 = (h.call m k).2 ∧ (g.call m k).1.view k = (h.call m k).1.view k := by
  cases k with
  | sys k => exact call_view g.sys h.sys m.sys k e
  | cpuCounters =>
    have : g.cpu = h.cpu := by simpa [HostGens.view] using e
    simp [HostGens.call, HostGens.view, this]
  | io =>
    have : g.io = h.io := by simpa [HostGens.view] using e
    simp [HostGens.call, HostGens.view, this]
  | process => exact ⟨rfl, rfl⟩
  | connections => exact ⟨rfl, rfl⟩
  | reactor => exact ⟨rfl, rfl⟩

theorem host_other (g : HostGens) (m : HostMoment) (k k' : HostReport) (h : k ≠ k') : (g.call m k').1.view k = g.view k := by
  cases k with
  | sys k =>
    cases k' with
    | sys k' => exact call_other g.sys m.sys k k' fun e => h (e ▸ rfl)
    | _ => rfl
  | _ =>
    cases k' with
    | sys k' => rfl
    | _ => first | rfl | exact absurd rfl h

theorem host_alone (k : HostReport) : ∀ (calls : List (HostMoment × HostReport)) (g h : HostGens), g.view k = h.view k →
    (g.run calls).filter (fun o => o.1 = k) = h.run (calls.filter fun c => c.2 = k) := by
  intro calls
  induction calls with
  | nil => intro g h _; rfl
  | cons c calls ih =>
    intro g h e
    obtain ⟨m, k'⟩ := c
    by_cases hk : k' = k
    · subst hk
      obtain ⟨e1, e2⟩ := host_view g h m k' e
      rw [HostGens.run, List.filter_cons_of_pos (by simp), List.filter_cons_of_pos (by simp), HostGens.run, e1, ih _ _ e2]
    · rw [HostGens.run, List.filter_cons_of_neg (by simpa using hk), List.filter_cons_of_neg (by simpa using hk)]
      exact ih _ _ (by rw [host_other g m k k' (fun h => hk h.symm), e])

theorem run_io (ms : List HostMoment) (g : HostGens) :
    g.run (ms.map fun m => (m, .io)) = (g.io.run (ms.map fun m => getIoCounters c!"proc.io" m.io)).map fun o => (HostReport.io, o) := by
  induction ms generalizing g with
  | nil => rfl
  | cons m ms ih =>
    show (_, _) :: HostGens.run _ (ms.map fun m => (m, .io)) = _
    rw [ih]
    rfl

theorem genRun_ints : ∀ (xs : List (Except PyErr (Dict ℤ))) (g : CounterGen), (∀ d, g.last = some d → AllInts d) →
    ∀ r : Dict Num, .ok r ∈ g.run (xs.map (asNums Num.int)) → AllInts r ∧ r.Wf
  | [], _, _, r, h => by cases h
  | x :: xs, g, hg, r, h => by
    have hn := next_ints hg (x := x)
    rcases List.mem_cons.1 h with h | h
    · exact hn.2 r h.symm
    · exact genRun_ints xs _ hn.1 r h

theorem says_int {name : Str} {d : Dict Num} (hi : AllInts d) (hw : d.Wf) :
    ∃ zs : List ℤ, saysOf name (.ok d) = zs.map Num.int ∧ zs.sum = intAt d name :=
  valuesIn_int (o := .netdev) hi hw

/-- A list of results, each of integers, reports integers that add up. -/
theorem says_sum (name : Str) (outs : List (Dict Num)) (h : ∀ o ∈ outs, AllInts o ∧ o.Wf) :
    ∃ zs : List ℤ, outs.flatMap (fun o => saysOf name (.ok o)) = zs.map Num.int ∧ zs.sum = (outs.map fun o => intAt o name).sum := by
  induction outs with
  | nil => exact ⟨[], rfl, rfl⟩
  | cons o outs ih =>
    obtain ⟨zs, i1, i2⟩ := ih fun o ho => h o (List.mem_cons_of_mem _ ho)
    obtain ⟨zs', i3, i4⟩ := says_int (name := name) (h o (List.mem_cons_self ..)).1 (h o (List.mem_cons_self ..)).2
    exact ⟨zs' ++ zs, by rw [List.flatMap_cons, i1, i3, List.map_append], by rw [List.sum_append, i2, i4, List.map_cons, List.sum_cons]⟩

end Txstatsd
