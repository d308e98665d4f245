import Verif.Lemmas.CpuTimes
import Verif.Props.HostService
import Verif.Props.ProcessReport

/-!
# C163: CPU times, from `psutil` to the flushes
-/

set_option linter.unusedVariables false
set_option linter.unusedSectionVars false

namespace Txstatsd
open Spec
section
variable [Rounding] {PF PM : Type}

/-- The differences of a non-decreasing list of times add up. -/
theorem differences_sum {A : Type} (t : A → ℚ) (e : ℚ) : ∀ (as : List A) (a0 : A) (vs : List ℚ),
    List.Forall₂ (fun (ab : A × A) v => |v - (t ab.2 - t ab.1)| ≤ (t ab.2 - t ab.1) * 6 / 10 ^ 12 + e) ((a0 :: as).zip as) vs →
    |vs.sum - (t ((a0 :: as).getLast (by simp)) - t a0)| ≤
      (t ((a0 :: as).getLast (by simp)) - t a0) * 6 / 10 ^ 12 + as.length * e
  | [], a0, vs, h => by
    cases h
    simp
  | a1 :: as, a0, vs, h => by
    rw [List.zip_cons_cons] at h
    obtain ⟨v, vs', h1, h2, rfl⟩ := List.forall₂_cons_left_iff.1 h
    have ih := differences_sum t e as a1 vs' h2
    rw [List.getLast_cons (by simp)]
    simp only at h1
    rw [List.sum_cons, List.length_cons]
    push_cast
    have := abs_add_le (v - (t a1 - t a0)) (vs'.sum - (t ((a1 :: as).getLast (by simp)) - t a1))
    rw [show v - (t a1 - t a0) + (vs'.sum - (t ((a1 :: as).getLast (by simp)) - t a1)) =
      v + vs'.sum - (t ((a1 :: as).getLast (by simp)) - t a0) by ring] at this
    linarith

/-- What arrives of a report of differences of times. -/
theorem times_arrive [Ieee] (ops : PluginOps PF PM) (hq : Quiet ops c!"stats.gauge.") (plugins : List PF) (w : World)
    (inst : Str) (ext : Bool) (os : List HostOp) (h : LegalHost inst os) (k : HostReport) (m0 : HostMoment) (ms : List HostMoment)
    (hms : ((hostCalls os).filter fun c => c.2 = k).map Prod.fst = m0 :: ms) (name : Str) (hkind : ReportsName (hostKind k) name)
    (rd : HostMoment → Dict Num) (t : HostMoment → ℚ)
    (hrun : ({} : HostGens).run ((m0 :: ms).map fun m => (m, k)) =
      (({} : CounterGen).run ((m0 :: ms).map fun m => .ok (rd m))).map fun o => (k, o))
    (hrd : ∀ m ∈ m0 :: ms, (rd m).Wf ∧ (rd m).find name = some (.flt (.fin (t m))))
    (hkeys : ∀ a ∈ m0 :: ms, ∀ b ∈ m0 :: ms, ∀ x ∈ (rd b).keys, x ∈ (rd a).keys)
    (ht : ∀ m ∈ m0 :: ms, 0 ≤ t m ∧ t m ≤ 2 ^ 53) (hmono : List.IsChain (fun a b => t a ≤ t b) (m0 :: ms))
    (ho : ∀ m ∈ hostOutside os, ∀ v, ¬ Reading c!"g" (reportedAs inst name) m v) (interval percent : ℤ) :
    let s := hostService ops plugins w inst ext os
    let r := flush (messageProcessor ops) w interval percent s
    (c!"gauge." ++ reportedAs inst name ++ c!".value") ∉ s.counters.keys → r.2.2 = none →
    ∃ vs : List ℚ, (named (c!"stats.gauge." ++ reportedAs inst name ++ c!".value") r.2.1).map (·.value) = vs.map (fun v => .flt (.fin v)) ∧
      List.Forall₂ (fun (ab : HostMoment × HostMoment) v => |v - (t ab.2 - t ab.1)| ≤ (t ab.2 - t ab.1) * 6 / 10 ^ 12 + 2 ^ (-1070 : ℤ))
        ((m0 :: ms).zip ms) vs ∧
      |vs.sum - (t ((m0 :: ms).getLast (by simp)) - t m0)| ≤
        (t ((m0 :: ms).getLast (by simp)) - t m0) * 6 / 10 ^ 12 + ms.length * 2 ^ (-1070 : ℤ) := by
  intro s r hc hok
  have hs : s = _ := congrArg SelfState.ps (hostState_run (messageProcessor ops) w pyStr inst os _)
  have hcalls : (hostCalls os).filter (fun c => c.2 = k) = (m0 :: ms).map fun m => (m, k) := by
    rw [← hms, List.map_map]
    have : ∀ l : List (HostMoment × HostReport), (∀ c ∈ l, c.2 = k) → l = l.map ((fun m => (m, k)) ∘ Prod.fst) := by
      intro l hl
      conv_lhs => rw [← List.map_id l]
      refine List.map_congr_left fun c hc => ?_
      obtain ⟨m, k'⟩ := c
      have := hl _ hc
      simp only at this
      subst this; rfl
    exact this _ fun c hc => by simpa using (List.mem_filter.1 hc).2
  have hvals : reportedValues name (hostSelf {} os) =
      ((m0 :: ms).zip ms).map fun ab => .flt (rnd (t ab.2 - t ab.1)) := by
    rw [hostSelf_values, host_values hkind, C160_alone, hcalls, hrun, List.flatMap_map]
    show List.flatMap (saysOf name) _ = _
    rw [List.map_cons, CounterGen.run, (C72_first (rd m0)).1, (C72_first (rd m0)).2, List.flatMap_cons,
      counter_says rd (fun m => .flt (.fin (t m))) name ms m0 hrd hkeys, List.zip, List.map_zipWith]
    rfl
  have hb := C99_backlog ops hq plugins w pyStr C116_accepted inst name ext (hostSelf {} os) (legal_host h)
    (by rw [hostSelf_outside]; exact ho) interval percent
  simp only [← hs] at hb
  have hb := hb hc hok
  rw [hvals, List.forall₂_map_left_iff] at hb
  -- every pair of consecutive times
  have hpair : ∀ ab ∈ (m0 :: ms).zip ms, 0 ≤ t ab.2 - t ab.1 ∧ t ab.2 - t ab.1 ≤ 2 ^ 53 := by
    have key : ∀ (l : List HostMoment) (a : HostMoment), List.IsChain (fun a b => t a ≤ t b) (a :: l) →
        (∀ m ∈ a :: l, 0 ≤ t m ∧ t m ≤ 2 ^ 53) → ∀ ab ∈ (a :: l).zip l, 0 ≤ t ab.2 - t ab.1 ∧ t ab.2 - t ab.1 ≤ 2 ^ 53 := by
      intro l
      induction l with
      | nil => intro a _ _ ab hab; simp at hab
      | cons b l ih =>
        intro a hch hbd ab hab
        rw [List.isChain_cons_cons] at hch
        rw [List.zip_cons_cons] at hab
        rcases List.mem_cons.1 hab with rfl | hab
        · have h1 := hbd a (by simp)
          have h2 := hbd b (by simp)
          exact ⟨by simp only; linarith [hch.1], by simp only; linarith [h1.1, h2.2]⟩
        · exact ih b hch.2 (fun m hm => hbd m (List.mem_cons_of_mem _ hm)) ab hab
    exact key ms m0 hmono ht
  have hfin : ∃ vs : List ℚ, (named (c!"stats.gauge." ++ reportedAs inst name ++ c!".value") r.2.1).map (·.value) =
        vs.map (fun v => .flt (.fin v)) ∧
      List.Forall₂ (fun (ab : HostMoment × HostMoment) v => |v - (t ab.2 - t ab.1)| ≤ (t ab.2 - t ab.1) * 6 / 10 ^ 12 + 2 ^ (-1070 : ℤ))
        ((m0 :: ms).zip ms) vs := by
    generalize named (c!"stats.gauge." ++ reportedAs inst name ++ c!".value") r.2.1 = ds at hb ⊢
    generalize (m0 :: ms).zip ms = ps at hb hpair ⊢
    induction hb with
    | nil => exact ⟨[], rfl, .nil⟩
    | cons a _ ih =>
      obtain ⟨vs, i1, i2⟩ := ih fun ab hab => hpair ab (List.mem_cons_of_mem _ hab)
      obtain ⟨y, a1, a2⟩ := a
      obtain ⟨p1, p2⟩ := hpair _ (List.mem_cons_self ..)
      obtain ⟨v, v1, v2⟩ := cpu_close p1 p2
      rw [v1, Option.some.injEq] at a1
      subst a1
      exact ⟨v :: vs, by rw [List.map_cons, List.map_cons, i1, a2], .cons v2 i2⟩
  obtain ⟨vs, f1, f2⟩ := hfin
  exact ⟨vs, f1, f2, differences_sum t _ ms m0 vs f2⟩

/-- C163: the CPU times of the process. If they do not decrease, a completed flush shows one reading for each report but the first: the time
spent since the report before, to eleven digits; so that the readings add up to the time spent since the first report. -/
theorem C163_process [Ieee] (ops : PluginOps PF PM) (hq : Quiet ops c!"stats.gauge.") (plugins : List PF) (w : World)
    (inst : Str) (ext : Bool) (os : List HostOp) (h : LegalHost inst os) (m0 : HostMoment) (ms : List HostMoment)
    (hms : ((hostCalls os).filter fun c => c.2 = .cpuCounters).map Prod.fst = m0 :: ms) (user system : HostMoment → ℚ)
    (htimes : ∀ m ∈ m0 :: ms, m.times = [.flt (.fin (user m)), .flt (.fin (system m))]) (name : Str) (t : HostMoment → ℚ)
    (hn : name = c!"proc.cpu.user" ∧ t = user ∨ name = c!"proc.cpu.system" ∧ t = system)
    (ht : ∀ m ∈ m0 :: ms, 0 ≤ t m ∧ t m ≤ 2 ^ 53) (hmono : List.IsChain (fun a b => t a ≤ t b) (m0 :: ms))
    (ho : ∀ m ∈ hostOutside os, ∀ v, ¬ Reading c!"g" (reportedAs inst name) m v) (interval percent : ℤ) :
    let s := hostService ops plugins w inst ext os
    let r := flush (messageProcessor ops) w interval percent s
    (c!"gauge." ++ reportedAs inst name ++ c!".value") ∉ s.counters.keys → r.2.2 = none →
    ∃ vs : List ℚ, (named (c!"stats.gauge." ++ reportedAs inst name ++ c!".value") r.2.1).map (·.value) = vs.map (fun v => .flt (.fin v)) ∧
      List.Forall₂ (fun (ab : HostMoment × HostMoment) v => |v - (t ab.2 - t ab.1)| ≤ (t ab.2 - t ab.1) * 6 / 10 ^ 12 + 2 ^ (-1070 : ℤ))
        ((m0 :: ms).zip ms) vs ∧
      |vs.sum - (t ((m0 :: ms).getLast (by simp)) - t m0)| ≤
        (t ((m0 :: ms).getLast (by simp)) - t m0) * 6 / 10 ^ 12 + ms.length * 2 ^ (-1070 : ℤ) := by
  have hkind : ReportsName (hostKind .cpuCounters) name := by
    let zeros : Dict Num := [(c!"proc.cpu.user", .int 0), (c!"proc.cpu.system", .int 0)]
    refine .cpuCounters { last := some zeros } [.int 0, .int 0] zeros _ rfl ?_
    rcases hn with ⟨rfl, _⟩ | ⟨rfl, _⟩ <;> simp [zeros, Dict.keys]
  let rd : HostMoment → Dict Num := fun m => [(c!"proc.cpu.user", .flt (.fin (user m))), (c!"proc.cpu.system", .flt (.fin (system m)))]
  refine times_arrive ops hq plugins w inst ext os h .cpuCounters m0 ms hms name hkind rd t ?_ ?_ ?_ ht hmono ho interval percent
  · rw [run_cpuCounters]
    congr 2
    refine List.map_congr_left fun m hm => ?_
    rw [htimes m hm]
    rfl
  · intro m _
    refine ⟨by simp [Dict.Wf, Dict.keys, rd], ?_⟩
    rcases hn with ⟨rfl, rfl⟩ | ⟨rfl, rfl⟩ <;> simp [rd, Dict.find]
  · intro a _ b _ x hx
    exact hx

/-- C163: likewise those of the machine, for each mode that `psutil` knows. -/
theorem C163_machine [Ieee] (ops : PluginOps PF PM) (hq : Quiet ops c!"stats.gauge.") (plugins : List PF) (w : World)
    (inst : Str) (ext : Bool) (os : List HostOp) (h : LegalHost inst os) (m0 : HostMoment) (ms : List HostMoment)
    (hms : ((hostCalls os).filter fun c => c.2 = .sys .cpu).map Prod.fst = m0 :: ms) (modes : List Str) (hnd : modes.Nodup)
    (hmodes : ∀ m ∈ m0 :: ms, m.sys.times.map Prod.fst = modes) (mode : Str) (t : HostMoment → ℚ)
    (htimes : ∀ m ∈ m0 :: ms, (mode, .flt (.fin (t m))) ∈ m.sys.times)
    (ht : ∀ m ∈ m0 :: ms, 0 ≤ t m ∧ t m ≤ 2 ^ 53) (hmono : List.IsChain (fun a b => t a ≤ t b) (m0 :: ms))
    (ho : ∀ m ∈ hostOutside os, ∀ v, ¬ Reading c!"g" (reportedAs inst (c!"sys.cpu." ++ mode)) m v) (interval percent : ℤ) :
    let s := hostService ops plugins w inst ext os
    let r := flush (messageProcessor ops) w interval percent s
    (c!"gauge." ++ reportedAs inst (c!"sys.cpu." ++ mode) ++ c!".value") ∉ s.counters.keys → r.2.2 = none →
    ∃ vs : List ℚ, (named (c!"stats.gauge." ++ reportedAs inst (c!"sys.cpu." ++ mode) ++ c!".value") r.2.1).map (·.value) =
        vs.map (fun v => .flt (.fin v)) ∧
      List.Forall₂ (fun (ab : HostMoment × HostMoment) v => |v - (t ab.2 - t ab.1)| ≤ (t ab.2 - t ab.1) * 6 / 10 ^ 12 + 2 ^ (-1070 : ℤ))
        ((m0 :: ms).zip ms) vs ∧
      |vs.sum - (t ((m0 :: ms).getLast (by simp)) - t m0)| ≤
        (t ((m0 :: ms).getLast (by simp)) - t m0) * 6 / 10 ^ 12 + ms.length * 2 ^ (-1070 : ℤ) := by
  have hkind : ReportsName (hostKind (.sys .cpu)) (c!"sys.cpu." ++ mode) := by
    let zeros : Dict Num := [(c!"sys.cpu." ++ mode, .int 0)]
    refine .cpu { cpu := { last := some zeros } } ⟨fun _ => none, [(mode, .int 0)]⟩ zeros _ ?_ (by simp [zeros, Dict.keys])
    have : systemStats c!"sys" [(mode, .int 0)] = zeros := rfl
    show (CounterGen.next _ (.ok (systemStats c!"sys" [(mode, .int 0)]))).2 = _
    rw [this]
    simp [CounterGen.next, diffs, zeros, Dict.put, Dict.find, Num.sub]
  have hnodup : ∀ m ∈ m0 :: ms, (m.sys.times.map Prod.fst).Nodup := fun m hm => by rw [hmodes m hm]; exact hnd
  have hfind := fun (m : HostMoment) (hm : m ∈ m0 :: ms) (k : Str) (v : Num) => C100_cpu_partial c!"sys" m.sys.times (hnodup m hm) k v
  refine times_arrive ops hq plugins w inst ext os h (.sys .cpu) m0 ms hms _ hkind (fun m => systemStats c!"sys" m.sys.times) t
    (run_sysCpu _ _) ?_ ?_ ht hmono ho interval percent
  · intro m hm
    refine ⟨?_, (hfind m hm _ _).2 ⟨mode, htimes m hm, rfl⟩⟩
    have hwf : ∀ (l : List (Str × Num)) (d : Dict Num), d.Wf → (l.foldl (fun d p => Dict.put d p.1 p.2) d).Wf := by
      intro l
      induction l with
      | nil => exact fun d hd => hd
      | cons p l ih => exact fun d hd => ih _ (Dict.wf_put hd _ _)
    show (systemStats _ _).Wf
    unfold systemStats
    rw [putModes_eq]
    exact hwf _ _ Dict.wf_nil
  · intro a ha b hb x hx
    obtain ⟨v, hv⟩ := Option.isSome_iff_exists.1 ((Dict.find_isSome_iff _ _).2 hx)
    obtain ⟨md, h1, rfl⟩ := (hfind b hb x v).1 hv
    have h2 : md ∈ a.sys.times.map Prod.fst := by
      rw [hmodes a ha, ← hmodes b hb]
      exact List.mem_map_of_mem (f := Prod.fst) h1
    obtain ⟨⟨md', v'⟩, h3, rfl⟩ := List.mem_map.1 h2
    exact (Dict.find_isSome_iff _ _).1 (by rw [(hfind a ha _ _).2 ⟨_, h3, rfl⟩]; rfl)

end
section
attribute [local instance] binary64 binary64_ieee

/-- What `psutil` says of the times spent at a moment. -/
def exSpent (user system idle : ℚ) : HostMoment :=
  ⟨⟨fun _ => none, [(c!"user", .flt (.fin user)), (c!"idle", .flt (.fin idle))]⟩, [.int 8192, .int 4096], .flt (.fin 0), .flt (.fin 0),
    some (.int 3), [.flt (.fin user), .flt (.fin system)], none, none, 4, 5⟩

/-- A history with three reports of the times of the process and two of those of the machine. -/
def exSpentRun : List HostOp :=
  [.report (exSpent (1 / 2) (1 / 4) 100) .cpuCounters, .report (exSpent (1 / 2) (1 / 4) 100) (.sys .cpu), .msg c!"x:1|c", .flush 10000 90,
   .report (exSpent (5 / 4) (1 / 4) 110) .cpuCounters, .report (exSpent (3 / 2) (1 / 4) (441 / 4)) .cpuCounters,
   .report (exSpent (3 / 2) (1 / 4) (441 / 4)) (.sys .cpu)]

/-- What the flush of this service shows. -/
theorem exSpentRun_flush :
    let s := hostService noPlugins [] exWorld c!"host" false exSpentRun
    let r := flush (messageProcessor noPlugins) exWorld 10000 90 s
    r.2.2 = none ∧ c!"gauge.host.proc.cpu.user.value" ∉ s.counters.keys ∧ c!"gauge.host.sys.cpu.idle.value" ∉ s.counters.keys ∧
    (named c!"stats.gauge.host.proc.cpu.user.value" r.2.1).map (·.value) = [.flt (.fin (3 / 4)), .flt (.fin (1 / 4))] ∧
    (named c!"stats.gauge.host.proc.cpu.system.value" r.2.1).map (·.value) = [.flt (.fin 0), .flt (.fin 0)] ∧
    (named c!"stats.gauge.host.sys.cpu.idle.value" r.2.1).map (·.value) = [.flt (.fin (41 / 4))] := by decide +kernel

theorem exSpentRun_legal : LegalHost c!"host" exSpentRun := by
  have legal : ∀ s : Str, (s.all fun c => decide (Legal c)) = true → ∀ c ∈ s, Legal c := by
    intro s hs c hc
    have := List.all_eq_true.1 hs c hc
    simpa using this
  refine ⟨legal _ (by decide), fun k d hd hk n hn => ?_⟩
  have hall : ∀ o ∈ ({} : HostGens).run (hostCalls exSpentRun), o.1 = .sys .netdev ∨ o.1 = .sys .cpu ∨ o.1 = .connections →
      (match o.2 with | .ok d => d.all fun p => p.1.all fun c => decide (Legal c) | .error _ => true) = true := by decide +kernel
  have := hall _ hd hk
  simp only [List.all_eq_true] at this
  obtain ⟨p, hp, rfl⟩ := List.mem_map.1 hn
  intro c hc
  simpa using this p hp c hc

example : ((hostCalls exSpentRun).filter fun c => c.2 = .cpuCounters).map Prod.fst =
    exSpent (1 / 2) (1 / 4) 100 :: [exSpent (5 / 4) (1 / 4) 110, exSpent (3 / 2) (1 / 4) (441 / 4)] := rfl

example : ((hostCalls exSpentRun).filter fun c => c.2 = .sys .cpu).map Prod.fst =
    exSpent (1 / 2) (1 / 4) 100 :: [exSpent (3 / 2) (1 / 4) (441 / 4)] := rfl

theorem exSpentRun_outside (name : Str) (hn : name = c!"proc.cpu.user" ∨ name = c!"sys.cpu.idle") (v : PyFloat) :
    ∀ m ∈ hostOutside exSpentRun, ¬ Reading c!"g" (reportedAs c!"host" name) m v := by
  intro m hm; obtain rfl : m = c!"x:1|c" := by simpa [exSpentRun, hostOutside] using hm
  rcases hn with rfl | rfl <;> exact not_reading_of (by decide +kernel) v

/-- The time of a mode at a moment. -/
def exUser (m : HostMoment) : ℚ := match m.times with | .flt (.fin q) :: _ => q | _ => 0

/-- The other time at a moment. -/
def exSystem (m : HostMoment) : ℚ := match m.times with | _ :: .flt (.fin q) :: _ => q | _ => 0

/-- The idle time at a moment. -/
def exIdle (m : HostMoment) : ℚ := match m.sys.times with | _ :: (_, .flt (.fin q)) :: _ => q | _ => 0

theorem exSpentRun_quiet : Quiet noPlugins c!"stats.gauge." := by
  intro key m _ w t i ts l h
  cases h
  simp

example := C163_process noPlugins exSpentRun_quiet [] exWorld c!"host" false exSpentRun exSpentRun_legal
  (exSpent (1 / 2) (1 / 4) 100) [exSpent (5 / 4) (1 / 4) 110, exSpent (3 / 2) (1 / 4) (441 / 4)] rfl exUser exSystem
  (fun m hm => by
    simp only [List.mem_cons, List.not_mem_nil, or_false] at hm
    rcases hm with rfl | rfl | rfl <;> rfl) c!"proc.cpu.user" exUser (.inl ⟨rfl, rfl⟩)
  (fun m hm => by
    simp only [List.mem_cons, List.not_mem_nil, or_false] at hm
    rcases hm with rfl | rfl | rfl <;> simp [exUser, exSpent] <;> norm_num) (by simp [exUser, exSpent]; norm_num)
  (fun m hm v => exSpentRun_outside _ (.inl rfl) v m hm) 10000 90 exSpentRun_flush.2.1 exSpentRun_flush.1

example := C163_machine noPlugins exSpentRun_quiet [] exWorld c!"host" false exSpentRun exSpentRun_legal
  (exSpent (1 / 2) (1 / 4) 100) [exSpent (3 / 2) (1 / 4) (441 / 4)] rfl
  [c!"user", c!"idle"] (by decide) (fun m hm => by
    simp only [List.mem_cons, List.not_mem_nil, or_false] at hm
    rcases hm with rfl | rfl <;> rfl) c!"idle" exIdle
  (fun m hm => by
    simp only [List.mem_cons, List.not_mem_nil, or_false] at hm
    rcases hm with rfl | rfl <;> simp [exIdle, exSpent])
  (fun m hm => by
    simp only [List.mem_cons, List.not_mem_nil, or_false] at hm
    rcases hm with rfl | rfl <;> simp [exIdle, exSpent] <;> norm_num) (by simp [exIdle, exSpent]; norm_num)
  (fun m hm v => exSpentRun_outside _ (.inr rfl) v m hm) 10000 90 exSpentRun_flush.2.2.1 exSpentRun_flush.1

end
end Txstatsd
