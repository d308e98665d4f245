import Verif.Spec.SysService
import Verif.Props.Files
import Verif.Props.SelfReport
import Verif.Props.FloatStr
import Verif.Props.Configurable

set_option linter.unusedSectionVars false
set_option linter.unusedSimpArgs false
set_option linter.unusedVariables false

/-! # Lemmas on a service that reports about its machine -/

namespace Txstatsd
open Spec
variable [Rounding] {C T G PF PM : Type}

/-- The reports with what their functions return. -/
def selfOps (g : SysGens) : List SysOp → List SelfOp
  | [] => []
  | .report m k :: os => .report (g.call m k).2 :: selfOps (g.call m k).1 os
  | .msg m :: os => .msg m :: selfOps g os
  | .flush i p :: os => .flush i p :: selfOps g os

theorem sysState_run (I : Impl C T G PF PM) (w : World) (fmt : PyFloat → Str) (inst : Str) (os : List SysOp)
    (v : SysState C T G PF PM) :
    (v.run I w fmt inst os).self = v.self.run I w fmt inst (selfOps v.gens os) := by
  induction os generalizing v with
  | nil => rfl
  | cons o os ih =>
    show ((v.step I w fmt inst o).run I w fmt inst os).self = _
    rw [ih]
    cases o <;> rfl

/-- What a result says about a name. -/
def valuesIn (name : Str) (o : SysReport × Except PyErr (Dict Num)) : List Num :=
  match o.2 with
  | .ok d => (d.filter fun m => decide (m.1 = name)).map (·.2)
  | .error _ => []

theorem selfOps_values (name : Str) (os : List SysOp) (g : SysGens) :
    reportedValues name (selfOps g os) = (g.run (sysCalls os)).flatMap (valuesIn name) := by
  induction os generalizing g with
  | nil => rfl
  | cons o os ih =>
    cases o with
    | report m k =>
      simp only [selfOps, sysCalls, SysGens.run, List.flatMap_cons, ← ih]
      simp only [reportedValues, List.flatMap_cons, valuesIn]
      cases (g.call m k).2 <;> rfl
    | msg m => simpa [selfOps, sysCalls, reportedValues] using ih g
    | flush i p => simpa [selfOps, sysCalls, reportedValues] using ih g

theorem selfOps_outside (os : List SysOp) (g : SysGens) : outside (selfOps g os) = sysOutside os := by
  induction os generalizing g with
  | nil => rfl
  | cons o os ih =>
    cases o with
    | report m k => simpa [selfOps, sysOutside, outside] using ih (g.call m k).1
    | msg m => simpa [selfOps, sysOutside, outside] using ih g
    | flush i p => simpa [selfOps, sysOutside, outside] using ih g

theorem selfOps_mem (os : List SysOp) (g : SysGens) (d : Dict Num) (h : SelfOp.report (.ok d) ∈ selfOps g os) :
    ∃ k, (k, .ok d) ∈ g.run (sysCalls os) := by
  induction os generalizing g with
  | nil => cases h
  | cons o os ih =>
    cases o with
    | report m k =>
      rcases List.mem_cons.1 h with h | h
      · refine ⟨k, ?_⟩
        simp only [SelfOp.report.injEq] at h
        rw [h]
        exact List.mem_cons_self ..
      · obtain ⟨k', hk⟩ := ih _ h
        exact ⟨k', List.mem_cons_of_mem _ hk⟩
    | msg m =>
      rcases List.mem_cons.1 h with h | h
      · cases h
      · exact ih g h
    | flush i p =>
      rcases List.mem_cons.1 h with h | h
      · cases h
      · exact ih g h

/-- The kind of a report. -/
def sysKind : SysReport → Spec.Kind
  | .meminfo => .meminfo
  | .loadavg => .loadavg
  | .netdev => .netdev
  | .cpu => .cpu

theorem sysKind_inj {a b : SysReport} (h : sysKind a = sysKind b) : a = b := by cases a <;> cases b <;> first | rfl | cases h

theorem sysRun_names (calls : List (Moment × SysReport)) (g : SysGens) {k : SysReport} {d : Dict Num}
    (h : (k, .ok d) ∈ g.run calls) {n : Str} (hn : n ∈ d.keys) : ReportsName (sysKind k) n := by
  induction calls generalizing g with
  | nil => cases h
  | cons c calls ih =>
    obtain ⟨m, k'⟩ := c
    rcases List.mem_cons.1 h with h | h
    · simp only [Prod.mk.injEq] at h
      obtain ⟨rfl, h⟩ := h
      cases k with
      | meminfo => exact .meminfo g m d n h.symm hn
      | loadavg => exact .loadavg g m d n h.symm hn
      | netdev => exact .netdev g m d n h.symm hn
      | cpu => exact .cpu g m d n h.symm hn
    · exact ih _ h

theorem sysRun_kinds (calls : List (Moment × SysReport)) (g : SysGens) : (g.run calls).map Prod.fst = calls.map Prod.snd := by
  induction calls generalizing g with
  | nil => rfl
  | cons c calls ih =>
    obtain ⟨m, k⟩ := c
    simp [SysGens.run, ih]

theorem sysRun_append (a b : List (Moment × SysReport)) (g : SysGens) :
    ∃ g', g.run (a ++ b) = g.run a ++ SysGens.run g' b := by
  induction a generalizing g with
  | nil => exact ⟨g, rfl⟩
  | cons c a ih =>
    obtain ⟨m, k⟩ := c
    obtain ⟨g', h⟩ := ih (g.call m k).1
    exact ⟨g', by simp [SysGens.run, h]⟩

theorem valuesIn_ne {name : Str} {o : SysReport × Except PyErr (Dict Num)} (h : ∀ d, o.2 = .ok d → name ∉ d.keys) :
    valuesIn name o = [] := by
  unfold valuesIn
  split
  · rename_i d hd
    rw [List.map_eq_nil_iff, List.filter_eq_nil_iff]
    intro p hp hn
    simp only [decide_eq_true_eq] at hn
    exact h d hd (hn ▸ List.mem_map.2 ⟨p, hp, rfl⟩)
  · rfl

theorem filter_wf {V : Type} {d : Dict V} (hw : d.Wf) {k : Str} {v : V} (h : d.find k = some v) :
    (d.filter fun m => decide (m.1 = k)).map (·.2) = [v] := by
  induction d with
  | nil => simp [Dict.find] at h
  | cons p d ih =>
    unfold Dict.Wf Dict.keys at hw
    rw [List.map_cons, List.nodup_cons] at hw
    obtain ⟨hp, hw⟩ := hw
    by_cases hk : p.1 = k
    · have hv : p.2 = v := by
        obtain ⟨a, b⟩ := p
        simp only at hk; subst hk
        simpa [Dict.find] using h
      rw [List.filter_cons_of_pos (by simp [hk]), List.map_cons, hv, List.cons.injEq]
      refine ⟨rfl, ?_⟩
      rw [List.map_eq_nil_iff, List.filter_eq_nil_iff]
      intro q hq hn
      simp only [decide_eq_true_eq] at hn
      exact hp (List.mem_map.2 ⟨q, hq, by rw [hn, hk]⟩)
    · rw [List.filter_cons_of_neg (by simpa using hk)]
      refine ih hw ?_
      obtain ⟨a, b⟩ := p
      simpa [Dict.find, Ne.symm hk, hk] using h

/-- The last value reported is that of the last report that can have it. -/
theorem last_value {os : List SysOp} {k : SysReport} {m : Moment} (hl : LastReport os k m) {name : Str} {v : Num}
    (hr : ∀ g : SysGens, ∃ d, (g.call m k).2 = .ok d ∧ d.Wf ∧ d.find name = some v) :
    (reportedValues name (selfOps {} os)).getLast? = some v := by
  obtain ⟨before, after, hc, ha⟩ := hl
  rw [selfOps_values, hc]
  obtain ⟨g', hg⟩ := sysRun_append before ((m, k) :: after) {}
  obtain ⟨d, h1, h2, h3⟩ := hr g'
  have hn : name ∈ d.keys := (Dict.find_isSome_iff _ _).1 (by rw [h3]; rfl)
  have hname : ReportsName (sysKind k) name :=
    sysRun_names ((m, k) :: after) g' (k := k) (d := d) (by simp [SysGens.run, h1]) hn
  rw [hg, List.flatMap_append]
  have hrest : (SysGens.run (g'.call m k).1 after).flatMap (valuesIn name) = [] := by
    rw [List.flatMap_eq_nil_iff]
    rintro ⟨k', e⟩ ho
    refine valuesIn_ne fun d' hd' hk' => ?_
    simp only at hd'
    subst hd'
    have h4 := sysKind_inj (C142_names _ _ _ (sysRun_names after _ ho hk') hname)
    subst h4
    have : k' ∈ after.map Prod.snd := by
      rw [← sysRun_kinds after (g'.call m k').1]
      exact List.mem_map.2 ⟨_, ho, rfl⟩
    obtain ⟨c, hc', rfl⟩ := List.mem_map.1 this
    exact ha c hc' rfl
  have hthis : valuesIn name (k, (g'.call m k).2) = [v] := by
    rw [h1]; exact filter_wf h2 h3
  simp only [SysGens.run, List.flatMap_cons, hrest, hthis, List.append_nil]
  simp

theorem memLoop_labels (pre : Str) : ∀ (lines : List Str) (r r' : Dict ℤ), memLoop pre r lines = .ok r' → ∀ k ∈ r'.keys,
    k ∈ r.keys ∨ ∃ label ∈ memLabels, k = pre ++ c!"." ++ label
  | [], r, r', h, k, hk => by cases h; exact Or.inl hk
  | l :: ls, r, r', h, k, hk => by
    unfold memLoop at h
    split at h
    · cases h
    · exact memLoop_labels pre ls r r' h k hk
    · rename_i label amount he
      rcases memLoop_labels pre ls _ r' h k hk with h | h
      · rw [Dict.mem_keys_put] at h
        rcases h with rfl | h
        · exact Or.inr ⟨label, (memEntry_some.1 he).1, rfl⟩
        · exact Or.inl h
      · exact Or.inr h

theorem memLoop_wf (pre : Str) : ∀ (lines : List Str) (r r' : Dict ℤ), memLoop pre r lines = .ok r' → r.Wf → r'.Wf
  | [], r, r', h, hw => by cases h; exact hw
  | l :: ls, r, r', h, hw => by
    unfold memLoop at h
    split at h
    · cases h
    · exact memLoop_wf pre ls r r' h hw
    · exact memLoop_wf pre ls _ r' h (Dict.wf_put hw _ _)

theorem asNums_wf {V : Type} {f : V → Num} {d : Dict V} (h : d.Wf) : Dict.Wf (d.map fun p => (p.1, f p.2)) := by
  unfold Dict.Wf at *
  rwa [asNums_keys]

theorem meminfo_names {g : SysGens} {m : Moment} {r : Dict Num} (h : (g.call m .meminfo).2 = .ok r) {k : Str} (hk : k ∈ r.keys) :
    ∃ label ∈ memLabels, k = c!"sys.mem." ++ label := by
  obtain ⟨d, hd, rfl⟩ := asNums_ok h
  obtain ⟨t, -, ht⟩ := reportFile_ok hd
  rw [asNums_keys] at hk
  rcases memLoop_labels _ _ _ _ ht k hk with h | h
  · cases h
  · exact h

theorem loadavg_names {g : SysGens} {m : Moment} {r : Dict Num} (h : (g.call m .loadavg).2 = .ok r) {k : Str} (hk : k ∈ r.keys) :
    k = c!"sys.loadavg.oneminute" ∨ k = c!"sys.loadavg.fiveminutes" ∨ k = c!"sys.loadavg.fifthteenminutes" := by
  obtain ⟨d, hd, rfl⟩ := asNums_ok h
  obtain ⟨t, -, ht⟩ := reportFile_ok hd
  rw [asNums_keys] at hk
  unfold parseLoadavg at ht
  split at ht
  · cases ht
  · cases ht
    have := dictZip_keys _ _ _ hk
    simp only [List.mem_cons, List.not_mem_nil, or_false] at this
    exact this

/-- What the last report of the memory says. -/
theorem memory_call {m : Moment} {text : Str} (hf : m.files c!"/proc/meminfo" = some text)
    (hl : ∀ l ∈ splitOn '\n' text, OtherLine l ∨ ∃ label v, MemLine l label v) {label : Str} {z : ℤ}
    (hz : LastWith (fun l v => MemLine l label v) (splitOn '\n' text) z) (g : SysGens) :
    ∃ d, (g.call m .meminfo).2 = .ok d ∧ d.Wf ∧ d.find (c!"sys.mem." ++ label) = some (.int z) := by
  obtain ⟨d, h1, h2, h3⟩ := C73_meminfo c!"sys.mem" text hl
  refine ⟨d.map fun p => (p.1, Num.int p.2), ?_, asNums_wf (memLoop_wf _ _ _ _ h1 Dict.wf_nil), ?_⟩
  · simp [SysGens.call, reportFile, loadFile, hf, h1, asNums]
  · rw [show Dict.find (d.map fun p => (p.1, Num.int p.2)) (c!"sys.mem." ++ label) = (d.find (c!"sys.mem." ++ label)).map Num.int from
      Dict.find_map d (fun _ v => Num.int v) _]
    have h0 : d.find (c!"sys.mem." ++ label) = some z := (h2 label z).2 hz
    rw [h0]; rfl

/-- What the last report of the load says. -/
theorem load_call {m : Moment} {text a b c : Str} {rest : List Str} {x y z : PyFloat} (hf : m.files c!"/proc/loadavg" = some text)
    (hs : Separated (fun c => isSpace c = true) text (a :: b :: c :: rest))
    (hx : parseFloat a = some x) (hy : parseFloat b = some y) (hz : parseFloat c = some z) (g : SysGens) :
    ∃ d, (g.call m .loadavg).2 = .ok d ∧ d.Wf ∧ d.find c!"sys.loadavg.oneminute" = some (.flt x) ∧
      d.find c!"sys.loadavg.fiveminutes" = some (.flt y) ∧ d.find c!"sys.loadavg.fifthteenminutes" = some (.flt z) := by
  obtain ⟨d, h1, h2, h3, h4, -⟩ := C89_loadavg c!"sys.loadavg" text a b c rest x y z hs hx hy hz
  have hm : ∀ k, Dict.find (d.map fun p => (p.1, Num.flt p.2)) k = (d.find k).map Num.flt := Dict.find_map d fun _ v => Num.flt v
  have hw : d.Wf := by
    have h := h1
    unfold parseLoadavg at h
    split at h
    · cases h
    · cases h; exact foldl_put_wf _ _ Dict.wf_nil
  refine ⟨d.map fun p => (p.1, Num.flt p.2), ?_, asNums_wf hw, ?_, ?_, ?_⟩
  · simp [SysGens.call, reportFile, loadFile, hf, h1, asNums]
  · rw [hm]; exact congrArg (Option.map Num.flt) h2
  · rw [hm]; exact congrArg (Option.map Num.flt) h3
  · rw [hm]; exact congrArg (Option.map Num.flt) h4

/-- What the reports of a machine say has legal names. -/
theorem legal_machine {inst : Str} {os : List SysOp} (h : LegalMachine inst os) : LegalReports inst (selfOps {} os) := by
  refine ⟨h.1, fun d hd n hn c hc => ?_⟩
  obtain ⟨k, hk⟩ := selfOps_mem os {} d hd
  have hname := sysRun_names _ _ hk hn
  by_cases hk2 : k = .netdev ∨ k = .cpu
  · exact h.2 k d hk hk2 n hn c hc
  · have legal : ∀ s : Str, (s.all fun c => decide (Legal c)) = true → ∀ c ∈ s, Legal c := by
      intro s hs c hc
      have := List.all_eq_true.1 hs c hc
      simpa using this
    cases k with
    | netdev => simp at hk2
    | cpu => simp at hk2
    | meminfo =>
      cases hname with
      | meminfo g m r _ hr hn' =>
        obtain ⟨label, hl, rfl⟩ := meminfo_names hr hn'
        revert c
        simp only [memLabels, List.mem_cons, List.not_mem_nil, or_false] at hl
        rcases hl with rfl | rfl | rfl | rfl | rfl | rfl | rfl <;> exact legal _ (by decide)
    | loadavg =>
      cases hname with
      | loadavg g m r _ hr hn' =>
        rcases loadavg_names hr hn' with rfl | rfl | rfl <;> revert c <;> exact legal _ (by decide)

/-- The last value reported for a metric arrives as the last of its datapoints (`C99_latest` for any number). -/
theorem self_latest {PF PM : Type} (ops : PluginOps PF PM) (hq : Quiet ops c!"stats.gauge.") (plugins : List PF) (w : World)
    (fmt : PyFloat → Str) (hf : NumberTexts fmt) (inst name : Str) (ext : Bool) (os : List SelfOp) (h : LegalReports inst os)
    (ho : ∀ m ∈ outside os, ∀ v, ¬ Reading c!"g" (reportedAs inst name) m v) (interval percent : ℤ) (x : Num) (y : PyFloat)
    (hy : parseFloat (x.render fmt) = some y) (hlast : (reportedValues name os).getLast? = some x) :
    let v := SelfState.run (messageProcessor ops) w fmt inst
      { client := { conn := true, namespc := some [], ext := ext }, ps := MPState.init ops plugins } os
    let r := flush (messageProcessor ops) w interval percent v.ps
    r.2.2 = none →
    (named (c!"stats.gauge." ++ reportedAs inst name ++ c!".value") r.2.1).getLast? =
      some ⟨c!"stats.gauge." ++ reportedAs inst name ++ c!".value", .flt y, truncQ (w.clk v.ps.ticks)⟩ := by
  intro v r hok
  have hv := (C99_history (messageProcessor ops) w fmt hf inst ext (MPState.init ops plugins) os h).1
  have hps : v.ps = (runOps (messageProcessor ops) w (MPState.init ops plugins) (plainOps fmt inst os)).1 := by
    rw [← hv]
  obtain ⟨ys, h1, h2⟩ := collect_self hf (name := name) os h ho
  obtain ⟨pre, hn, _⟩ := named_gauge ops hq plugins w (plainOps fmt inst os) interval percent (reportedAs inst name) ys h2
    (by rw [← hps]; exact hok)
  rw [gaugeName, ← hps] at hn
  rw [show r = flush (messageProcessor ops) w interval percent v.ps from rfl, hn]
  obtain ⟨xs, hxs⟩ := List.getLast?_eq_some_iff.1 hlast
  rw [hxs] at h1
  obtain ⟨ys1, y', rfl, a⟩ := forall₂_last h1
  rw [hy, Option.some.injEq] at a
  subst a
  simp

theorem collect_none {t k : Str} {msgs : List Str} (h : Collect (Reading t k) msgs []) : ∀ m ∈ msgs, ∀ v, ¬ Reading t k m v := by
  induction msgs with
  | nil => intro m hm; cases hm
  | cons a msgs ih =>
    cases h with
    | skip h1 h2 =>
      intro m hm
      rcases List.mem_cons.1 hm with rfl | hm
      · exact h1
      · exact ih h2 m hm

theorem latest_of_collect {t k : Str} {msgs : List Str} {ys : List PyFloat} {y : PyFloat} (h : Collect (Reading t k) msgs (ys ++ [y])) :
    Latest t k msgs y := by
  induction msgs generalizing ys with
  | nil => cases ys <;> cases h
  | cons a msgs ih =>
    cases ys with
    | nil =>
      cases h with
      | hit h1 h2 => exact ⟨[], a, msgs, rfl, h1, collect_none h2⟩
      | skip h1 h2 =>
        obtain ⟨b, m, c, rfl, e2, e3⟩ := ih (ys := []) h2
        exact ⟨a :: b, m, c, rfl, e2, e3⟩
    | cons v ys =>
      cases h with
      | hit h1 h2 =>
        obtain ⟨b, m, c, rfl, e2, e3⟩ := ih h2
        exact ⟨a :: b, m, c, rfl, e2, e3⟩
      | skip h1 h2 =>
        obtain ⟨b, m, c, rfl, e2, e3⟩ := ih (ys := v :: ys) h2
        exact ⟨a :: b, m, c, rfl, e2, e3⟩

/-- Likewise on the configurable processor, as its only datapoint of the gauge. -/
theorem self_latest_configurable {PF PM : Type} (ops : PluginOps PF PM) (pre int : Str) (plugins : List PF) (w : World)
    (fmt : PyFloat → Str) (hf : NumberTexts fmt) (inst name : Str) (ext : Bool) (os : List SelfOp) (h : LegalReports inst os)
    (ho : ∀ m ∈ outside os, ∀ v, ¬ Reading c!"g" (reportedAs inst name) m v) (interval percent : ℤ) (x : Num) (y : PyFloat)
    (hy : parseFloat (x.render fmt) = some y) (hlast : (reportedValues name os).getLast? = some x) :
    let v := SelfState.run (configurable ops pre int) w fmt inst
      { client := { conn := true, namespc := some [], ext := ext }, ps := CPState.init ops plugins } os
    let r := flush (configurable ops pre int) w interval percent v.ps
    r.2.2 = none →
    (⟨prefixed pre (reportedAs inst name) c!".value", .flt y, truncQ (w.clk v.ps.ticks)⟩ : Datapoint) ∈ r.2.1 := by
  intro v r hok
  have hv := (C99_history (configurable ops pre int) w fmt hf inst ext (CPState.init ops plugins) os h).1
  have hps : v.ps = (runOps (configurable ops pre int) w (CPState.init ops plugins) (plainOps fmt inst os)).1 := by
    rw [← hv]
  obtain ⟨ys, h1, h2⟩ := collect_self hf (name := name) os h ho
  obtain ⟨xs, hxs⟩ := List.getLast?_eq_some_iff.1 hlast
  rw [hxs] at h1
  obtain ⟨ys1, y', rfl, a⟩ := forall₂_last h1
  rw [hy, Option.some.injEq] at a
  subst a
  have h25 := C25_latest ops pre int plugins w (plainOps fmt inst os) interval percent
  simp only [← hps] at h25
  obtain ⟨cs, gs, tt, rest, e1, -, -, -, e5⟩ := h25 hok
  have hmem : (reportedAs inst name, y) ∈ gs := (e5 _ _).2 (latest_of_collect h2)
  rw [show r = flush (configurable ops pre int) w interval percent v.ps from rfl, e1]
  refine List.mem_append_left _ (List.mem_append_right _ (List.mem_map.2 ⟨_, hmem, rfl⟩))

/-! ## Traffic -/

/-- All values are integers. -/
def AllInts (d : List (Str × Num)) : Prop := ∀ p ∈ d, ∃ z, p.2 = .int z

theorem allInts_put {d : Dict Num} (h : AllInts d) (k : Str) (z : ℤ) : AllInts (d.put k (.int z)) := by
  intro p hp
  rcases Dict.mem_put hp with rfl | hp
  · exact ⟨z, rfl⟩
  · exact h p hp

theorem diffs_ints (last : Dict Num) (hl : AllInts last) : ∀ (l : List (Str × Num)) (r out : Dict Num), AllInts l → AllInts r → r.Wf →
    diffs last r l = .ok out → AllInts out ∧ out.Wf
  | [], r, out, _, hr, hw, h => by cases h; exact ⟨hr, hw⟩
  | (k, v) :: l, r, out, hi, hr, hw, h => by
    unfold diffs at h
    split at h
    · cases h
    · rename_i old hold
      obtain ⟨a, ha⟩ := hl _ (Dict.mem_of_find hold)
      obtain ⟨b, hb⟩ := hi (k, v) (List.mem_cons_self ..)
      simp only at ha hb
      subst ha hb
      exact diffs_ints last hl l _ out (fun p hp => hi p (List.mem_cons_of_mem _ hp)) (allInts_put hr k (b - a)) (Dict.wf_put hw _ _) h

theorem asNums_ints {x : Except PyErr (Dict ℤ)} {r : Dict Num} (h : asNums Num.int x = .ok r) : AllInts r := by
  obtain ⟨d, -, rfl⟩ := asNums_ok h
  intro p hp
  obtain ⟨q, -, rfl⟩ := List.mem_map.1 hp
  exact ⟨q.2, rfl⟩

theorem next_ints {g : CounterGen} (hg : ∀ d, g.last = some d → AllInts d) {x : Except PyErr (Dict ℤ)} :
    (∀ d, (g.next (asNums Num.int x)).1.last = some d → AllInts d) ∧
      ∀ r, (g.next (asNums Num.int x)).2 = .ok r → AllInts r ∧ r.Wf := by
  unfold CounterGen.next
  split
  · exact ⟨hg, fun r h => by cases h⟩
  · split
    · exact ⟨hg, fun r h => by cases h⟩
    · rename_i new hnew
      have hi := asNums_ints hnew
      split
      · refine ⟨fun d h => by cases h; exact hi, fun r h => by cases h; exact ⟨fun p hp => (by cases hp), Dict.wf_nil⟩⟩
      · rename_i last hlast
        split
        · exact ⟨hg, fun r h => by cases h⟩
        · rename_i out ho
          refine ⟨fun d h => by cases h; exact hi, fun r h => by
            cases h
            exact diffs_ints last (hg _ hlast) _ _ _ hi (fun p hp => (by cases hp)) Dict.wf_nil ho⟩

theorem netRun_ints (ms : List Moment) (g : SysGens) (hg : ∀ d, g.net.last = some d → AllInts d) (o : SysReport) (r : Dict Num)
    (h : (o, .ok r) ∈ g.run (ms.map fun m => (m, .netdev))) : AllInts r ∧ r.Wf := by
  induction ms generalizing g with
  | nil => cases h
  | cons m ms ih =>
    have hn := next_ints hg (x := reportFile c!"/proc/net/dev" (fun s => parseNetdev c!"sys.net" (splitLines s)) m.files)
    rcases List.mem_cons.1 h with h | h
    · simp only [Prod.mk.injEq] at h
      exact hn.2 r h.2.symm
    · exact ih _ hn.1 h

/-- A dictionary of integers says at most one thing about a name. -/
theorem valuesIn_int {name : Str} {o : SysReport} {d : Dict Num} (hi : AllInts d) (hw : d.Wf) :
    ∃ zs : List ℤ, valuesIn name (o, .ok d) = zs.map Num.int ∧ zs.sum = intAt d name := by
  rcases hf : d.find name with _ | v
  · refine ⟨[], valuesIn_ne fun d' hd' => ?_, by simp [intAt, hf]⟩
    simp only [Except.ok.injEq] at hd'
    subst hd'
    rw [← Dict.find_isSome_iff, hf]; simp
  · obtain ⟨z, hz⟩ := hi _ (Dict.mem_of_find hf)
    simp only at hz
    subst hz
    exact ⟨[z], filter_wf hw hf, by simp [intAt, hf]⟩

/-- The moments of the reports of traffic. -/
theorem net_values {os : List SysOp} {name : Str} (hname : c!"sys.net." <+: name) :
    reportedValues name (selfOps {} os) =
      (({} : SysGens).run ((sysCalls os).filter fun c => c.2 = .netdev)).flatMap (valuesIn name) := by
  rw [selfOps_values, ← C142_alone]
  have key : ∀ l : List (SysReport × Except PyErr (Dict Num)),
      (∀ o ∈ l, o.1 ≠ .netdev → valuesIn name o = []) →
      l.flatMap (valuesIn name) = (l.filter fun o => o.1 = .netdev).flatMap (valuesIn name) := by
    intro l
    induction l with
    | nil => intro _; rfl
    | cons o l ih =>
      intro h
      rw [List.flatMap_cons, ih fun o ho => h o (List.mem_cons_of_mem _ ho)]
      by_cases hk : o.1 = .netdev
      · rw [List.filter_cons_of_pos (by simpa using hk), List.flatMap_cons]
      · rw [List.filter_cons_of_neg (by simpa using hk), h o (List.mem_cons_self ..) hk, List.nil_append]
  refine key _ fun o ho hk => valuesIn_ne fun d hd hn => ?_
  obtain ⟨k, e⟩ := o
  simp only at hd hk
  subst hd
  have h1 := sysRun_names _ _ ho hn
  obtain ⟨rest, rfl⟩ := hname
  cases k with
  | netdev => exact hk rfl
  | meminfo =>
    cases h1 with
    | meminfo g m r _ hr hn' =>
      obtain ⟨label, -, h⟩ := meminfo_names hr hn'
      cases h
  | loadavg =>
    cases h1 with
    | loadavg g m r _ hr hn' => rcases loadavg_names hr hn' with h | h | h <;> cases h
  | cpu =>
    cases h1 with
    | cpu g m r _ hr hn' =>
      obtain ⟨d', hd', hk'⟩ := next_keys g.cpu _ r hr _ hn'
      cases hd'
      rcases putModes_keys _ _ _ _ hk' with h | ⟨_, h⟩
      · cases h
      · cases h

end Txstatsd
