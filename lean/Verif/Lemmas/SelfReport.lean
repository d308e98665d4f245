import Verif.Spec.SelfReport
import Verif.Lemmas.MetricsServer
import Verif.Lemmas.Gauge
set_option linter.unusedSectionVars false
set_option linter.unusedSimpArgs false
set_option linter.unusedVariables false

namespace Txstatsd
open Spec
variable [Rounding] {C T G PF PM : Type}

/-- A client used for nothing but gauges at rate 1. -/
structure Gauging (c : Client) : Prop where
  conn : c.conn = true
  ns : c.namespc = none ∨ c.namespc = some []
  objs : ∀ k m, c.metrics.find k = some m → m = ⟨.gauge, k, .int 1⟩

theorem gauging_call {c : Client} (h : Gauging c) (fmt : PyFloat → Str) (name : Str) (v : Num) :
    let r := c.call fmt (.fin 0) 0 (.gauge (some name) (.num v) (.int 1))
    Gauging r.1 ∧ r.2 = { out := some (name ++ c!":" ++ (v.render fmt ++ c!"|g")) } := by
  have hq : fullyQualify c.namespc (some name) = name := by
    rcases h.ns with e | e <;> simp [fullyQualify, e]
  have hobj : (c.obtain name .gauge (.int 1)).2 = ⟨.gauge, name, .int 1⟩ := by
    rw [Client.obtain_obj]
    cases hf : c.metrics.find name with
    | none => rfl
    | some m => exact h.objs _ _ hf
  have hs := Client.obtain_same c name .gauge (.int 1)
  have hu : Unsampled (Num.int 1) := by simp [Unsampled, Num.exact, PyFloat.lt]
  simp only [Client.call, hq, hobj, MetricObj.mark, Client.writeResult, Client.write]
  refine ⟨⟨hs.1.trans h.conn, ?_, ?_⟩, ?_⟩
  · rw [hs.2.1]; exact h.ns
  · intro k m hm
    rw [Client.obtain_find] at hm
    split_ifs at hm with e
    · rw [hobj] at hm
      simp only [Option.some.injEq] at hm
      rw [← hm, e]
    · exact h.objs k m hm
  · rw [hs.1, h.conn, if_pos rfl, send_unsampled fmt 0 hu]
    rfl

theorem process_gauge {fmt : PyFloat → Str} (hf : NumberTexts fmt) (I : Impl C T G PF PM) (w : World) (s : PS C T G PF PM) {name : Str}
    (hn : ∀ c ∈ name, Legal c) (v : Num) : (process I w s (name ++ c!":" ++ (v.render fmt ++ c!"|g"))).2.exc = none := by
  obtain ⟨⟨y, hy⟩, h1, h2⟩ := render_number hf v
  have hp : Plain name (v.render fmt) c!"g" := ⟨hn, h1, h2, ⟨y, hy⟩, by decide⟩
  have e : name ++ c!":" ++ (v.render fmt ++ c!"|g") = name ++ c!":" ++ (v.render fmt ++ c!"|" ++ c!"g") := by simp
  rw [e]
  simp only [process, hp.parse, processMessage, dispatch]
  simp [processGauge, splitOn_noSep h1, hy, finish, show (c!"g" : Str) ≠ c!"c" from by decide, show (c!"g" : Str) ≠ c!"ms" from by decide]

/-- The texts of a report, processed in order. -/
def gaugeOps (fmt : PyFloat → Str) (inst : Str) (d : Dict Num) : List Str := d.map (gaugeText fmt inst)

theorem reportedAs_eq (inst name : Str) : (if inst ≠ [] then inst ++ c!"." ++ name else name) = reportedAs inst name := by
  cases inst <;> simp [reportedAs]

theorem reportedAs_legal {inst name : Str} (hi : ∀ c ∈ inst, Legal c) (hn : ∀ c ∈ name, Legal c) :
    ∀ c ∈ reportedAs inst name, Legal c := by
  intro c hc
  cases inst with
  | nil => exact hn c hc
  | cons x xs =>
    simp only [reportedAs, List.mem_append, List.mem_singleton] at hc
    rcases hc with (hc | hc) | hc
    · exact hi c hc
    · subst hc; unfold Legal; decide
    · exact hn c hc

theorem gaugeText_eq (fmt : PyFloat → Str) (inst : Str) (m : Str × Num) :
    reportedAs inst m.1 ++ c!":" ++ (m.2.render fmt ++ c!"|g") = gaugeText fmt inst m := by
  simp [gaugeText]

theorem reportMetrics_gauges {fmt : PyFloat → Str} (hf : NumberTexts fmt) (I : Impl C T G PF PM) (w : World) {inst : Str}
    (hi : ∀ c ∈ inst, Legal c) (d : List (Str × Num)) (hd : ∀ m ∈ d, ∀ c ∈ m.1, Legal c) (c : Client) (h : Gauging c)
    (s : PS C T G PF PM) :
    ∃ c', Gauging c' ∧ reportMetrics inst (gaugeInto I w fmt) (c, s) d =
      ((c', processAll I w s (d.map (gaugeText fmt inst))), none) := by
  induction d generalizing c s with
  | nil => exact ⟨c, h, rfl⟩
  | cons m d ih =>
    obtain ⟨name, v⟩ := m
    obtain ⟨h1, h2⟩ := gauging_call h fmt (reportedAs inst name) v
    have h3 := process_gauge hf I w s (reportedAs_legal hi (hd (name, v) (by simp))) v
    obtain ⟨c', h4, h5⟩ := ih (fun m hm => hd m (by simp [hm])) _ h1
      (process I w s (reportedAs inst name ++ c!":" ++ (v.render fmt ++ c!"|g"))).1
    refine ⟨c', h4, ?_⟩
    simp only [reportMetrics, reportedAs_eq, gaugeInto, h2, h3]
    rw [h5, gaugeText_eq fmt inst (name, v)]
    rfl

theorem runOps_append (I : Impl C T G PF PM) (w : World) (s : PS C T G PF PM) (os os' : List Op) (acc : List Datapoint) :
    (os ++ os').foldl (Op.apply I w) (s, acc) = os'.foldl (Op.apply I w) (os.foldl (Op.apply I w) (s, acc)) := by
  rw [List.foldl_append]

theorem runOps_msgs (I : Impl C T G PF PM) (w : World) (ms : List Str) (s : PS C T G PF PM) (acc : List Datapoint) :
    (ms.map Op.msg).foldl (Op.apply I w) (s, acc) = (processAll I w s ms, acc) := by
  induction ms generalizing s with
  | nil => rfl
  | cons m ms ih =>
    simp only [List.map_cons, List.foldl_cons, Op.apply]
    rw [ih]
    rfl

theorem selfRun_eq {fmt : PyFloat → Str} (hf : NumberTexts fmt) (I : Impl C T G PF PM) (w : World) {inst : Str} (os : List SelfOp)
    (h : LegalReports inst os) (v : SelfState C T G PF PM) (hg : Gauging v.client) :
    let r := SelfState.run I w fmt inst v os
    Gauging r.client ∧ (r.ps, r.out) = (plainOps fmt inst os).foldl (Op.apply I w) (v.ps, v.out) ∧
      r.failures = v.failures ++ raised os := by
  induction os generalizing v with
  | nil => exact ⟨hg, rfl, by simp [SelfState.run, raised]⟩
  | cons o os ih =>
    have hl : LegalReports inst os := ⟨h.1, fun d hd => h.2 d (by simp [hd])⟩
    have key : ∀ v', Gauging v'.client → SelfState.step I w fmt inst v o = v' →
        (v'.ps, v'.out) = (plainOps fmt inst [o]).foldl (Op.apply I w) (v.ps, v.out) → v'.failures = v.failures ++ raised [o] →
        let r := SelfState.run I w fmt inst v (o :: os)
        Gauging r.client ∧ (r.ps, r.out) = (plainOps fmt inst (o :: os)).foldl (Op.apply I w) (v.ps, v.out) ∧
          r.failures = v.failures ++ raised (o :: os) := by
      intro v' hg' e h1 h2
      obtain ⟨a, b, c⟩ := ih hl v' hg'
      have hr : SelfState.run I w fmt inst v (o :: os) = SelfState.run I w fmt inst v' os := by
        simp only [SelfState.run, List.foldl_cons, e]
      rw [hr]
      have hp : plainOps fmt inst (o :: os) = plainOps fmt inst [o] ++ plainOps fmt inst os := by
        simp only [plainOps, List.flatMap_cons, List.flatMap_nil, List.append_nil]
      have hra : raised (o :: os) = raised [o] ++ raised os := by
        simp only [raised, ← List.filterMap_append, List.singleton_append]
      refine ⟨a, ?_, ?_⟩
      · rw [b, hp, List.foldl_append, h1]
      · rw [c, hra, h2, List.append_assoc]
    cases o with
    | msg m => exact key (SelfState.step I w fmt inst v (.msg m)) hg rfl rfl (by simp [SelfState.step, raised])
    | flush i p => exact key (SelfState.step I w fmt inst v (.flush i p)) hg rfl rfl (by simp [SelfState.step, raised])
    | report x =>
      cases x with
      | error e => exact key (SelfState.step I w fmt inst v (.report (.error e))) hg rfl rfl (by simp [SelfState.step, raised, wrapperRun])
      | ok d =>
        obtain ⟨c', h1, h2⟩ := reportMetrics_gauges hf I w h.1 d
          (fun m hm => h.2 d (by simp) m.1 (List.mem_map_of_mem hm)) v.client hg v.ps
        refine key { v with client := c', ps := processAll I w v.ps (d.map (gaugeText fmt inst)), failures := v.failures ++ [false] } h1 ?_ ?_ ?_
        · simp only [SelfState.step, wrapperRun, h2]
        · have : plainOps fmt inst [SelfOp.report (.ok d)] = (d.map (gaugeText fmt inst)).map Op.msg := by
            simp [plainOps, Function.comp_def]
          rw [this, runOps_msgs]
        · simp [raised]

omit [Rounding] in
theorem reportedAs_inj {inst a b : Str} (h : reportedAs inst a = reportedAs inst b) : a = b := by
  cases inst with
  | nil => exact h
  | cons x xs => simpa [reportedAs] using h

theorem gaugeText_reading {fmt : PyFloat → Str} (hf : NumberTexts fmt) {inst : Str} {m : Str × Num} (hi : ∀ c ∈ inst, Legal c)
    (hm : ∀ c ∈ m.1, Legal c) (key : Str) (y : PyFloat) :
    Reading c!"g" key (gaugeText fmt inst m) y ↔ key = reportedAs inst m.1 ∧ parseFloat (m.2.render fmt) = some y := by
  obtain ⟨⟨y', hy⟩, h1, h2⟩ := render_number hf m.2
  have hp : Plain (reportedAs inst m.1) (m.2.render fmt) c!"g" := ⟨reportedAs_legal hi hm, h1, h2, ⟨y', hy⟩, by decide⟩
  have e : gaugeText fmt inst m = reportedAs inst m.1 ++ c!":" ++ (m.2.render fmt ++ c!"|" ++ c!"g") := by simp [gaugeText]
  rw [reading_iff, e, hp.parse]
  constructor
  · rintro ⟨_, h, _, h3, h4⟩
    simp only [Option.some.injEq] at h
    subst h
    exact ⟨h3.symm, h4⟩
  · rintro ⟨rfl, h⟩
    exact ⟨_, rfl, rfl, rfl, h⟩

omit [Rounding] in
theorem messages_plain (fmt : PyFloat → Str) (inst : Str) (o : SelfOp) (os : List SelfOp) :
    messages (plainOps fmt inst (o :: os)) = messages (plainOps fmt inst [o]) ++ messages (plainOps fmt inst os) := by
  simp [plainOps, messages]

theorem collect_report {fmt : PyFloat → Str} (hf : NumberTexts fmt) {inst name : Str} (hi : ∀ c ∈ inst, Legal c) (d : List (Str × Num))
    (hd : ∀ m ∈ d, ∀ c ∈ m.1, Legal c) :
    ∃ ys, List.Forall₂ (fun (v : Num) y => parseFloat (v.render fmt) = some y) ((d.filter fun m => decide (m.1 = name)).map (·.2)) ys ∧
      Collect (Reading c!"g" (reportedAs inst name)) (d.map (gaugeText fmt inst)) ys := by
  induction d with
  | nil => exact ⟨[], .nil, .nil⟩
  | cons m d ih =>
    obtain ⟨ys, h1, h2⟩ := ih fun m hm => hd m (by simp [hm])
    have hr := gaugeText_reading hf (m := m) hi (hd m (by simp)) (reportedAs inst name)
    by_cases e : m.1 = name
    · obtain ⟨y, hy⟩ := (render_number hf m.2).1
      refine ⟨y :: ys, ?_, .hit ((hr y).2 ⟨by rw [e], hy⟩) h2⟩
      simp only [List.filter_cons, e, decide_true, if_true, List.map_cons]
      exact .cons hy h1
    · refine ⟨ys, ?_, .skip (fun v hv => e (reportedAs_inj ((hr v).1 hv).1).symm) h2⟩
      simp only [List.filter_cons, e, decide_false]
      exact h1

theorem collect_outside {P : Str → PyFloat → Prop} {ms : List Str} (h : ∀ m ∈ ms, ∀ v, ¬ P m v) : Collect P ms [] := by
  induction ms with
  | nil => exact .nil
  | cons m ms ih => exact .skip (h m (by simp)) (ih fun m' hm => h m' (by simp [hm]))

theorem collect_self {fmt : PyFloat → Str} (hf : NumberTexts fmt) {inst name : Str} (os : List SelfOp) (h : LegalReports inst os)
    (ho : ∀ m ∈ outside os, ∀ v, ¬ Reading c!"g" (reportedAs inst name) m v) :
    ∃ ys, List.Forall₂ (fun (v : Num) y => parseFloat (v.render fmt) = some y) (reportedValues name os) ys ∧
      Collect (Reading c!"g" (reportedAs inst name)) (messages (plainOps fmt inst os)) ys := by
  induction os with
  | nil => exact ⟨[], .nil, .nil⟩
  | cons o os ih =>
    have hout : ∀ m ∈ outside os, m ∈ outside (o :: os) := by
      intro m hm
      simp only [outside, List.mem_filterMap] at hm ⊢
      obtain ⟨a, ha, hb⟩ := hm
      exact ⟨a, by simp [ha], hb⟩
    obtain ⟨ys, h1, h2⟩ := ih ⟨h.1, fun d hd => h.2 d (by simp [hd])⟩ fun m hm => ho m (hout m hm)
    rw [messages_plain]
    have hsplit : reportedValues name (o :: os) = reportedValues name [o] ++ reportedValues name os := by
      simp [reportedValues]
    rw [hsplit]
    cases o with
    | msg m => exact ⟨ys, h1, .skip (ho m (by simp [outside])) h2⟩
    | flush i p => exact ⟨ys, h1, h2⟩
    | report x =>
      cases x with
      | error e => exact ⟨ys, h1, h2⟩
      | ok d =>
        obtain ⟨zs, h3, h4⟩ := collect_report hf (name := name) h.1 d fun m hm => h.2 d (by simp) m.1 (List.mem_map_of_mem hm)
        refine ⟨zs ++ ys, ?_, ?_⟩
        · refine List.rel_append ?_ h1
          simpa [reportedValues] using h3
        · have : messages (plainOps fmt inst [SelfOp.report (.ok d)]) = d.map (gaugeText fmt inst) := by
            simp [plainOps, messages, List.filterMap_map, Function.comp_def]
          rw [this]
          exact collect_append h4 h2

omit [Rounding] in
theorem forall₂_last {α β : Type} {R : α → β → Prop} {xs : List α} {a : α} {ys : List β} (h : List.Forall₂ R (xs ++ [a]) ys) :
    ∃ ys' y, ys = ys' ++ [y] ∧ R a y := by
  induction xs generalizing ys with
  | nil =>
    cases h with
    | cons h1 h2 => cases h2; exact ⟨[], _, rfl, h1⟩
  | cons x xs ih =>
    cases h with
    | @cons _ b _ l h1 h2 =>
      obtain ⟨ys', y, rfl, hy⟩ := ih h2
      exact ⟨b :: ys', y, rfl, hy⟩

end Txstatsd
