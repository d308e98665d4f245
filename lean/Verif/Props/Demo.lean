import Verif.Lemmas.Demo
import Verif.Props.Balance
import Verif.Props.FloatStr

set_option linter.unusedSectionVars false
set_option linter.unusedSimpArgs false
set_option linter.unusedVariables false

/-!
# C170: the example client
-/

namespace Txstatsd
open Spec

section
variable [Rounding]

/-- C170: everything that happens is written once and in order, as it is meant: the datagrams sent, followed by those that the reactor has yet
to send, are the texts of the events. Nothing waits in the queue. -/
theorem C170_sent (fmt : PyFloat → Str) (host : Str) (es : List DemoEvent) :
    let d := (demoInit host).run fmt es
    demoSent d ++ demoScheduled d = es.flatMap (demoTexts fmt (host ++ c!".example-client")) ∧ d.udp.queue.queue = [] := by
  intro d
  have h := demo_run (ns := host ++ c!".example-client") (by simp) fmt es (demo_init host)
  exact ⟨h.texts, h.empty⟩

/-- C170: a report fails only if `psutil` gives other than two numbers for the memory. -/
theorem C170_failures (fmt : PyFloat → Str) (host : Str) (es : List DemoEvent) (memory : List Num) (cpu percent : Num) (threads : Option Num) :
    let d := (demoInit host).run fmt es
    (d.step fmt (.report memory cpu percent threads)).failures = d.failures ++ [decide (memory.length ≠ 2)] := by
  intro d
  have h : DemoInv (host ++ c!".example-client") d _ := demo_run (by simp) fmt es (demo_init host)
  have key : ∀ rs : List (Str × Num),
      (wrapperRun [] (fun d name (v : Num) => Demo.call fmt d (.increment (some name) (.num v) (.int 1))) d (.ok rs)).1.failures ++
        [(wrapperRun [] (fun d name (v : Num) => Demo.call fmt d (.increment (some name) (.num v) (.int 1))) d (.ok rs)).2] =
        d.failures ++ [false] := by
    intro rs
    obtain ⟨-, k2, k3⟩ := demo_reports fmt rs h
    unfold wrapperRun
    simp only
    rcases hd : reportMetrics [] (fun d name (v : Num) => Demo.call fmt d (.increment (some name) (.num v) (.int 1))) d rs with ⟨d', e⟩
    rw [hd] at k2 k3
    simp only at k2 k3
    subst k2
    simp only [k3]
  rcases memory with _ | ⟨a, _ | ⟨b, _ | ⟨c, l⟩⟩⟩
  · rfl
  · rfl
  · cases threads with
    | none => exact key _
    | some n => exact key _
  · have : decide ((a :: b :: c :: l).length ≠ 2) = true := by simp
    rw [this]
    rfl

theorem legal_natStr (n : ℕ) : ∀ c ∈ natStr n, Legal c := by
  intro c hc
  have h := natStr_digits n c hc
  simp only [isDigit, Bool.and_eq_true, decide_eq_true_eq] at h
  left
  simp only [Char.isAlphanum, Char.isDigit, Bool.or_eq_true, Bool.and_eq_true, decide_eq_true_eq]
  exact Or.inr h

theorem natStr_inj {a b : ℕ} (h : natStr a = natStr b) : a = b := by
  have := congrArg digitsVal h
  rwa [digitsVal_natStr, digitsVal_natStr] at this

/-- The reading `name` of the process. -/
def processNames : List Str := [c!"proc.cpu.percent", c!"proc.memory.percent", c!"proc.memory.vsize", c!"proc.memory.rss", c!"proc.threads"]

theorem processReadings_names {memory : List Num} {cpu percent : Num} {threads : Option Num} {p : Str × Num}
    (h : p ∈ processReadings memory cpu percent threads) : p.1 ∈ processNames := by
  unfold processReadings at h
  split at h
  · simp only [List.mem_append, List.mem_cons, List.not_mem_nil, or_false] at h
    rcases h with (rfl | rfl | rfl | rfl) | h
    · simp [processNames]
    · simp [processNames]
    · simp [processNames]
    · simp [processNames]
    · cases threads with
      | none => simp at h
      | some n =>
        simp only [Option.map_some, Option.toList_some, List.mem_singleton] at h
        subst h
        simp [processNames]
  · cases h

end

section
variable [Rounding] [IntExact] {R PF PM : Type}

theorem one_fin : rnd (1 : ℚ) = .fin 1 := by
  have := IntExact.rnd_int 1 (by norm_num)
  simpa using this

/-- A text of the client as a message. -/
theorem plain_count {ns name : Str} (hns : ∀ c ∈ ns, Legal c) (hn : ∀ c ∈ name, Legal c) (v : Num) :
    Plain (ns ++ c!"." ++ name) (v.render pyStr) c!"c" := by
  obtain ⟨hy, e1, e2⟩ := render_number C116_accepted v
  refine ⟨?_, e1, e2, hy, by decide⟩
  intro c hc
  simp only [List.mem_append, List.mem_singleton] at hc
  rcases hc with (hc | rfl) | hc
  · exact hns c hc
  · decide
  · exact hn c hc

theorem plain_time {ns name : Str} (hns : ∀ c ∈ ns, Legal c) (hn : ∀ c ∈ name, Legal c) (v : Num) :
    Plain (ns ++ c!"." ++ name) (v.render pyStr) c!"ms" := by
  obtain ⟨h1, h2, h3, h4, -⟩ := plain_count hns hn v
  exact ⟨h1, h2, h3, h4, by decide⟩

theorem legal_process : ∀ n ∈ processNames, ∀ c ∈ n, Legal c := by decide +kernel

theorem legal_walker (n : ℕ) : ∀ c ∈ c!"walker" ++ natStr n, Legal c := by
  intro c hc
  rcases List.mem_append.1 hc with hc | hc
  · exact (by decide : ∀ c ∈ c!"walker", Legal c) c hc
  · exact legal_natStr n c hc

theorem legal_normal (n : ℕ) : ∀ c ∈ c!"normal" ++ natStr n, Legal c := by
  intro c hc
  rcases List.mem_append.1 hc with hc | hc
  · exact (by decide : ∀ c ∈ c!"normal", Legal c) c hc
  · exact legal_natStr n c hc

/-- A text that counts a whole number. -/
theorem count_increment {ns name : Str} (hns : ∀ c ∈ ns, Legal c) (hn : ∀ c ∈ name, Legal c) (z : ℤ) (hz : |z| ≤ 2 ^ 53) :
    Increment (ns ++ c!"." ++ name ++ c!":" ++ intStr z ++ c!"|c") (ns ++ c!"." ++ name) (.fin z) (.fin 1) := by
  have := (plain_count hns hn (.int z)).increment (z := z)
  rw [IntExact.rnd_int z hz, one_fin] at this
  simpa using this

/-- A text about another name, or of a time, counts nothing. -/
theorem other_count {ns name key : Str} (hns : ∀ c ∈ ns, Legal c) (hn : ∀ c ∈ name, Legal c) (v : Num) (h : name ≠ key) (x r : PyFloat) :
    ¬ Increment (ns ++ c!"." ++ name ++ c!":" ++ v.render pyStr ++ c!"|c") (ns ++ c!"." ++ key) x r := by
  have := (plain_count hns hn v).not_increment (key := ns ++ c!"." ++ key) (Or.inl (by simpa using h)) x r
  simpa using this

theorem time_count {ns name key : Str} (hns : ∀ c ∈ ns, Legal c) (hn : ∀ c ∈ name, Legal c) (v : Num) (x r : PyFloat) :
    ¬ Increment (ns ++ c!"." ++ name ++ c!":" ++ v.render pyStr ++ c!"|ms") key x r := by
  have := (plain_time hns hn v).not_increment (key := key) (Or.inr (by decide)) x r
  simpa using this

theorem render_one : intStr 1 = c!"1" ∧ intStr (-1) = c!"-1" := by decide +kernel

theorem walk_text (ns : Str) (n : ℕ) (draw : ℚ) : demoTexts pyStr ns (.walk n draw) =
    [ns ++ c!"." ++ (c!"walker" ++ natStr n) ++ c!":" ++ (Num.int (if 1 / 2 < draw then 1 else -1)).render pyStr ++ c!"|c"] := by
  show [ns ++ c!".walker" ++ natStr n ++ (if 1 / 2 < draw then c!":1|c" else c!":-1|c")] = _
  split <;> simp [Num.render, render_one]

/-- The increments of a name among the texts, by event. -/
theorem demo_increments (ns key : Str) (val : DemoEvent → Option ℤ) (es : List DemoEvent)
    (hv : ∀ e ∈ es, FiniteIncrements (ns ++ c!"." ++ key) (demoTexts pyStr ns e) ((val e).toList.map fun z : ℤ => ((z : ℚ), (1 : ℚ)))) :
    FiniteIncrements (ns ++ c!"." ++ key) (es.flatMap (demoTexts pyStr ns)) ((es.filterMap val).map fun z : ℤ => ((z : ℚ), (1 : ℚ))) := by
  induction es with
  | nil => exact .nil
  | cons e es ih =>
    have h1 := increments_append (hv e (by simp)) (ih fun e' h' => hv e' (by simp [h']))
    unfold FiniteIncrements
    rw [List.flatMap_cons]
    cases h : val e with
    | none => rw [h] at h1; simpa [List.filterMap_cons, h] using h1
    | some z => rw [h] at h1; simpa [List.filterMap_cons, h] using h1

theorem one_text {key t : Str} {z : ℤ} (h : Increment t key (.fin z) (.fin 1)) :
    FiniteIncrements key [t] ([z].map fun z : ℤ => ((z : ℚ), (1 : ℚ))) := .hit h .nil

theorem no_texts {key : Str} {ts : List Str} (h : ∀ t ∈ ts, ∀ v r, ¬ Increment t key v r) :
    FiniteIncrements key ts (([] : List ℤ).map fun z : ℤ => ((z : ℚ), (1 : ℚ))) := increments_none h

theorem walker_increments (ns : Str) (hns : ∀ c ∈ ns, Legal c) (n : ℕ) (es : List DemoEvent) :
    FiniteIncrements (ns ++ c!"." ++ (c!"walker" ++ natStr n)) (es.flatMap (demoTexts pyStr ns))
      ((steps n es).map fun z : ℤ => ((z : ℚ), (1 : ℚ))) := by
  refine demo_increments ns (c!"walker" ++ natStr n) _ es fun e _ => ?_
  cases e with
  | walk m draw =>
    rw [walk_text]
    by_cases h : m = n
    · subst h
      simp only [if_true, Option.toList_some]
      refine one_text (count_increment hns (legal_walker m) _ ?_)
      split <;> norm_num
    · simp only [if_neg h, Option.toList_none]
      refine no_texts fun t ht => ?_
      rw [List.mem_singleton.1 ht]
      exact other_count hns (legal_walker m) _ (fun e => h (natStr_inj (List.append_cancel_left e)))
  | normal m x =>
    refine no_texts fun t ht => ?_
    have := time_count (key := ns ++ c!"." ++ (c!"walker" ++ natStr n)) hns (legal_normal m) ((Num.flt x).mul (.int 1000))
    rw [List.mem_singleton.1 ht]
    simpa using this
  | report memory cpu percent threads =>
    refine no_texts fun t ht => ?_
    obtain ⟨p, hp, rfl⟩ := List.mem_map.1 ht
    have hn := processReadings_names hp
    refine other_count hns (legal_process _ hn) _ fun e => ?_
    simp only [processNames, List.mem_cons, List.not_mem_nil, or_false] at hn
    rw [e] at hn
    simp at hn
  | turn r => exact .nil

theorem vsize_increments (ns : Str) (hns : ∀ c ∈ ns, Legal c) (es : List DemoEvent)
    (hm : ∀ memory cpu percent threads, DemoEvent.report memory cpu percent threads ∈ es →
      ∃ v r : ℤ, memory = [.int v, .int r] ∧ |v| ≤ 2 ^ 53) :
    FiniteIncrements (ns ++ c!"." ++ c!"proc.memory.vsize") (es.flatMap (demoTexts pyStr ns))
      ((vsizes es).map fun z : ℤ => ((z : ℚ), (1 : ℚ))) := by
  refine demo_increments ns c!"proc.memory.vsize" _ es fun e he => ?_
  cases e with
  | walk m draw =>
    rw [walk_text]
    refine no_texts fun t ht => ?_
    rw [List.mem_singleton.1 ht]
    exact other_count hns (legal_walker m) _ (by simp)
  | normal m x =>
    refine no_texts fun t ht => ?_
    have := time_count (key := ns ++ c!"." ++ c!"proc.memory.vsize") hns (legal_normal m) ((Num.flt x).mul (.int 1000))
    rw [List.mem_singleton.1 ht]
    simpa using this
  | report memory cpu percent threads =>
    obtain ⟨v, r, rfl, hv⟩ := hm _ _ _ _ he
    have hlegal : ∀ n ∈ processNames, ∀ c ∈ n, Legal c := legal_process
    have h1 : ∀ name ∈ processNames, ∀ v : Num, name ≠ c!"proc.memory.vsize" → ∀ x r,
        ¬ Increment (ns ++ c!"." ++ name ++ c!":" ++ v.render pyStr ++ c!"|c") (ns ++ c!"." ++ c!"proc.memory.vsize") x r :=
      fun name hn v hne => other_count hns (hlegal name hn) v hne
    refine .skip (h1 _ (by simp [processNames]) cpu (by simp)) (.skip (h1 _ (by simp [processNames]) percent (by simp))
      (.hit (count_increment hns (hlegal c!"proc.memory.vsize" (by simp [processNames])) v hv)
        (.skip (h1 _ (by simp [processNames]) (.int r) (by simp)) ?_)))
    cases threads with
    | none => exact .nil
    | some n => exact .skip (h1 _ (by simp [processNames]) n (by simp)) .nil
  | turn r => exact .nil

theorem sizes_ints : ∀ zs : List ℤ, sizes (zs.map fun z : ℤ => ((z : ℚ), (1 : ℚ))) = (((zs.map abs).sum : ℤ) : ℚ)
  | [] => rfl
  | z :: zs => by
    have ih := sizes_ints zs
    simp only [sizes, List.map_cons, List.sum_cons] at ih ⊢
    rw [ih]
    simp

theorem amount_ints : ∀ zs : List ℤ, amount (zs.map fun z : ℤ => ((z : ℚ), (1 : ℚ))) = ((zs.sum : ℤ) : ℚ)
  | [] => rfl
  | z :: zs => by
    have ih := amount_ints zs
    simp only [amount, List.map_cons, List.sum_cons] at ih ⊢
    rw [ih]
    simp

theorem amount_of_perm {a b : List (ℚ × ℚ)} (h : a.Perm b) : amount a = amount b := (h.map _).sum_eq

/-- The balance of what the client sent and what a service without rules made of it. -/
theorem demo_balance (ops : PluginOps PF PM) (hq : Quiet ops c!"stats_counts.") (plugins : List PF) (cf : AppConf R)
    (hr : cf.rules = []) (hi : 1000 ≤ cf.flushInterval) (w : World) (es' : List AppEvent) (key : Str) (all got others missing : List Str)
    (zs : List ℤ) (hz : (zs.map abs).sum ≤ 2 ^ 53) (hall : FiniteIncrements key all (zs.map fun z : ℤ => ((z : ℚ), (1 : ℚ))))
    (hg : (got ++ missing).Perm all) (ht : (takenIn cf.monitor.message es').Perm (got ++ others))
    (ho : ∀ t ∈ others, ∀ v r, ¬ Increment t key v r) :
    let v := App.run (messageProcessor ops).proc cf w { ps := MPState.init ops plugins } es'
    ∃ waiting lost x, FiniteIncrements key v.scheduled waiting ∧ FiniteIncrements key missing lost ∧
      SumOf (countsAt key v.out v.gens v.ps) x ∧ x + amount waiting + amount lost = (zs.sum : ℤ) := by
  intro v
  obtain ⟨qg, qm, k1, k2, k3⟩ := finite_parts hg hall
  obtain ⟨qa, qb, a1, a2, a3⟩ := finite_parts (a := takenIn cf.monitor.message es') (b := []) (by simpa using ht) (increments_skip ho k1)
  have hb : qb = [] := by
    cases qb with
    | nil => rfl
    | cons q qb => cases a2
  subst hb
  rw [List.append_nil] at a3
  have hp : (qa ++ qm).Perm (zs.map fun z : ℤ => ((z : ℚ), (1 : ℚ))) := (a3.append_right qm).trans k3
  have hsz : sizes qa ≤ 2 ^ 53 := by
    have h1 := sizes_perm hp
    rw [sizes_ints] at h1
    have h2 : sizes (qa ++ qm) = sizes qa + sizes qm := by simp [sizes]
    have h3 : 0 ≤ sizes qm := List.sum_nonneg (by
      intro x hx
      obtain ⟨p, -, rfl⟩ := List.mem_map.1 hx
      exact abs_nonneg _)
    have h4 : (((zs.map abs).sum : ℤ) : ℚ) ≤ 2 ^ 53 := by exact_mod_cast hz
    linarith
  have hadd := C125_whole qa (fun p hp' => by
    have := hp.subset (List.mem_append_left qm hp')
    obtain ⟨z, -, rfl⟩ := List.mem_map.1 this
    exact ⟨rfl, z, rfl⟩) hsz
  obtain ⟨waiting, x, w1, w2, w3⟩ := C125_service ops hq plugins cf hr hi w es' key 0 le_rfl qa a1 hadd
  refine ⟨waiting, qm, x, w1, k2, w2, ?_⟩
  rw [zero_mul] at w3
  have w4 := abs_nonpos_iff.1 w3
  have h1 := amount_of_perm hp
  rw [amount_ints] at h1
  have h2 : amount (qa ++ qm) = amount qa + amount qm := by simp [amount]
  linarith

/-- C170: at every moment of every schedule of a service without rules, the counts that the service sent to carbon for a walker, with those under
way and the stored one, the steps that it has yet to process, and those in datagrams that were lost or are still to be sent, make up the
position of the walker: its steps up less those down. In doubles, exactly. -/
theorem C170_walkers (host : Str) (hh : ∀ c ∈ host, Legal c) (es : List DemoEvent) (n : ℕ) (hb : ((steps n es).length : ℤ) ≤ 2 ^ 53)
    (ops : PluginOps PF PM) (hq : Quiet ops c!"stats_counts.") (plugins : List PF) (cf : AppConf R)
    (hr : cf.rules = []) (hi : 1000 ≤ cf.flushInterval) (w : World) (es' : List AppEvent) (got lost others : List Str)
    (hg : (got ++ lost).Perm (demoSent ((demoInit host).run pyStr es))) (ht : (takenIn cf.monitor.message es').Perm (got ++ others))
    (ho : ∀ t ∈ others, ∀ v r, ¬ Increment t (host ++ c!".example-client.walker" ++ natStr n) v r) :
    let v := App.run (messageProcessor ops).proc cf w { ps := MPState.init ops plugins } es'
    let key := host ++ c!".example-client.walker" ++ natStr n
    ∃ waiting missing x, FiniteIncrements key v.scheduled waiting ∧
      FiniteIncrements key (lost ++ demoScheduled ((demoInit host).run pyStr es)) missing ∧
      SumOf (countsAt key v.out v.gens v.ps) x ∧ x + amount waiting + amount missing = ((steps n es).sum : ℤ) := by
  intro v key
  have hns : ∀ c ∈ host ++ c!".example-client", Legal c := by
    intro c hc
    rcases List.mem_append.1 hc with hc | hc
    · exact hh c hc
    · exact (by decide : ∀ c ∈ c!".example-client", Legal c) c hc
  have hk : host ++ c!".example-client" ++ c!"." ++ (c!"walker" ++ natStr n) = key := by simp [key]
  have h1 := walker_increments _ hns n es
  rw [hk] at h1
  have hsent := (C170_sent pyStr host es).1
  refine demo_balance ops hq plugins cf hr hi w es' key _ got others (lost ++ demoScheduled ((demoInit host).run pyStr es)) (steps n es) ?_ h1 ?_ ht ho
  · have : ∀ z ∈ (steps n es).map abs, z = 1 := by
      intro z hz
      obtain ⟨y, hy, rfl⟩ := List.mem_map.1 hz
      obtain ⟨e, -, he⟩ := List.mem_filterMap.1 hy
      cases e with
      | walk m draw =>
        simp only at he
        split at he
        · cases he
          split <;> rfl
        · cases he
      | _ => cases he
    rw [List.eq_replicate_of_mem this]
    simpa using hb
  · rw [← hsent, ← List.append_assoc]
    exact hg.append_right _

/-- C170 (partial): the counts for the size of the process make up the sum of the sizes reported: a report adds the whole size, however little it
changed. -/
theorem C170_levels_partial (host : Str) (hh : ∀ c ∈ host, Legal c) (es : List DemoEvent)
    (hm : ∀ memory cpu percent threads, DemoEvent.report memory cpu percent threads ∈ es →
      ∃ v r : ℤ, memory = [.int v, .int r] ∧ |v| ≤ 2 ^ 53) (hb : ((vsizes es).map abs).sum ≤ 2 ^ 53)
    (ops : PluginOps PF PM) (hq : Quiet ops c!"stats_counts.") (plugins : List PF) (cf : AppConf R)
    (hr : cf.rules = []) (hi : 1000 ≤ cf.flushInterval) (w : World) (es' : List AppEvent) (got lost others : List Str)
    (hg : (got ++ lost).Perm (demoSent ((demoInit host).run pyStr es))) (ht : (takenIn cf.monitor.message es').Perm (got ++ others))
    (ho : ∀ t ∈ others, ∀ v r, ¬ Increment t (host ++ c!".example-client.proc.memory.vsize") v r) :
    let v := App.run (messageProcessor ops).proc cf w { ps := MPState.init ops plugins } es'
    let key := host ++ c!".example-client.proc.memory.vsize"
    ∃ waiting missing x, FiniteIncrements key v.scheduled waiting ∧
      FiniteIncrements key (lost ++ demoScheduled ((demoInit host).run pyStr es)) missing ∧
      SumOf (countsAt key v.out v.gens v.ps) x ∧ x + amount waiting + amount missing = ((vsizes es).sum : ℤ) := by
  intro v key
  have hns : ∀ c ∈ host ++ c!".example-client", Legal c := by
    intro c hc
    rcases List.mem_append.1 hc with hc | hc
    · exact hh c hc
    · exact (by decide : ∀ c ∈ c!".example-client", Legal c) c hc
  have hk : host ++ c!".example-client" ++ c!"." ++ c!"proc.memory.vsize" = key := by simp [key]
  have h1 := vsize_increments _ hns es hm
  rw [hk] at h1
  have hsent := (C170_sent pyStr host es).1
  refine demo_balance ops hq plugins cf hr hi w es' key _ got others (lost ++ demoScheduled ((demoInit host).run pyStr es)) (vsizes es) hb h1 ?_ ht ho
  rw [← hsent, ← List.append_assoc]
  exact hg.append_right _

end

attribute [local instance] binary64 binary64_ieee

/-- C170, the expectation: when all datagrams of the client have been sent and processed, the next flush shows the size of the process as it was
reported last. -/
theorem C170_levels_refuted : ¬ ∀ (es : List DemoEvent) (v : ℤ), (vsizes es).getLast? = some v →
    let d := (demoInit c!"h").run pyStr es
    demoScheduled d = [] →
    let s := processAll (messageProcessor noPlugins) exWorld (MPState.init noPlugins []) (demoSent d)
    (named c!"stats_counts.h.example-client.proc.memory.vsize" (flush (messageProcessor noPlugins) exWorld 60000 90 s).2.1).map Datapoint.value =
      [.flt (.fin v)] := by
  intro h
  have := h [.report [.int 100, .int 10] (.flt (.fin 1)) (.flt (.fin 1)) none, .report [.int 100, .int 10] (.flt (.fin 1)) (.flt (.fin 1)) none,
    .turn (.ok 1), .turn (.ok 1), .turn (.ok 1), .turn (.ok 1), .turn (.ok 1), .turn (.ok 1), .turn (.ok 1), .turn (.ok 1)] 100 (by decide +kernel)
    (by decide +kernel)
  revert this
  decide +kernel

/-- The hypotheses of C170_walkers are met: two walkers move, the first datagrams arrive, one is lost and one is still to be sent. -/
example := C170_walkers c!"h" (by decide)
    [.walk 0 (3 / 4), .walk 1 (1 / 4), .walk 0 (3 / 4), .turn (.ok 1), .turn (.ok 1), .turn (.ok 1), .walk 0 (1 / 4)] 0 (by decide +kernel)
    noPlugins (by intro key m _ w t i ts l h; cases h; simp) [] exAppConf rfl (by decide) exWorld
    [.receive c!"h.example-client.walker1:-1|c", .turn 0, .receive c!"h.example-client.walker0:1|c"]
    [c!"h.example-client.walker0:1|c", c!"h.example-client.walker1:-1|c"] [c!"h.example-client.walker0:1|c"] []
    (by decide +kernel) (by decide +kernel) (by simp)

/-- Two draws above one half and one below make a position of one. -/
example : (steps 0 [.walk 0 (3 / 4), .walk 1 (1 / 4), .walk 0 (3 / 4), .turn (.ok 1), .walk 0 (1 / 4)]).sum = 1 := by decide +kernel

/-- The hypotheses of C170_levels_partial are met: two reports, of which the first arrives. -/
example := C170_levels_partial c!"h" (by decide)
    [.report [.int 100, .int 10] (.flt (.fin 1)) (.flt (.fin 1)) none, .turn (.ok 1), .turn (.ok 1), .turn (.ok 1),
      .report [.int 100, .int 10] (.flt (.fin 1)) (.flt (.fin 1)) (some (.int 3))]
    (by
      intro memory cpu percent threads h
      simp only [List.mem_cons, List.not_mem_nil, or_false, DemoEvent.report.injEq, reduceCtorEq, false_or] at h
      rcases h with ⟨rfl, -⟩ | ⟨rfl, -⟩ <;> exact ⟨100, 10, rfl, by norm_num⟩) (by decide +kernel)
    noPlugins (by intro key m _ w t i ts l h; cases h; simp) [] exAppConf rfl (by decide) exWorld
    [.receive c!"h.example-client.proc.memory.vsize:100|c", .turn 0]
    [c!"h.example-client.proc.memory.vsize:100|c"] [c!"h.example-client.proc.cpu.percent:1.0|c", c!"h.example-client.proc.memory.percent:1.0|c"] []
    (by decide +kernel) (by decide +kernel) (by simp)

/-- A report with three numbers fails; one with two does not. -/
example : ((demoInit c!"h").run pyStr [.report [.int 1, .int 2, .int 3] (.int 1) (.int 1) none, .report [.int 1, .int 2] (.int 1) (.int 1) none]).failures =
    [true, false] := by decide +kernel

end Txstatsd
