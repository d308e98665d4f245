import Verif.Spec.Demo
import Verif.Lemmas.MetricsServer
import Verif.Lemmas.Balance

set_option linter.unusedSectionVars false
set_option linter.unusedSimpArgs false
set_option linter.unusedVariables false

namespace Txstatsd
open Spec

section
variable [Rounding]

/-- The state of the client between events. -/
structure DemoInv (ns : Str) (d : Demo) (texts : List Str) : Prop where
  conn : d.metrics.conn = true
  ext : d.metrics.ext = false
  ns : d.metrics.namespc = some ns
  objs : ∀ key m, d.metrics.metrics.find key = some m → m = ⟨.plain, key, .int 1⟩
  gate : ∃ g t, d.udp.gateway = some g ∧ d.udp.transport = some t ∧ ∀ p ∈ d.udp.reactor, p.1 = g
  live : ∀ g, d.udp.gateway = some g → ∃ gw, d.udp.gateways[g]? = some gw ∧ gw.transport.isSome
  empty : d.udp.queue.queue = []
  texts : demoSent d ++ demoScheduled d = texts

theorem demo_init (host : Str) : DemoInv (host ++ c!".example-client") (demoInit host) [] := by
  refine ⟨rfl, rfl, rfl, ?_, ⟨0, 0, rfl, rfl, ?_⟩, ?_, rfl, rfl⟩
  · intro key m h
    cases h
  · intro p hp
    cases hp
  · intro g hg
    cases hg
    exact ⟨⟨some 0, c!"127.0.0.1"⟩, rfl, rfl⟩

theorem obtain_plain {ns : Str} {d : Demo} {texts : List Str} (h : DemoInv ns d texts) (key : Str) :
    (d.metrics.obtain key .plain (.int 1)).2 = ⟨.plain, key, .int 1⟩ ∧
    (d.metrics.obtain key .plain (.int 1)).1.conn = true ∧ (d.metrics.obtain key .plain (.int 1)).1.ext = false ∧
    (d.metrics.obtain key .plain (.int 1)).1.namespc = some ns ∧
    ∀ k m, (d.metrics.obtain key .plain (.int 1)).1.metrics.find k = some m → m = ⟨.plain, k, .int 1⟩ := by
  unfold Client.obtain
  cases hf : d.metrics.metrics.find key with
  | some m =>
    have := h.objs key m hf
    exact ⟨this, h.conn, h.ext, h.ns, h.objs⟩
  | none =>
    refine ⟨rfl, h.conn, h.ext, h.ns, fun k m hm => ?_⟩
    simp only at hm
    by_cases e : k = key
    · subst e
      rw [Dict.find_put_self] at hm
      exact (Option.some.inj hm).symm
    · rw [Dict.find_put_ne _ _ e] at hm
      exact h.objs k m hm

/-- A call that writes with an object of rate 1 sends its text. -/
theorem demo_call {ns : Str} {d : Demo} {texts : List Str} (h : DemoInv ns d texts) (fmt : PyFloat → Str) (name : Str) (c : Call)
    (data : Str) (hc : d.metrics.call fmt (.fin 0) 0 c = (d.metrics.obtain (fullyQualify d.metrics.namespc (some name)) .plain (.int 1)).1.write fmt 0
      (d.metrics.obtain (fullyQualify d.metrics.namespc (some name)) .plain (.int 1)).2 data) :
    DemoInv ns (d.call fmt c).1 (texts ++ [qualified (some ns) (some name) ++ c!":" ++ data]) ∧ (d.call fmt c).2 = none ∧
      (d.call fmt c).1.failures = d.failures := by
  obtain ⟨h1, h2, h3, h4, h5⟩ := obtain_plain h (fullyQualify d.metrics.namespc (some name))
  have hu : (⟨.plain, fullyQualify d.metrics.namespc (some name), .int 1⟩ : MetricObj).send fmt 0 data =
      some (fullyQualify d.metrics.namespc (some name) ++ c!":" ++ data) :=
    send_unsampled fmt 0 (m := ⟨.plain, _, .int 1⟩) (by simp [Unsampled, Num.exact, PyFloat.lt]) data
  rw [h1] at hc
  have hout : d.metrics.call fmt (.fin 0) 0 c = ((d.metrics.obtain (fullyQualify d.metrics.namespc (some name)) .plain (.int 1)).1,
      { out := some (fullyQualify d.metrics.namespc (some name) ++ c!":" ++ data) }) := by
    rw [hc]
    simp only [Client.write, h2, if_true, hu]
  obtain ⟨g, t, hg, ht, hr⟩ := h.gate
  have hw : d.udp.write ⟨fullyQualify d.metrics.namespc (some name) ++ c!":" ++ data, none⟩ =
      { d.udp with reactor := d.udp.reactor ++ [(g, ⟨fullyQualify d.metrics.namespc (some name) ++ c!":" ++ data, none⟩)] } := by
    simp only [TwistedClient.write, hg, ht]
  unfold Demo.call
  rw [hout]
  simp only [hw]
  refine ⟨⟨h2, h3, h4, h5, ⟨g, t, hg, ht, ?_⟩, h.live, h.empty, ?_⟩, trivial, trivial⟩
  · intro p hp
    rcases List.mem_append.1 hp with hp | hp
    · exact hr p hp
    · rw [List.mem_singleton.1 hp]
  · show _ ++ List.map _ (_ ++ _) = _
    have := h.texts
    rw [List.map_append, ← List.append_assoc]
    unfold demoSent demoScheduled at this
    rw [show d.udp.sent = d.udp.sent from rfl]
    rw [← this, h.ns, fullyQualify_eq]
    rfl

theorem demo_increment {ns : Str} {d : Demo} {texts : List Str} (h : DemoInv ns d texts) (fmt : PyFloat → Str) (name : Str) (v : Num) :
    DemoInv ns (d.call fmt (.increment (some name) (.num v) (.int 1))).1
      (texts ++ [qualified (some ns) (some name) ++ c!":" ++ (v.render fmt ++ c!"|c")]) ∧
    (d.call fmt (.increment (some name) (.num v) (.int 1))).2 = none ∧
    (d.call fmt (.increment (some name) (.num v) (.int 1))).1.failures = d.failures :=
  demo_call h fmt name _ _ (by simp only [Client.call, h.ext, Bool.false_eq_true, if_false, Arg.render])

theorem demo_decrement {ns : Str} {d : Demo} {texts : List Str} (h : DemoInv ns d texts) (fmt : PyFloat → Str) (name : Str) (v : Num) :
    DemoInv ns (d.call fmt (.decrement (some name) (.num v) (.int 1))).1
      (texts ++ [qualified (some ns) (some name) ++ c!":" ++ (v.neg.render fmt ++ c!"|c")]) :=
  (demo_call h fmt name _ _ (by
    simp only [Client.call, h.ext, Bool.false_eq_true, if_false, Arg.neg, Except.map, Client.writeResult, Arg.render])).1

theorem demo_timing {ns : Str} {d : Demo} {texts : List Str} (h : DemoInv ns d texts) (fmt : PyFloat → Str) (name : Str) (v : Num) :
    DemoInv ns (d.call fmt (.timing (some name) (some (.num v)) (.int 1))).1
      (texts ++ [qualified (some ns) (some name) ++ c!":" ++ ((v.mul (.int 1000)).render fmt ++ c!"|ms")]) :=
  (demo_call h fmt name _ _ (by
    simp only [Client.call, h.ext, Bool.false_eq_true, if_false, Arg.times1000, Arg.render])).1

theorem demo_reports {ns : Str} (fmt : PyFloat → Str) : ∀ (rs : List (Str × Num)) {d : Demo} {texts : List Str}, DemoInv ns d texts →
    DemoInv ns (reportMetrics [] (fun d name (v : Num) => Demo.call fmt d (.increment (some name) (.num v) (.int 1))) d rs).1
      (texts ++ rs.map fun p => qualified (some ns) (some p.1) ++ c!":" ++ (p.2.render fmt ++ c!"|c")) ∧
    (reportMetrics [] (fun d name (v : Num) => Demo.call fmt d (.increment (some name) (.num v) (.int 1))) d rs).2 = none ∧
    (reportMetrics [] (fun d name (v : Num) => Demo.call fmt d (.increment (some name) (.num v) (.int 1))) d rs).1.failures = d.failures
  | [], d, texts, h => by simpa [reportMetrics] using h
  | (name, v) :: rs, d, texts, h => by
    obtain ⟨h1, h2, h3⟩ := demo_increment h fmt name v
    obtain ⟨k1, k2, k3⟩ := demo_reports fmt rs h1
    unfold reportMetrics
    simp only [ne_eq, not_true_eq_false, if_false]
    rcases hd : d.call fmt (.increment (some name) (.num v) (.int 1)) with ⟨d', e⟩
    rw [hd] at h2 k1 k2 k3 h3
    simp only at h2
    subst h2
    simp only
    refine ⟨?_, k2, k3.trans h3⟩
    simpa using k1

theorem qualified_ns {ns : Str} (h : ns ≠ []) (n : Str) : qualified (some ns) (some n) = ns ++ c!"." ++ n := by
  cases ns with
  | nil => exact absurd rfl h
  | cons a b => simp [qualified, Option.filter, joinWith]

theorem demo_turn {ns : Str} {d : Demo} {texts : List Str} (h : DemoInv ns d texts) (r : Except PyErr Nat) :
    DemoInv ns { d with udp := d.udp.turn (fun _ _ => none) r } texts := by
  obtain ⟨g, t, hg, ht, hr⟩ := h.gate
  obtain ⟨gw, hgw, hs⟩ := h.live g hg
  obtain ⟨tr, htr⟩ := Option.isSome_iff_exists.1 hs
  cases hq : d.udp.reactor with
  | nil =>
    have : d.udp.turn (fun _ _ => none) r = d.udp := by unfold TwistedClient.turn; rw [hq]
    rw [this]
    exact h
  | cons p rest =>
    obtain ⟨i, m⟩ := p
    obtain rfl : i = g := hr (i, m) (by rw [hq]; simp)
    have hturn : d.udp.turn (fun _ _ => none) r = { d.udp with
        reactor := rest
        sent := d.udp.sent ++ [⟨tr, gw.host, m, r⟩]
        calls := (d.udp.turn (fun _ _ => none) r).calls
        escaped := (d.udp.turn (fun _ _ => none) r).escaped } := by
      unfold TwistedClient.turn
      rw [hq]
      simp only [hgw, htr]
    rw [hturn]
    refine ⟨h.conn, h.ext, h.ns, h.objs, ⟨i, t, hg, ht, fun p hp => hr p (by rw [hq]; simp [show p ∈ rest from hp])⟩, h.live, h.empty, ?_⟩
    have := h.texts
    unfold demoSent demoScheduled at this ⊢
    rw [hq] at this
    rw [← this]
    simp

theorem demo_step {ns : Str} (hns : ns ≠ []) {d : Demo} {texts : List Str} (h : DemoInv ns d texts) (fmt : PyFloat → Str) (e : DemoEvent) :
    DemoInv ns (d.step fmt e) (texts ++ demoTexts fmt ns e) := by
  cases e with
  | walk n draw =>
    have r1 : (Num.int 1).render fmt = c!"1" := show intStr 1 = c!"1" by decide +kernel
    have r2 : (Num.int 1).neg.render fmt = c!"-1" := show intStr (-1) = c!"-1" by decide +kernel
    simp only [Demo.step, demoTexts]
    split
    · have := (demo_increment h fmt (c!"walker" ++ natStr n) (.int 1)).1
      rw [qualified_ns hns] at this
      rw [r1] at this
      simpa using this
    · have := demo_decrement h fmt (c!"walker" ++ natStr n) (.int 1)
      rw [qualified_ns hns] at this
      rw [r2] at this
      simpa using this
  | normal n x =>
    have := demo_timing h fmt (c!"normal" ++ natStr n) (.flt x)
    rw [qualified_ns hns] at this
    simpa [Demo.step, demoTexts] using this
  | report memory cpu percent threads =>
    have key : ∀ rs : List (Str × Num), DemoInv ns
        { (wrapperRun [] (fun d name (v : Num) => Demo.call fmt d (.increment (some name) (.num v) (.int 1))) d (.ok rs)).1 with
          failures := (wrapperRun [] (fun d name (v : Num) => Demo.call fmt d (.increment (some name) (.num v) (.int 1))) d
            (.ok rs)).1.failures ++ [(wrapperRun [] (fun d name (v : Num) => Demo.call fmt d (.increment (some name) (.num v) (.int 1))) d
            (.ok rs)).2] }
        (texts ++ rs.map fun p => ns ++ c!"." ++ p.1 ++ c!":" ++ p.2.render fmt ++ c!"|c") := by
      intro rs
      obtain ⟨k1, k2, -⟩ := demo_reports fmt rs h
      unfold wrapperRun
      simp only
      rcases hd : reportMetrics [] (fun d name (v : Num) => Demo.call fmt d (.increment (some name) (.num v) (.int 1))) d rs with ⟨d', e⟩
      rw [hd] at k1 k2
      simp only at k2
      subst k2
      simp only [qualified_ns hns] at k1 ⊢
      exact ⟨k1.conn, k1.ext, k1.ns, k1.objs, k1.gate, k1.live, k1.empty, by
        have := k1.texts
        unfold demoSent demoScheduled at this ⊢
        simpa using this⟩
    have bad : DemoInv ns { d with failures := d.failures ++ [true] } (texts ++ []) := by
      rw [List.append_nil]
      exact ⟨h.conn, h.ext, h.ns, h.objs, h.gate, h.live, h.empty, h.texts⟩
    rcases memory with _ | ⟨a, _ | ⟨b, _ | ⟨c, l⟩⟩⟩
    · exact bad
    · exact bad
    · cases threads with
      | none => exact key _
      | some n => exact key _
    · exact bad
  | turn r =>
    simp only [demoTexts, List.append_nil]
    exact demo_turn h r

theorem demo_run {ns : Str} (hns : ns ≠ []) (fmt : PyFloat → Str) : ∀ (es : List DemoEvent) {d : Demo} {texts : List Str}, DemoInv ns d texts →
    DemoInv ns (d.run fmt es) (texts ++ es.flatMap (demoTexts fmt ns))
  | [], d, texts, h => by simpa [Demo.run] using h
  | e :: es, d, texts, h => by
    have := demo_run hns fmt es (demo_step hns h fmt e)
    simpa [Demo.run] using this

end

end Txstatsd
