import Verif.Lemmas.Termination
import Verif.Props.Accounting

/-!
# Flushes interleaved with arrivals: C22, C23, C24
-/

namespace Txstatsd
open Spec
section
variable [Rounding] {PF PM : Type}

/-- C22: in every schedule of arrivals, flushes started (any number of them at the same time) and generator steps, the
accepted increments of a key can be cut into consecutive blocks such that the `stats_counts.<key>` values emitted or
under way are exactly the totals of the blocks and the stored value is the total of the rest. -/
theorem C22_conservation (ops : PluginOps PF PM) (hq : Quiet ops c!"stats_counts.") (plugins : List PF) (w : World)
    (es : List Event) (hw : WholeSecondSpawns es) (key : Str) :
    let v := (startUp (MPState.init ops plugins)).run (messageProcessor ops) w es
    ∃ (blocks : List (List (PyFloat × PyFloat))) (last : List (PyFloat × PyFloat)),
      Increments key (arrivals es) (blocks.flatten ++ last) ∧
      ((named (c!"stats_counts." ++ key) (v.out ++ underWay v.gens)).map Datapoint.value).Perm (blocks.map total) ∧
      (v.ps.counters.find key).getD (.int 0) = total last := by
  obtain ⟨_, _, b, l, h1, h2, h3, _⟩ := schedule_conservation ops hq plugins w es hw key
  exact ⟨b, l, h1, h2, h3⟩

/-- C22: with exact arithmetic, what was emitted, what is under way and what is stored add up to the sum of value/rate
over all accepted increments, at every moment of every schedule. -/
theorem C22_exact_balance [Exact] (ops : PluginOps PF PM) (hq : Quiet ops c!"stats_counts.") (plugins : List PF)
    (w : World) (es : List Event) (hw : WholeSecondSpawns es) (key : Str) (qs : List (ℚ × ℚ))
    (hinc : Increments key (arrivals es) (qs.map fun p => (.fin p.1, .fin p.2))) :
    let v := (startUp (MPState.init ops plugins)).run (messageProcessor ops) w es
    ((named (c!"stats_counts." ++ key) v.out).map fun d => d.value.rat).sum +
      ((named (c!"stats_counts." ++ key) (underWay v.gens)).map fun d => d.value.rat).sum +
      ((v.ps.counters.find key).getD (.int 0)).rat = (qs.map fun p => p.1 / p.2).sum := by
  intro v
  obtain ⟨_, _, blocks, last, h1, h2, h3, _⟩ := schedule_conservation ops hq plugins w es hw key
  have hp := (h2.map Num.rat).sum_eq
  rw [List.map_map, List.map_map, named_append, List.map_append, List.sum_append] at hp
  have hb := balance_of_blocks h1 qs hinc
  rw [← hb, ← h3]
  exact congrArg (· + ((v.ps.counters.find key).getD (.int 0)).rat) hp

/-- C22: when all flushes have ended or not begun, emitted and stored values add up. -/
theorem C22_at_rest [Exact] (ops : PluginOps PF PM) (hq : Quiet ops c!"stats_counts.") (plugins : List PF)
    (w : World) (es : List Event) (hw : WholeSecondSpawns es) (key : Str) (qs : List (ℚ × ℚ))
    (hinc : Increments key (arrivals es) (qs.map fun p => (.fin p.1, .fin p.2))) :
    let v := (startUp (MPState.init ops plugins)).run (messageProcessor ops) w es
    (∀ g ∈ v.gens, AtRest g.pc) →
    ((named (c!"stats_counts." ++ key) v.out).map fun d => d.value.rat).sum +
      ((v.ps.counters.find key).getD (.int 0)).rat = (qs.map fun p => p.1 / p.2).sum := by
  intro v hr
  have h := C22_exact_balance ops hq plugins w es hw key qs hinc
  have hu : underWay v.gens = [] := by
    unfold underWay
    rw [List.flatMap_eq_nil_iff]
    intro g hg
    have := hr g hg
    cases hpc : g.pc <;> rw [hpc] at this <;> first | rfl | exact absurd this (fun h => h)
  have h' : ((named (c!"stats_counts." ++ key) v.out).map fun d => d.value.rat).sum +
      ((named (c!"stats_counts." ++ key) (underWay v.gens)).map fun d => d.value.rat).sum +
      ((v.ps.counters.find key).getD (.int 0)).rat = (qs.map fun p => p.1 / p.2).sum := h
  rw [hu] at h'
  simpa [named] using h'

/-- C23: a flush that is not interrupted does exactly what the atomic `flush` does: some number of steps leads to its
result, with the same state, the same datapoints in the same order, and the same exception if it raises. -/
theorem C23_uninterrupted (ops : PluginOps PF PM) (plugins : List PF) (w : World) (es : List Event) (i : Nat)
    (interval percent : ℤ) :
    let v := (startUp (MPState.init ops plugins)).run (messageProcessor ops) w es
    let r := flush (messageProcessor ops) w interval percent v.ps
    v.gens[i]? = some ⟨interval, percent, .fresh⟩ →
    ∃ n, v.run (messageProcessor ops) w (List.replicate n (.advance i)) =
      { ps := r.1, gens := v.gens.set i ⟨interval, percent, match r.2.2 with
                                                          | none => .done
                                                          | some e => .crashed e⟩, out := v.out ++ r.2.1 } := by
  intro v r hg
  have hwf : MPWf ops v.ps := mpwf_run ops w (mpwf_init ops plugins) es
  obtain ⟨m, h⟩ := flush_reach (mp_steady ops w) interval percent v.ps hwf
  exact ⟨m, advance_run w v hg h⟩

/-- C23: whatever else happens, a flush that is advanced again and again ends, by exhaustion or by an exception. -/
theorem C23_terminates (ops : PluginOps PF PM) (w : World)
    (v : Server Num (List PyFloat) (List (PyFloat × Str)) PF PM) (i : Nat) (g : Gen) (hg : v.gens[i]? = some g)
    (f : ℕ → Event) (hf : ∀ n, ∃ m, n ≤ m ∧ f m = .advance i) :
    ∃ n g', (after (messageProcessor ops) w v f n).gens[i]? = some g' ∧ (g'.pc = .done ∨ ∃ e, g'.pc = .crashed e) := by
  obtain ⟨m, g', _, h1, h2⟩ := eventually_ended (messageProcessor ops) w v f i hf _ 0 g rfl hg
  exact ⟨m, g', h1, h2⟩

/-- C23: if no arrival adds a metric name, a gauge reading or a message type while the flush is running (and it is the
only flush running), it never fails with `RuntimeError` or `KeyError`, unless a plugin raises that itself. -/
theorem C23_no_abort (ops : PluginOps PF PM) (plugins : List PF) (w : World) (es : List Event) (i : Nat)
    (interval percent : ℤ) (es' : List Event) (hj : ∀ j, Event.advance j ∈ es' → j = i) :
    let v := (startUp (MPState.init ops plugins)).run (messageProcessor ops) w es
    v.gens[i]? = some ⟨interval, percent, .fresh⟩ → Settled (messageProcessor ops) w v es' →
    ∀ g e, (v.run (messageProcessor ops) w es').gens[i]? = some g → g.pc = .crashed e →
      (e ≠ .runtimeError ∧ e ≠ .keyError) ∨ PluginRaises ops w statsPrefix (Int.fdiv interval 1000) e := by
  intro v hg hst g e hge hpc
  have hwf : MPWf ops v.ps := mpwf_run ops w (mpwf_init ops plugins) es
  obtain ⟨pc', h1, h2⟩ := settled_run ops w i interval percent es' v .fresh hwf hg trivial (fun e h => by cases h) hj hst
  rw [h1] at hge
  simp only [Option.some.injEq] at hge
  subst hge
  obtain ⟨k, ts, c, s0, h4, h3⟩ := h2 e hpc
  exact visit_error ops w _ percent ts k h4 c h3

/-- C23: if a counter not known before arrives while the counter phase of a flush is running, that flush emits at most
the rest of the group it is handing out, in every continuation, and ends with `RuntimeError` as soon as it is advanced
once more: the other counters, timers, gauges, meters, plugins and the summary are not reported by it. -/
theorem C23_new_counter_aborts (ops : PluginOps PF PM) (plugins : List PF) (w : World) (es : List Event) (i : Nat)
    (interval percent ts : ℤ) (acc : List PerMetric) (start : ℚ) (size cursor events : Nat) (pend : List Datapoint)
    (m key : Str) (x r : PyFloat) (hm : Increment m key x r) (es' : List Event) :
    let v := (startUp (MPState.init ops plugins)).run (messageProcessor ops) w es
    let v' := v.step (messageProcessor ops) w (.arrive m)
    v.gens[i]? = some ⟨interval, percent, .inPhase 0 ts acc start size cursor events pend⟩ →
    key ∉ v.ps.counters.keys →
    emits (messageProcessor ops) w i v' es' <+: pend ∧
    ((es'.filter fun e => match e with | .advance j => decide (j = i) | _ => false).length > pend.length →
      emits (messageProcessor ops) w i v' es' = pend ∧
      (v'.run (messageProcessor ops) w es').gens[i]? = some ⟨interval, percent, .crashed .runtimeError⟩) := by
  intro v v' hg hk
  have hwf : MPWf ops v.ps := mpwf_run ops w (mpwf_init ops plugins) es
  have hbe : Behind ops v := behind_run ops w (mpwf_init ops plugins) (by intro g hg; simp [startUp] at hg) es
  have hle : size ≤ v.ps.counters.length := hbe _ (List.mem_of_getElem? hg) 0 ts acc start size cursor events pend rfl
  have hwf' : MPWf ops v'.ps := mpwf_step ops w hwf (.arrive m)
  refine doomed_run ops w i es' v' hwf' interval percent 0 ts acc start size cursor events pend hg ?_
  have hc : v'.ps.counters = applyCounter v.ps.counters (counterEffect m) := process_counters ops w v.ps m
  show size < v'.ps.counters.length
  have hlt : v.ps.counters.length < v'.ps.counters.length := by
    rw [hc]
    rcases applyCounter_find (d := v.ps.counters) (msg := m) (k := key) with ⟨x', r', hi, hf⟩ | ⟨hn, _⟩
    · have hsub : ∀ k ∈ key :: v.ps.counters.keys, k ∈ (applyCounter v.ps.counters (counterEffect m)).keys := by
        intro k hk'
        rcases List.mem_cons.1 hk' with rfl | hk'
        · rw [← Dict.find_isSome_iff, hf]; rfl
        · exact applyCounter_keys_mono hk'
      have hnd : (key :: v.ps.counters.keys).Nodup := List.nodup_cons.2 ⟨hk, hwf.counters⟩
      have := (hnd.subperm hsub).length_le
      simp only [Dict.keys, List.length_cons, List.length_map] at this
      omega
    · exact absurd hm (hn x r)
  omega

/-- C24, the part that holds: if nothing arrives and no other flush is advanced while one is reporting the receive
statistics, then whenever none is doing so, the reported counts of a type plus the count stored for the next flush are
the number of messages of that type handled. (Missing: the same without that restriction, which is false.) -/
theorem C24_receive_partial (ops : PluginOps PF PM) (hq : Quiet ops c!"statsd.") (plugins : List PF) (w : World)
    (es : List Event) (t : Str) :
    let v := (startUp (MPState.init ops plugins)).run (messageProcessor ops) w es
    Calm (messageProcessor ops) w (startUp (MPState.init ops plugins)) es → (∀ g ∈ v.gens, ¬ Receiving g.pc) →
    ((named (c!"statsd.receive." ++ t ++ c!".count") v.out).map fun d => d.value.rat).sum +
      ((v.ps.byType.find t).getD 0 : Nat) =
      handledIn (messageProcessor ops) w t (startUp (MPState.init ops plugins)) es := by
  intro v hc hr
  have h0 : Balanced t (startUp (MPState.init ops plugins)) 0 := by
    refine ⟨by intro g hg; simp [startUp] at hg, Or.inl ⟨by intro g hg; simp [startUp] at hg, ?_⟩⟩
    simp [startUp, recvSum, named, MPState.init]
  obtain ⟨_, h⟩ := balanced_run ops hq w t es (startUp (MPState.init ops plugins)) 0 (mpwf_init ops plugins) h0 hc
  rw [Nat.zero_add] at h
  rcases h with ⟨_, h⟩ | ⟨i, _, _, _, _, _, _, hg, _⟩
  · exact h
  · exact absurd trivial (hr _ (List.mem_of_getElem? hg))

end

section
attribute [local instance] ratRounding

/-- One message arrives; a flush is started and advanced up to the first datapoint of its receive report; another message
of the same type arrives; the flush is completed. -/
def lostSchedule : List Event :=
  [.arrive c!"a:1|c", .spawn 1000 90] ++ List.replicate 39 (.advance 0) ++ [.arrive c!"a:1|c"] ++
    List.replicate 3 (.advance 0)

/-- C24 is false of the code: a message handled while the receive statistics are being emitted is in no report, and it
is not stored for the next flush either. -/
theorem C24_refuted : ¬ ∀ (es : List Event) (t : Str),
    let v := (startUp (MPState.init noPlugins [])).run (messageProcessor noPlugins) exWorld es
    (∀ g ∈ v.gens, ¬ Receiving g.pc) →
    ((named (c!"statsd.receive." ++ t ++ c!".count") v.out).map fun d => d.value.rat).sum +
      ((v.ps.byType.find t).getD 0 : Nat) =
      handledIn (messageProcessor noPlugins) exWorld t (startUp (MPState.init noPlugins [])) es := by
  intro h
  have h1 := h lostSchedule c!"c"
  rw [handledIn_eq] at h1
  have hd : ∀ g ∈ ((startUp (MPState.init noPlugins [])).run (messageProcessor noPlugins) exWorld lostSchedule).gens,
      ended g.pc = true := by decide +kernel
  have h2 := h1 (fun g hg hr => by
    have := hd g hg
    cases hpc : g.pc <;> rw [hpc] at this hr <;> first | exact hr | simp [ended] at this)
  revert h2
  decide +kernel

/-! ## The hypotheses can be met -/

/-- Two overlapping flushes, interleaved with arrivals. -/
def exSchedule : List Event :=
  [.arrive c!"a:1|c", .spawn 1000 90, .advance 0, .advance 0, .arrive c!"a:2|c", .spawn 2000 90, .advance 1, .advance 1,
   .advance 1, .advance 0, .advance 0, .arrive c!"a:4|c|@0.5"]

example : WholeSecondSpawns exSchedule := by
  intro i p h; simp [exSchedule] at h; rcases h with ⟨rfl, _⟩ | ⟨rfl, _⟩ <;> norm_num
example : Increments c!"a" (arrivals exSchedule)
    ([(1, 1), (2, 1), (4, 1/2)].map fun p : ℚ × ℚ => (.fin p.1, .fin p.2)) :=
  .hit (increment_of (by decide +kernel)) (.hit (increment_of (by decide +kernel)) (.hit (increment_of (by decide +kernel))
    .nil))
/-- The second flush carries the 3 counted so far, the first then reports 0, and 8 are stored. -/
example :
    let v := (startUp (MPState.init noPlugins [])).run (messageProcessor noPlugins) exWorld exSchedule
    (named c!"stats_counts.a" (v.out ++ underWay v.gens)).map (fun d => d.value.rat) = [0, 3] ∧
    ((v.ps.counters.find c!"a").getD (.int 0)).rat = 8 := by decide +kernel

/-- A schedule that completes a flush while messages with known names arrive. -/
def exSettled : List Event :=
  [.advance 0, .arrive c!"a:2|c", .advance 0, .advance 0, .arrive c!"a:1|c", .advance 0] ++
    List.replicate 60 (.advance 0)

example : ((startUp (MPState.init noPlugins [])).run (messageProcessor noPlugins) exWorld
    [.arrive c!"a:1|c", .spawn 1000 90]).gens[0]? = some ⟨1000, 90, .fresh⟩ := rfl
example : Settled (messageProcessor noPlugins) exWorld ((startUp (MPState.init noPlugins [])).run
    (messageProcessor noPlugins) exWorld [.arrive c!"a:1|c", .spawn 1000 90]) exSettled := by
  simp only [exSettled, List.cons_append, List.nil_append, Settled, true_and]
  refine ⟨?_, ?_, ?_⟩
  · unfold SameNames; decide +kernel
  · unfold SameNames; decide +kernel
  · generalize Server.step _ _ _ _ = v
    induction 60 generalizing v with
    | zero => trivial
    | succ n ih => exact ⟨trivial, ih _⟩

/-- A flush suspended in its counter phase, and an unknown counter. -/
example :
    let v := (startUp (MPState.init noPlugins [])).run (messageProcessor noPlugins) exWorld [.arrive c!"a:1|c",
      .arrive c!"b:1|c", .spawn 1000 90, .advance 0, .advance 0, .advance 0, .advance 0]
    (v.gens.map fun g => (g.interval, g.percent, match g.pc with
      | .inPhase k _ _ _ _ _ _ _ => some k
      | _ => none)) = [(1000, 90, some 0)] ∧ c!"z" ∉ v.ps.counters.keys := by decide +kernel
example : Increment c!"z:1|c" c!"z" (.fin 1) (.fin 1) := increment_of (by decide +kernel)

/-- An infinite schedule in which a flush is advanced again and again between arrivals. -/
example : ∀ n, ∃ m, n ≤ m ∧ (fun n => if n % 2 = 0 then Event.arrive c!"a:1|c" else Event.advance 0) m = .advance 0 :=
  fun n => ⟨2 * n + 1, by omega, by simp [Nat.add_mod]⟩

/-- A calm schedule with a completed flush. -/
example : Calm (messageProcessor noPlugins) exWorld (startUp (MPState.init noPlugins []))
    [.arrive c!"a:1|c", .spawn 1000 90, .advance 0, .advance 0, .arrive c!"a:1|c", .advance 0] := by
  refine ⟨?_, trivial, ?_, ?_, ?_, ?_, trivial⟩
  · intro g hg; simp [startUp] at hg
  · intro j g hj hg
    simp [startUp, Server.step] at hg
    obtain ⟨h1, _⟩ := List.getElem?_eq_some_iff.1 hg; simp at h1; omega
  · intro j g hj hg
    obtain ⟨h1, _⟩ := List.getElem?_eq_some_iff.1 hg
    have : j < 1 := h1
    omega
  · intro g hg
    have hg : g ∈ [_] := hg
    rw [List.mem_singleton] at hg; subst hg; exact fun h => h
  · intro j g hj hg
    obtain ⟨h1, _⟩ := List.getElem?_eq_some_iff.1 hg
    have : j < 1 := h1
    omega

end
end Txstatsd
