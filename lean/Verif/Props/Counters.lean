import Verif.Lemmas.CounterFlush

/-!
# C07, C08, C19: counters of the MessageProcessor
-/

namespace Txstatsd
open Spec

section
variable [Rounding] {PF PM : Type}

/-- C07: after any message history, a flush with an interval of at least one second starts with exactly
one pair `stats.<k>`, `stats_counts.<k>` for each known counter `k`; the second value is the running total
of the accepted increments of `k`, the first that total divided by the whole seconds of the interval.
Every incremented counter is known, and only counters mentioned by a counter message are. -/
theorem C07_counter_section (ops : PluginOps PF PM) (plugins : List PF) (w : World) (msgs : List Str)
    (interval percent : ℤ) (hi : 1000 ≤ interval) (incs : Str → List (PyFloat × PyFloat))
    (hincs : ∀ k, Increments k msgs (incs k)) :
    let s := processAll (messageProcessor ops) w (MPState.init ops plugins) msgs
    let ts := truncQ (w.clk s.ticks)
    ∃ (ks : List Str) (rate : Str → Num) (rest : List Datapoint),
      (flush (messageProcessor ops) w interval percent s).2.1 =
        (ks.flatMap fun k => [⟨c!"stats." ++ k, rate k, ts⟩, ⟨c!"stats_counts." ++ k, total (incs k), ts⟩]) ++ rest ∧
      ks.Nodup ∧ (∀ k, incs k ≠ [] → k ∈ ks) ∧
      (∀ k ∈ ks, ∃ msg ∈ msgs, ∃ fields, Parsed msg c!"c" k fields) ∧
      (∀ k ∈ ks, (total (incs k)).divInt (interval / 1000) = .ok (rate k)) := by
  intro s ts
  have hwf : MPWf ops s := mpwf_processAll ops w msgs (mpwf_init ops plugins)
  have hsecs := fdiv_pos hi
  have hfe : Int.fdiv interval 1000 = interval / 1000 := Int.fdiv_eq_ediv_of_nonneg _ (by norm_num)
  obtain ⟨cc, tt, gg, mm, pp, su, he, hcc, _⟩ := flush_sections ops w interval percent hwf
  rw [counter_elems hsecs] at hcc
  have hval : ∀ k, (s.counters.find k).getD (.int 0) = total (incs k) := fun k => by
    have : (s.counters.find k).getD (.int 0) = addTo (.int 0) (incs k) :=
      (processAll_find ops w (hincs k) (MPState.init ops plugins)).1
    rw [addTo_total] at this; exact this
  refine ⟨s.counters.keys, fun k => quot (total (incs k)) (Int.fdiv interval 1000), tt ++ gg ++ mm ++ pp ++ su,
    ?_, hwf.counters, ?_, ?_, ?_⟩
  · rw [he, hcc]
    simp only [List.append_assoc]
    congr 1
    rw [Dict.keys, List.flatMap_map]
    simp only [List.flatMap]
    congr 1
    apply List.map_congr_left
    rintro ⟨k, v⟩ hp
    have hf := Dict.find_of_mem hwf.counters hp
    have hv := hval k
    rw [hf] at hv
    simp only [Option.getD_some] at hv
    simp only [← hv]
    rfl
  · intro k hk
    exact (processAll_find ops w (hincs k) (MPState.init ops plugins)).2 (Or.inl hk)
  · intro k hk
    exact known_counter ops w plugins msgs k hk
  · intro k hk
    rw [← hfe]; exact divInt_quot hsecs _

/-- C07: no other part of the flush interferes: exactly one `stats_counts.<key>` datapoint is emitted for an
incremented counter and it carries the running total (plugins are assumed not to use that namespace). -/
theorem C07_count_unique (ops : PluginOps PF PM) (hq : Quiet ops c!"stats_counts.") (plugins : List PF)
    (w : World) (msgs : List Str) (interval percent : ℤ) (hi : 1000 ≤ interval) (key : Str)
    (incs : List (PyFloat × PyFloat)) (hincs : Increments key msgs incs) (hne : incs ≠ []) :
    let s := processAll (messageProcessor ops) w (MPState.init ops plugins) msgs
    named (c!"stats_counts." ++ key) (flush (messageProcessor ops) w interval percent s).2.1 =
      [⟨c!"stats_counts." ++ key, total incs, truncQ (w.clk s.ticks)⟩] := by
  intro s
  have hwf : MPWf ops s := mpwf_processAll ops w msgs (mpwf_init ops plugins)
  rw [flush_named_counts ops hq w hi percent hwf]
  have h1 := (processAll_find ops w hincs (MPState.init ops plugins)).1
  have h2 := (processAll_find ops w hincs (MPState.init ops plugins)).2 (Or.inl hne)
  cases hf : s.counters.find key with
  | none => exact absurd h2 ((Dict.find_eq_none _ _).1 hf)
  | some v =>
    have h1' : v = total incs := by
      have : (s.counters.find key).getD (.int 0) = total incs := h1
      rw [hf] at this; simpa using this
    simp [h1']

/-- C07: with exact arithmetic the running total is the sum of value/rate. -/
theorem C07_exact_sum [Exact] (qs : List (ℚ × ℚ)) (h0 : ∀ p ∈ qs, p.2 ≠ 0) (hne : qs ≠ []) :
    total (qs.map fun p => (.fin p.1, .fin p.2)) = .flt (.fin (qs.map fun p => p.1 / p.2).sum) :=
  total_exact_ne qs h0 hne

/-- C07: with any float arithmetic that is exact on integers up to 2^53 (as IEEE doubles are), the total of
unsampled integer increments is their exact sum, as long as all partial sums stay in that range. -/
theorem C07_integer_sum [IntExact] (zs : List ℤ) (hne : zs ≠ []) (hz : ∀ z ∈ zs, |z| ≤ 2 ^ 53)
    (hb : ∀ l, l <+: zs → |l.sum| ≤ 2 ^ 53) :
    total (zs.map fun z : ℤ => (.fin z, rnd 1)) = .flt (.fin (zs.sum : ℤ)) := by
  have h1 : rnd (1 : ℚ) = .fin 1 := by
    have := IntExact.rnd_int 1 (by norm_num); simpa using this
  rw [h1]
  cases zs with
  | nil => exact absurd rfl hne
  | cons z zs =>
    have hz1 : rnd (z : ℚ) = .fin z := IntExact.rnd_int z (hz z (by simp))
    have h0 : rnd (0 : ℚ) = .fin 0 := by
      have := IntExact.rnd_int 0 (by norm_num); simpa using this
    have := total_int zs z (fun l hl => by
      have := hb (z :: l) (by obtain ⟨t, rfl⟩ := hl; exact ⟨t, rfl⟩)
      simpa using this) (fun y hy => hz y (by simp [hy]))
    rw [← addTo_total]
    simp only [addTo, List.map_cons, List.foldl_cons, List.sum_cons] at this ⊢
    have e : Num.add (.int 0) (.flt (PyFloat.mul (.fin z) (inverse (.fin 1)))) = .flt (.fin z) := by
      simp [inverse, PyFloat.div, h1, PyFloat.mul, Num.add, Num.toFloat, PyFloat.add, hz1, h0]
    rw [e, this]

/-- C08: for every sequence of messages and flushes (with intervals of at least one second) from start-up, the
accepted increments of a key can be cut into consecutive blocks such that the emitted `stats_counts.<key>`
values are the totals of the blocks, one each, and the value held for the next flush is the total of the
rest: nothing is lost, repeated or reordered. -/
theorem C08_conservation (ops : PluginOps PF PM) (hq : Quiet ops c!"stats_counts.") (plugins : List PF) (w : World)
    (os : List Op) (hw : WholeSeconds os) (key : Str) :
    let c := runOps (messageProcessor ops) w (MPState.init ops plugins) os
    ∃ (blocks : List (List (PyFloat × PyFloat))) (last : List (PyFloat × PyFloat)),
      Increments key (messages os) (blocks.flatten ++ last) ∧
      (named (c!"stats_counts." ++ key) c.2).map Datapoint.value = blocks.map total ∧
      (c.1.counters.find key).getD (.int 0) = total last := by
  obtain ⟨b, l, h1, h2, h3, _⟩ := conservation ops hq plugins w os hw key
  exact ⟨b, l, h1, h2, h3⟩

/-- C08: with exact arithmetic, the emitted values plus the held value add up to the sum of value/rate over
all accepted increments. -/
theorem C08_exact_balance [Exact] (ops : PluginOps PF PM) (hq : Quiet ops c!"stats_counts.") (plugins : List PF)
    (w : World) (os : List Op) (hw : WholeSeconds os) (key : Str) (qs : List (ℚ × ℚ))
    (hinc : Increments key (messages os) (qs.map fun p => (.fin p.1, .fin p.2))) :
    let c := runOps (messageProcessor ops) w (MPState.init ops plugins) os
    ((named (c!"stats_counts." ++ key) c.2).map fun d => d.value.rat).sum
      + ((c.1.counters.find key).getD (.int 0)).rat = (qs.map fun p => p.1 / p.2).sum := by
  intro c
  obtain ⟨blocks, last, h1, h2, h3, _⟩ := conservation ops hq plugins w os hw key
  have e1 : ((named (c!"stats_counts." ++ key) c.2).map fun d => d.value.rat) = blocks.map fun b => (total b).rat := by
    have := congrArg (List.map Num.rat) h2
    simpa [List.map_map, Function.comp_def] using this
  rw [e1, h3]
  exact balance_of_blocks h1 qs hinc

/-- C08: a counter that was flushed and not incremented since is reported by the next flush again, as the
integer 0. -/
theorem C08_idle_zero (ops : PluginOps PF PM) (hq : Quiet ops c!"stats_counts.") (plugins : List PF) (w : World)
    (os : List Op) (i p : ℤ) (msgs : List Str) (i' p' : ℤ) (hi : 1000 ≤ i) (hi' : 1000 ≤ i') (key : Str) :
    let s0 := (runOps (messageProcessor ops) w (MPState.init ops plugins) os).1
    let s := processAll (messageProcessor ops) w (flush (messageProcessor ops) w i p s0).1 msgs
    key ∈ s0.counters.keys → Increments key msgs [] →
    named (c!"stats_counts." ++ key) (flush (messageProcessor ops) w i' p' s).2.1 =
      [⟨c!"stats_counts." ++ key, .int 0, truncQ (w.clk s.ticks)⟩] := by
  intro s0 s hk hn
  have h0 : MPWf ops s0 := mpwf_runOps ops w (mpwf_init ops plugins) os
  have h1 := mpwf_flush ops w i p h0
  have h2 : MPWf ops s := mpwf_processAll ops w msgs h1
  rw [flush_named_counts ops hq w hi' p' h2]
  have e1 := flush_counters ops w hi p h0
  have hf : (flush (messageProcessor ops) w i p s0).1.counters.find key = some (.int 0) := by
    rw [e1]
    have := Dict.find_map s0.counters (fun _ _ => Num.int 0) key
    rw [this]
    have : (s0.counters.find key).isSome := by rw [Dict.find_isSome_iff]; exact hk
    obtain ⟨v, hv⟩ := Option.isSome_iff_exists.1 this
    rw [hv]; rfl
  obtain ⟨e2, e3⟩ := processAll_find ops w hn (flush (messageProcessor ops) w i p s0).1
  have hkey : key ∈ s.counters.keys := e3 (Or.inr (by rw [← Dict.find_isSome_iff, hf]; rfl))
  rw [hf] at e2
  cases hs : s.counters.find key with
  | none => exact absurd hkey ((Dict.find_eq_none _ _).1 hs)
  | some v =>
    have : (s.counters.find key).getD (.int 0) = .int 0 := by simpa [addTo] using e2
    rw [hs] at this
    simp at this
    simp [this]

/-- C19: with a flush interval below one second and a counter known, flush raises `ZeroDivisionError` before
emitting anything, and the value of the first counter in iteration order is gone; all other state is kept
(but for the clock readings). -/
theorem C19_subsecond (ops : PluginOps PF PM) (plugins : List PF) (w : World) (os : List Op)
    (interval percent : ℤ) (h0 : 0 ≤ interval) (h1 : interval < 1000) (k : Str) (v : Num) (rest : Dict Num) :
    let s := (runOps (messageProcessor ops) w (MPState.init ops plugins) os).1
    s.counters = (k, v) :: rest →
    flush (messageProcessor ops) w interval percent s =
      ({ s with ticks := s.ticks + 2, counters := (k, .int 0) :: rest }, [], some .zeroDivisionError) := by
  intro s hs
  have hwf : MPWf ops s := mpwf_runOps ops w (mpwf_init ops plugins) os
  rw [flush_mp ops w interval percent hwf]
  have hz : Int.fdiv interval 1000 = 0 := by
    rw [Int.fdiv_eq_ediv_of_nonneg _ (by norm_num)]; omega
  have : runElems (fun _ _ => Num.int 0) (counterGroup (Int.fdiv interval 1000) (truncQ (w.clk s.ticks))) s.counters =
      ((k, Num.int 0) :: rest, [], some .zeroDivisionError) := by
    rw [hs, hz]; simp [runElems, counterGroup, Num.divInt]
  unfold flushForm
  simp only [this, List.flatten_nil]

/-- C19: with an interval of at least one second the counter phase never raises, whatever the counters hold. -/
theorem C19_whole_second (ops : PluginOps PF PM) (interval ts : ℤ) (hi : 1000 ≤ interval) (s : MPState PF PM)
    (i : Nat) : ∃ g, (counterVisit (Int.fdiv interval 1000) ts s i).2 = .ok g := by
  unfold counterVisit
  split
  · exact ⟨_, rfl⟩
  · obtain ⟨y, hy⟩ := divInt_ok (fdiv_pos hi) (by assumption)
    simp [hy]

end

/-! ## The hypotheses can be met -/

section
attribute [local instance] ratRounding

example : Increments c!"a" [c!"a:3|c", c!"b:1|c", c!"a:x|c", c!"a:1|c|@0.5"]
    [(.fin 3, .fin 1), (.fin 1, .fin (1/2))] := by
  refine .hit (increment_of (by decide +kernel)) (.skip (not_increment_of (by decide +kernel)) (.skip
    (not_increment_of (by decide +kernel)) (.hit (increment_of (by decide +kernel)) .nil)))

example : Exact := ⟨fun _ => rfl⟩
example : IntExact := ⟨fun _ _ => rfl⟩

example : WholeSeconds [.msg c!"a:3|c", .flush 10000 90, .msg c!"a:1|c", .flush 1000 90] := by
  intro i p h; simp at h; rcases h with ⟨rfl, _⟩ | ⟨rfl, _⟩ <;> norm_num

/-- A trivial plugin set, for examples. -/
def noPlugins : PluginOps Unit Unit where
  mtype := fun _ => []
  name := fun _ => []
  build := fun _ _ _ _ _ => ()
  process := fun _ _ m _ => (m, 0, none)
  flush := fun _ _ m _ _ => (m, 0, .ok [])

example : Quiet noPlugins c!"stats_counts." := by
  intro key m _ w t i ts l h d hd; simp [noPlugins] at h; subst h; simp at hd

/-- A world for examples: the clock advances by one second per reading. -/
def exWorld : World := ⟨fun n => n, fun _ => 0, fun _ _ _ => 0⟩

example : ∃ k v rest, (runOps (messageProcessor noPlugins) exWorld (MPState.init noPlugins [])
    [.msg c!"a:3|c", .msg c!"b:1|c|@0.1"]).1.counters = (k, v) :: rest :=
  ⟨c!"a", .flt (.fin 3), [(c!"b", .flt (.fin 10))], by decide +kernel⟩

end
end Txstatsd
