import Verif.Lemmas.WatchTimer
import Verif.Lemmas.Gauge
import Verif.Lemmas.App
import Verif.Lemmas.SelfReport

set_option linter.unusedSectionVars false
set_option linter.unusedSimpArgs false
set_option linter.unusedVariables false

/-!
# Messages in another order
-/

namespace Txstatsd
open Spec

/-! ## Sorting forgets the order -/

/-- The order of floats, with nan below everything. -/
def leN (a b : PyFloat) : Bool := decide (a = .nan) || (decide (b ≠ .nan) && !(b.lt a))

theorem leN_trans (a b c : PyFloat) (h1 : leN a b = true) (h2 : leN b c = true) : leN a c = true := by
  rcases a with _ | s | a <;> rcases b with _ | t | b <;> rcases c with _ | u | c <;>
    simp_all [leN, PyFloat.lt] <;> try linarith
  all_goals (cases s <;> cases t <;> cases u <;> simp_all)

theorem leN_total (a b : PyFloat) : (leN a b || leN b a) = true := by
  rcases a with _ | s | a <;> rcases b with _ | t | b <;> simp [leN, PyFloat.lt]
  · cases s <;> cases t <;> simp
  · exact le_total a b

theorem leN_antisymm (a b : PyFloat) (h1 : leN a b = true) (h2 : leN b a = true) : a = b := by
  rcases a with _ | s | a <;> rcases b with _ | t | b <;> simp_all [leN, PyFloat.lt]
  · cases s <;> cases t <;> simp_all
  · exact le_antisymm h1 h2

theorem sortFloats_leN {l : List PyFloat} (hn : .nan ∉ l) : sortFloats l = l.mergeSort leN := by
  have := List.map_mergeSort (r := fun a b : PyFloat => !(b.lt a)) (s := leN) (f := id) (l := l) (by
    intro a ha b hb
    have h1 : a ≠ .nan := fun h => hn (h ▸ ha)
    have h2 : b ≠ .nan := fun h => hn (h ▸ hb)
    simp [leN, h1, h2])
  simpa [sortFloats] using this

/-- Sorting lists of the same floats in another order gives the same list. -/
theorem sortFloats_perm {l l' : List PyFloat} (h : l.Perm l') (hn : .nan ∉ l) : sortFloats l = sortFloats l' := by
  have hn' : PyFloat.nan ∉ l' := fun hm => hn (h.mem_iff.2 hm)
  rw [sortFloats_leN hn, sortFloats_leN hn']
  refine List.Perm.eq_of_pairwise (le := fun a b => leN a b = true) ?_ (List.pairwise_mergeSort leN_trans leN_total l)
    (List.pairwise_mergeSort leN_trans leN_total l')
    ((List.mergeSort_perm _ _).trans (h.trans (List.mergeSort_perm _ _).symm))
  intro a b _ _ h1 h2
  exact leN_antisymm a b h1 h2

theorem collect_perm {α : Type} {P : Str → α → Prop} {a b : List Str} (h : a.Perm b) {x : List α} (hx : Collect P a x) :
    ∃ y, Collect P b y ∧ x.Perm y := by
  induction h generalizing x with
  | nil => exact ⟨x, hx, .refl _⟩
  | @cons m l l' _ ih =>
    cases hx with
    | hit hi hr => obtain ⟨y, hy, hp⟩ := ih hr; exact ⟨_, .hit hi hy, hp.cons _⟩
    | skip hi hr => obtain ⟨y, hy, hp⟩ := ih hr; exact ⟨_, .skip hi hy, hp⟩
  | swap m n l =>
    cases hx with
    | hit hi hr =>
      cases hr with
      | hit hj hr => exact ⟨_, .hit hj (.hit hi hr), List.Perm.swap _ _ _⟩
      | skip hj hr => exact ⟨_, .skip hj (.hit hi hr), .refl _⟩
    | skip hi hr =>
      cases hr with
      | hit hj hr => exact ⟨_, .hit hj (.skip hi hr), .refl _⟩
      | skip hj hr => exact ⟨_, .skip hj (.skip hi hr), .refl _⟩
  | trans _ _ ih1 ih2 =>
    obtain ⟨y, hy, hp⟩ := ih1 hx
    obtain ⟨z, hz, hq⟩ := ih2 hy
    exact ⟨z, hz, hp.trans hq⟩

section
variable [Rounding] {PF PM : Type}

theorem timerGroup_perm {percent ts : ℤ} {k : Str} {v v' : List PyFloat} (h : v.Perm v') (hn : .nan ∉ v) :
    timerGroup percent ts k v = timerGroup percent ts k v' := by
  unfold timerGroup
  rw [sortFloats_perm h hn, h.length_eq]

/-- Only the timestamp of a group depends on the time. -/
theorem timerGroup_ts {percent ts ts' : ℤ} {k : Str} {v : List PyFloat} :
    ((timerGroup percent ts k v).toOption.join.getD []).map (fun d => (d.name, d.value)) =
      ((timerGroup percent ts' k v).toOption.join.getD []).map (fun d => (d.name, d.value)) := by
  unfold timerGroup
  split
  · simp only
    split <;> rfl
  · rfl

/-! ## What is stored -/

theorem processAll_timers (ops : PluginOps PF PM) (w : World) {key : Str} {msgs : List Str} {vs : List PyFloat}
    (h : Collect (Reading c!"ms" key) msgs vs) (s : MPState PF PM) :
    ((processAll (messageProcessor ops) w s msgs).timers.find key).getD [] = (s.timers.find key).getD [] ++ vs := by
  induction h generalizing s with
  | nil => simp [processAll]
  | @hit msg msgs v vs hi hm ih =>
    have := ih (process (messageProcessor ops) w s msg).1
    rw [process_timers] at this
    rcases applyTimer_find (d := s.timers) (msg := msg) (k := key) with ⟨v', hi', hf⟩ | ⟨hn, _⟩
    · rw [reading_unique hi hi']
      rw [hf] at this
      simpa [processAll] using this
    · exact absurd hi (hn _)
  | @skip msg msgs vs hi hm ih =>
    have := ih (process (messageProcessor ops) w s msg).1
    rw [process_timers] at this
    rcases applyTimer_find (d := s.timers) (msg := msg) (k := key) with ⟨v', hi', hf⟩ | ⟨hn, hf⟩
    · exact absurd hi' (hi _)
    · rw [hf] at this
      simpa [processAll] using this

theorem processAll_counter_keys (ops : PluginOps PF PM) (w : World) (msgs : List Str) (s : MPState PF PM) (k : Str) :
    k ∈ (processAll (messageProcessor ops) w s msgs).counters.keys ↔
      k ∈ s.counters.keys ∨ ∃ m ∈ msgs, ∃ o, counterEffect m = some (k, o) := by
  induction msgs generalizing s with
  | nil => simp [processAll]
  | cons m ms ih =>
    have := ih (process (messageProcessor ops) w s m).1
    rw [process_counters, counters_keys] at this
    simp only [processAll, List.foldl_cons] at this ⊢
    rw [this]
    simp [or_assoc]

theorem noCounter_all (ops : PluginOps PF PM) (w : World) {pre : Str} {s : MPState PF PM} {ms : List Str}
    (h : ∀ k ∈ s.counters.keys, ¬ pre <+: k) (hm : NoCounter pre ms) :
    ∀ k ∈ (processAll (messageProcessor ops) w s ms).counters.keys, ¬ pre <+: k := by
  intro k hk
  rcases (processAll_counter_keys ops w ms s k).1 hk with hk | ⟨m, hm', o, ho⟩
  · exact h k hk
  · obtain ⟨fs, hp⟩ := counterEffect_counts ho
    exact hm m hm' k fs hp

theorem collect_mem {α : Type} {P : Str → α → Prop} {msgs : List Str} {vs : List α} (h : Collect P msgs vs) :
    ∀ v ∈ vs, ∃ m ∈ msgs, P m v := by
  induction h with
  | nil => simp
  | hit h1 _ ih =>
    intro v hv
    rcases List.mem_cons.1 hv with rfl | hv
    · exact ⟨_, by simp, h1⟩
    · obtain ⟨m, h2, h3⟩ := ih v hv; exact ⟨m, by simp [h2], h3⟩
  | skip _ _ ih =>
    intro v hv
    obtain ⟨m, h2, h3⟩ := ih v hv; exact ⟨m, by simp [h2], h3⟩

/-- The counters come from the messages. -/
theorem history_counter_keys (ops : PluginOps PF PM) (plugins : List PF) (w : World) (os : List Op) (k : Str) :
    k ∈ (runOps (messageProcessor ops) w (MPState.init ops plugins) os).1.counters.keys →
      ∃ m ∈ messages os, ∃ o, counterEffect m = some (k, o) := by
  induction os using List.reverseRecOn with
  | nil => intro hv; simp [runOps, MPState.init, Dict.keys] at hv
  | append_singleton os o ih =>
    have hwf := mpwf_runOps ops w (mpwf_init ops plugins) os
    rw [runOps_snoc]
    generalize runOps (messageProcessor ops) w (MPState.init ops plugins) os = c0 at ih hwf
    cases o with
    | msg m =>
      intro hk
      simp only [Op.apply] at hk
      rw [process_counters, counters_keys] at hk
      have hms : messages (os ++ [Op.msg m]) = messages os ++ [m] := by simp [messages]
      rw [hms]
      rcases hk with hk | ⟨o, ho⟩
      · obtain ⟨m', h1, h2⟩ := ih hk
        exact ⟨m', by simp [h1], h2⟩
      · exact ⟨m, by simp, o, ho⟩
    | flush i p =>
      intro hk
      have hms : messages (os ++ [Op.flush i p]) = messages os := by simp [messages]
      rw [hms]
      simp only [Op.apply] at hk
      rw [flush_mp ops w i p hwf] at hk
      obtain ⟨_, _, h3, _⟩ := flushForm_state (messageProcessor ops) w (Int.fdiv i 1000)
        (truncQ (w.clk c0.1.ticks))
        (runElems (fun _ _ => Num.int 0) (counterGroup (Int.fdiv i 1000) (truncQ (w.clk c0.1.ticks))) c0.1.counters)
        (runElems (fun _ _ => []) (timerGroup p (truncQ (w.clk c0.1.ticks))) c0.1.timers)
        (c0.1.gauges.map fun p => [⟨c!"stats.gauge." ++ p.2 ++ c!".value", Num.flt p.1, truncQ (w.clk c0.1.ticks)⟩])
        (meterRes (truncQ (w.clk c0.1.ticks)) c0.1.meters) c0.1 hwf.shared (runElems_keys _ _ _)
      rw [h3, runElems_keys] at hk
      exact ih hk

/-- A property of the messages that holds of every stored duration. -/
theorem stored_durations (ops : PluginOps PF PM) (plugins : List PF) (w : World) (os : List Op) (key : Str) :
    ∀ v ∈ ((runOps (messageProcessor ops) w (MPState.init ops plugins) os).1.timers.find key).getD [],
      ∃ m ∈ messages os, Reading c!"ms" key m v := by
  induction os using List.reverseRecOn with
  | nil => intro v hv; simp [runOps, MPState.init, Dict.find] at hv
  | append_singleton os o ih =>
    have hwf := mpwf_runOps ops w (mpwf_init ops plugins) os
    rw [runOps_snoc]
    generalize runOps (messageProcessor ops) w (MPState.init ops plugins) os = c0 at ih hwf
    cases o with
    | msg m =>
      intro v hv
      simp only [Op.apply] at hv
      rw [process_timers] at hv
      have hms : messages (os ++ [Op.msg m]) = messages os ++ [m] := by simp [messages]
      rw [hms]
      rcases applyTimer_find (d := c0.1.timers) (msg := m) (k := key) with ⟨v', hi', hf⟩ | ⟨hn, hf⟩
      · rw [hf] at hv
        simp only [Option.getD_some, List.mem_append, List.mem_singleton] at hv
        rcases hv with hv | rfl
        · obtain ⟨m', h1, h2⟩ := ih v hv
          exact ⟨m', by simp [h1], h2⟩
        · exact ⟨m, by simp, hi'⟩
      · rw [hf] at hv
        obtain ⟨m', h1, h2⟩ := ih v hv
        exact ⟨m', by simp [h1], h2⟩
    | flush i p =>
      intro v hv
      have hms : messages (os ++ [Op.flush i p]) = messages os := by simp [messages]
      rw [hms]
      simp only [Op.apply] at hv
      rw [flush_mp ops w i p hwf] at hv
      obtain ⟨_, _, _, h4, _⟩ := flushForm_state (messageProcessor ops) w (Int.fdiv i 1000)
        (truncQ (w.clk c0.1.ticks))
        (runElems (fun _ _ => Num.int 0) (counterGroup (Int.fdiv i 1000) (truncQ (w.clk c0.1.ticks))) c0.1.counters)
        (runElems (fun _ _ => []) (timerGroup p (truncQ (w.clk c0.1.ticks))) c0.1.timers)
        (c0.1.gauges.map fun p => [⟨c!"stats.gauge." ++ p.2 ++ c!".value", Num.flt p.1, truncQ (w.clk c0.1.ticks)⟩])
        (meterRes (truncQ (w.clk c0.1.ticks)) c0.1.meters) c0.1 hwf.shared (runElems_keys _ _ _)
      rw [h4] at hv
      split_ifs at hv with hc
      · cases hf : Dict.find (runElems (fun _ _ => []) (timerGroup p (truncQ (w.clk c0.1.ticks))) c0.1.timers).1 key with
        | none => rw [hf] at hv; simp at hv
        | some l =>
          rw [hf] at hv
          have := runElems_forall (fun _ _ => ([] : List PyFloat)) (timerGroup p (truncQ (w.clk c0.1.ticks)))
            (fun q => q.1 = key → ∀ x ∈ q.2, ∃ m ∈ messages os, Reading c!"ms" key m x) (by simp) c0.1.timers (by
              rintro ⟨k', l'⟩ hq rfl x hx
              refine ih x ?_
              rw [Dict.find_of_mem hwf.timers hq]; exact hx)
          exact this _ (Dict.mem_of_find hf) rfl v hv
      · exact ih v hv

theorem group_filter {percent ts : ℤ} {d : Dict (List PyFloat)} (hd : Dict.Wf d)
    (hok : (runElems (fun _ _ => []) (timerGroup percent ts) d).2.2 = none) (key : Str) :
    (runElems (fun _ _ => []) (timerGroup percent ts) d).2.1.flatten.filter (ofTimer key) =
      (timerGroup percent ts key ((d.find key).getD [])).toOption.join.getD [] := by
  induction d with
  | nil => simp [runElems, Dict.find, timerGroup, Except.toOption]
  | cons p rest ih =>
    obtain ⟨k, v⟩ := p
    have hd' : Dict.Wf rest := by
      unfold Dict.Wf Dict.keys at hd ⊢; simp only [List.map_cons, List.nodup_cons] at hd; exact hd.2
    have hk : k ∉ Dict.keys rest := by
      unfold Dict.Wf Dict.keys at hd; simp only [List.map_cons, List.nodup_cons] at hd; exact hd.1
    rw [runElems] at hok ⊢
    have hfind : Dict.find ((k, v) :: rest) key = if k = key then some v else Dict.find rest key := by
      by_cases h : k = key
      · subst h; simp [Dict.find]
      · rw [if_neg h]; simp [Dict.find, h]
    cases hg : timerGroup percent ts k v with
    | error e => rw [hg] at hok; simp at hok
    | ok o =>
      rw [hg] at hok
      simp only at hok ⊢
      have ih := ih hd' hok
      have hrest : k = key → (runElems (fun _ _ => []) (timerGroup percent ts) rest).2.1.flatten.filter (ofTimer key) = [] := by
        rintro rfl
        rw [ih, (Dict.find_eq_none _ _).2 hk]
        simp [timerGroup, Except.toOption]
      cases o with
      | none =>
        simp only [List.nil_append, Option.toList_none]
        by_cases h : k = key
        · rw [hfind, if_pos h]
          have := hrest h
          subst h
          rw [Option.getD_some, hg]
          simpa [Except.toOption] using this
        · rw [hfind, if_neg h, ← ih]
      | some gr =>
        have hof := timerGroup_of hg key
        simp only [Option.toList_some, List.singleton_append, List.flatten_cons, List.filter_append]
        by_cases h : k = key
        · rw [hfind, if_pos h, hrest h]
          subst h
          rw [Option.getD_some, hg, List.append_nil, List.filter_eq_self.2]
          · rfl
          · intro d hd; rw [hof d hd]; simp
        · rw [hfind, if_neg h, ih, List.filter_eq_nil_iff.2, List.nil_append]
          intro d hd; rw [hof d hd]; simp [h]

/-- What a completed flush says about a timer. -/
theorem flush_ofTimer (ops : PluginOps PF PM) (hq : Quiet ops c!"stats.timers.") (w : World) (interval percent : ℤ)
    {s : MPState PF PM} (hs : MPWf ops s) (hc : ∀ x ∈ s.counters.keys, ¬ c!"timers." <+: x) (key : Str)
    (hok : (flush (messageProcessor ops) w interval percent s).2.2 = none) :
    (flush (messageProcessor ops) w interval percent s).2.1.filter (ofTimer key) =
      (timerGroup percent (truncQ (w.clk s.ticks)) key ((s.timers.find key).getD [])).toOption.join.getD [] := by
  obtain ⟨h1, h2, h3, gs, acc, h4, h5, h6, h7⟩ := flush_complete ops w interval percent hs hok
  rw [h7]
  have hpre : ∀ d : Datapoint, ofTimer key d = true → c!"stats.timers." <+: d.name := by
    intro d hd
    obtain ⟨y, _, hn⟩ := ofTimer_iff.1 hd
    rw [hn, List.append_assoc]; exact List.prefix_append _ _
  have e1 : ((runElems (fun _ _ => Num.int 0) (counterGroup (Int.fdiv interval 1000) (truncQ (w.clk s.ticks))) s.counters).2.1.flatten).filter
      (ofTimer key) = [] := by
    rw [List.filter_eq_nil_iff]
    intro d hd ho
    obtain ⟨gr, hgr, hd⟩ := List.mem_flatten.1 hd
    obtain ⟨⟨k, v⟩, hp, hgr⟩ := runElems_groups _ _ _ gr hgr
    simp only [counterGroup] at hgr
    have hp' := hpre d ho
    cases hdiv : v.divInt (Int.fdiv interval 1000) with
    | error e => simp [hdiv] at hgr
    | ok q =>
      simp only [hdiv, Except.ok.injEq, Option.some.injEq] at hgr
      subst hgr
      simp only [List.mem_cons, List.not_mem_nil, or_false] at hd
      rcases hd with rfl | rfl
      · apply hc k (Dict.mem_keys_of_mem hp)
        have : c!"stats." ++ c!"timers." <+: c!"stats." ++ k := hp'
        exact (List.prefix_append_right_inj _).1 this
      · obtain ⟨t, ht⟩ := hp'
        have := congrArg (List.take 7) ht
        simp at this
  have e2 : (s.gauges.map fun p => (⟨c!"stats.gauge." ++ p.2 ++ c!".value", Num.flt p.1, truncQ (w.clk s.ticks)⟩ : Datapoint)).filter
      (ofTimer key) = [] := by
    rw [List.filter_eq_nil_iff]
    intro d hd ho
    obtain ⟨p, _, rfl⟩ := List.mem_map.1 hd
    obtain ⟨t, ht⟩ := hpre _ ho
    have := congrArg (List.take 8) ht
    simp at this
  have e3 : (meterRes (truncQ (w.clk s.ticks)) s.meters).2.1.flatten.filter (ofTimer key) = [] := by
    rw [List.filter_eq_nil_iff]
    intro d hd ho
    obtain ⟨gr, hgr, hd⟩ := List.mem_flatten.1 hd
    obtain ⟨⟨k, m⟩, hp, hgr⟩ := runElems_groups _ _ _ gr hgr
    simp only at hgr
    cases hr : (m.report (truncQ (w.clk s.ticks))).2 with
    | error e => simp [hr, Except.map] at hgr
    | ok l =>
      simp only [hr, Except.map, Except.ok.injEq, Option.some.injEq] at hgr
      subst hgr
      obtain ⟨t, ht⟩ := hpre _ ho
      have hmp := hs.meterPre _ hp
      simp only at hmp
      rcases (meter_report_points hr d hd).2 with e | e <;>
      · rw [e, hmp.1] at ht
        have := congrArg (List.take 8) ht
        simp at this
  have e4 : gs.flatten.filter (ofTimer key) = [] := by
    rw [List.filter_eq_nil_iff]
    intro d hd ho
    obtain ⟨gr, hgr, hd⟩ := List.mem_flatten.1 hd
    obtain ⟨t, k, m, l, h0, h1, h2⟩ := h5 gr hgr d hd
    exact hq _ _ h0 _ _ _ _ _ h1 d h2 (hpre d ho)
  have e5 : ∀ l : List Datapoint, (∀ d ∈ l, c!"statsd." <+: d.name) → l.filter (ofTimer key) = [] := by
    intro l hl
    rw [List.filter_eq_nil_iff]
    intro d hd ho
    obtain ⟨t, ht⟩ := hpre d ho
    obtain ⟨t', ht'⟩ := hl d hd
    rw [← ht'] at ht
    have := congrArg (List.take 6) ht
    simp at this
  simp only [List.filter_append, e1, e2, e3, e4, List.nil_append, List.append_nil]
  rw [group_filter hs.timers h2 key, e5, List.append_nil]
  intro d hd
  simp only [List.mem_cons, List.mem_append, List.mem_flatMap] at hd
  rcases hd with rfl | ⟨p, _, hd⟩ | ⟨p, _, hd⟩
  · simp [numStatsPoint, messageProcessor]
  · simp only [perMetricPoints, List.mem_cons, List.not_mem_nil, or_false] at hd
    rcases hd with rfl | rfl <;> simp [List.append_assoc, messageProcessor]
  · simp only [receivePoints, List.mem_cons, List.not_mem_nil, or_false] at hd
    rcases hd with rfl | rfl <;> simp [List.append_assoc, messageProcessor]

/-! ## Sums -/

theorem add_right_comm_exact [Exact] (a b c : PyFloat) : (a.add b).add c = (a.add c).add b := by
  rcases a with _ | s | a <;> rcases b with _ | t | b <;> rcases c with _ | u | c <;>
    simp only [PyFloat.add, Exact.rnd_eq]
  all_goals first
    | rfl
    | (cases s <;> cases t <;> cases u <;> rfl)
    | (cases s <;> cases t <;> rfl)
    | (cases s <;> cases u <;> rfl)
    | (cases t <;> cases u <;> rfl)
    | (congr 1; ring)

theorem addTo_perm [Exact] {a b : List (PyFloat × PyFloat)} (h : a.Perm b) (x : Num) : addTo x a = addTo x b := by
  unfold addTo
  refine h.foldl_eq' ?_ x
  intro p _ q _ z
  cases z with
  | int n => simp only [Num.add, Num.toFloat]; rw [add_right_comm_exact]
  | flt f => simp only [Num.add, Num.toFloat]; rw [add_right_comm_exact]

end
end Txstatsd
