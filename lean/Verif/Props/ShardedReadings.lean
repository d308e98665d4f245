import Verif.Props.Sharded
import Verif.Props.Reorder

set_option linter.unusedSectionVars false

/-!
# C149, for timers and gauges
-/

namespace Txstatsd
open Spec
section
variable [Rounding] {PF PM : Type} {N : Type} [LinearOrder N]

/-- The readings that reach the owner of the name are all there are. -/
theorem collect_owner {α : Type} {P : Str → α → Prop} (owner : Str → N) (name : Str) (l : List Str)
    (hname : ∀ d ∈ l, ∀ v, P d v → metricName d = some name) {vs : List α} (h : Collect P l vs) :
    Collect P (toServer (l.map fun d => (owner ((metricName d).getD []), d)) (owner name)) vs := by
  induction l generalizing vs with
  | nil => cases h; exact .nil
  | cons d l ih =>
    have e : toServer ((d :: l).map fun d => (owner ((metricName d).getD []), d)) (owner name) =
        (if owner ((metricName d).getD []) = owner name then [d] else []) ++
          toServer (l.map fun d => (owner ((metricName d).getD []), d)) (owner name) := by
      unfold toServer
      rw [List.map_cons, List.filter_cons]
      by_cases hd : owner ((metricName d).getD []) = owner name <;> simp [hd]
    have hl : ∀ d ∈ l, ∀ v, P d v → metricName d = some name := fun d hd => hname d (by simp [hd])
    rw [e]
    cases h with
    | hit hi hr =>
      rw [if_pos (by rw [hname d (by simp) _ hi]; rfl)]
      exact .hit hi (ih hl hr)
    | skip hi hr =>
      split_ifs
      · exact .skip hi (ih hl hr)
      · exact ih hl hr

/-- No reading reaches another server. -/
theorem collect_other {α : Type} {P : Str → α → Prop} (owner : Str → N) (name : Str) (l : List Str)
    (hname : ∀ d ∈ l, ∀ v, P d v → metricName d = some name) {m : N} (hm : m ≠ owner name) {vs : List α}
    (h : Collect P (toServer (l.map fun d => (owner ((metricName d).getD []), d)) m) vs) : vs = [] := by
  cases vs with
  | nil => rfl
  | cons v vs =>
    obtain ⟨d, hd, hv⟩ := collect_mem h v (by simp)
    simp only [toServer, List.mem_map, List.mem_filter, decide_eq_true_eq, Prod.exists] at hd
    obtain ⟨n', d', ⟨⟨d'', hd'', heq⟩, hn'⟩, rfl⟩ := hd
    simp only [Prod.mk.injEq] at heq
    obtain ⟨e1, rfl⟩ := heq
    rw [hname d'' hd'' v hv, Option.getD_some] at e1
    exact absurd (by rw [← hn', e1]) hm

theorem toServer_mem {owner : Str → N} {l : List Str} {n : N} {d : Str}
    (h : d ∈ toServer (l.map fun d => (owner ((metricName d).getD []), d)) n) : d ∈ l := by
  simp only [toServer, List.mem_map, List.mem_filter, decide_eq_true_eq, Prod.exists] at h
  obtain ⟨n', d', ⟨⟨d'', hd'', heq⟩, _⟩, rfl⟩ := h
  simp only [Prod.mk.injEq] at heq
  rw [← heq.2]; exact hd''

/-- The timer statistics of a server that received `ms` in any order. -/
theorem timer_said (ops : PluginOps PF PM) (hq : Quiet ops c!"stats.timers.") (plugins : List PF) (w : World) (ms ms' : List Str)
    (hp : ms.Perm ms') (key : Str) (hc : NoCounter c!"timers." ms) (vs : List PyFloat) (hv : Collect (Reading c!"ms" key) ms vs)
    (hn : PyFloat.nan ∉ vs) (interval percent : ℤ)
    (hok : (flush (messageProcessor ops) w interval percent
      (processAll (messageProcessor ops) w (MPState.init ops plugins) ms')).2.2 = none) :
    said ((flush (messageProcessor ops) w interval percent
      (processAll (messageProcessor ops) w (MPState.init ops plugins) ms')).2.1.filter (ofTimer key)) =
      ((timerGroup percent 0 key vs).toOption.join.getD []).map fun d => (d.name, d.value) := by
  have hwf : MPWf ops (MPState.init ops plugins) := mpwf_init ops plugins
  obtain ⟨vs', hv', hvp⟩ := collect_perm hp hv
  have hc' : NoCounter c!"timers." ms' := fun m hm => hc m (hp.mem_iff.2 hm)
  have hk0 : ∀ k ∈ (MPState.init ops plugins).counters.keys, ¬ c!"timers." <+: k := by
    intro k hk; simp [MPState.init] at hk
  rw [flush_ofTimer ops hq w interval percent (mpwf_processAll ops w ms' hwf) (noCounter_all ops w hk0 hc') key hok,
    processAll_timers ops w hv']
  have e0 : ((MPState.init ops plugins).timers.find key).getD [] = [] := rfl
  rw [e0, List.nil_append]
  unfold said
  rw [timerGroup_perm hvp hn, timerGroup_ts]

/-- C149: if the durations of a timer are written under one name, one server reports of it what a single server would report that got
everything, and the other servers report nothing of it; the texts may arrive in any order. -/
theorem C149_timers (H : Hashing N) (clients : List N) (hne : clients ≠ []) (datas : List Str)
    (ops : PluginOps PF PM) (hq : Quiet ops c!"stats.timers.") (plugins : List PF) (w : World) (wn : N → World)
    (single : List Str) (hsingle : single.Perm (sendable datas)) (ms : N → List Str)
    (hms : ∀ n ∈ clients, (ms n).Perm (toServer ((ShardedClient.init H clients).writes H datas).sent n))
    (key name : Str) (hname : ∀ d ∈ datas, ∀ v, Reading c!"ms" key d v → metricName d = some name)
    (hc : NoCounter c!"timers." datas) (hn : ∀ d ∈ datas, ¬ Reading c!"ms" key d .nan) (interval percent : ℤ) :
    let r := flush (messageProcessor ops) w interval percent (processAll (messageProcessor ops) w (MPState.init ops plugins) single)
    let rn := fun n => flush (messageProcessor ops) (wn n) interval percent
      (processAll (messageProcessor ops) (wn n) (MPState.init ops plugins) (ms n))
    r.2.2 = none → (∀ n ∈ clients, (rn n).2.2 = none) →
    ∃ n ∈ clients, said ((rn n).2.1.filter (ofTimer key)) = said (r.2.1.filter (ofTimer key)) ∧
      ∀ m ∈ clients, m ≠ n → (rn m).2.1.filter (ofTimer key) = [] := by
  intro r rn hok hokn
  obtain ⟨owner, h1, h2⟩ := sharded_sent H clients hne
  rw [h2] at hms
  have hsub : ∀ d ∈ sendable datas, d ∈ datas := fun d hd => (List.mem_filter.1 hd).1
  have hname' : ∀ d ∈ sendable datas, ∀ v, Reading c!"ms" key d v → metricName d = some name := fun d hd => hname d (hsub d hd)
  have hc1 : NoCounter c!"timers." (sendable datas) := fun m hm => hc m (hsub m hm)
  obtain ⟨vs, hv⟩ := collect_exists (Reading c!"ms" key) (sendable datas)
  have hnan : PyFloat.nan ∉ vs := by
    intro hm
    obtain ⟨m, hm', hr⟩ := collect_mem hv _ hm
    exact hn m (hsub m hm') hr
  refine ⟨owner name, h1 name, ?_, ?_⟩
  · have e1 := timer_said ops hq plugins w _ _ hsingle.symm key hc1 vs hv hnan interval percent hok
    have e2 := timer_said ops hq plugins (wn (owner name)) _ _ (hms _ (h1 name)).symm key
      (fun m hm => hc1 m (toServer_mem hm)) vs (collect_owner owner name _ hname' hv) hnan interval percent (hokn _ (h1 name))
    exact e2.trans e1.symm
  · intro m hm hmn
    obtain ⟨us, hu⟩ := collect_exists (Reading c!"ms" key)
      (toServer ((sendable datas).map fun d => (owner ((metricName d).getD []), d)) m)
    have hu0 := collect_other owner name _ hname' hmn hu
    subst hu0
    have e := timer_said ops hq plugins (wn m) _ _ (hms m hm).symm key (fun m hm => hc1 m (toServer_mem hm)) [] hu (by simp)
      interval percent (hokn m hm)
    have : said ((rn m).2.1.filter (ofTimer key)) = [] := e.trans rfl
    unfold said at this
    exact List.map_eq_nil_iff.1 this

/-- C149: the same for a gauge, if the texts arrive in the order they were written. -/
theorem C149_gauges (H : Hashing N) (clients : List N) (hne : clients ≠ []) (datas : List Str)
    (ops : PluginOps PF PM) (hq : Quiet ops c!"stats.gauge.") (plugins : List PF) (w : World) (wn : N → World)
    (key name : Str) (hname : ∀ d ∈ datas, ∀ v, Reading c!"g" key d v → metricName d = some name)
    (hc : NoCounter c!"gauge." datas) (interval percent : ℤ) :
    let r := flush (messageProcessor ops) w interval percent
      (processAll (messageProcessor ops) w (MPState.init ops plugins) (sendable datas))
    let rn := fun n => flush (messageProcessor ops) (wn n) interval percent (processAll (messageProcessor ops) (wn n)
      (MPState.init ops plugins) (toServer ((ShardedClient.init H clients).writes H datas).sent n))
    let nm := c!"stats.gauge." ++ key ++ c!".value"
    r.2.2 = none → (∀ n ∈ clients, (rn n).2.2 = none) →
    ∃ n ∈ clients, said (named nm (rn n).2.1) = said (named nm r.2.1) ∧
      ∀ m ∈ clients, m ≠ n → named nm (rn m).2.1 = [] := by
  intro r rn nm hok hokn
  obtain ⟨owner, h1, h2⟩ := sharded_sent H clients hne
  have hsub : ∀ d ∈ sendable datas, d ∈ datas := fun d hd => (List.mem_filter.1 hd).1
  have hname' : ∀ d ∈ sendable datas, ∀ v, Reading c!"g" key d v → metricName d = some name := fun d hd => hname d (hsub d hd)
  have gauge_said : ∀ (w : World) (ms : List Str) (vs : List PyFloat), (∀ d ∈ ms, d ∈ datas) →
      Collect (Reading c!"g" key) ms vs →
      (flush (messageProcessor ops) w interval percent (processAll (messageProcessor ops) w (MPState.init ops plugins) ms)).2.2 = none →
      said (named nm (flush (messageProcessor ops) w interval percent
        (processAll (messageProcessor ops) w (MPState.init ops plugins) ms)).2.1) = vs.map fun v => (nm, .flt v) := by
    intro w ms vs hd hv hok
    have hr : (runOps (messageProcessor ops) w (MPState.init ops plugins) (ms.map Op.msg)).1 =
        processAll (messageProcessor ops) w (MPState.init ops plugins) ms := by
      have := runOps_then (messageProcessor ops) w (MPState.init ops plugins) [] ms
      simpa [runOps] using this
    have hm : messages (ms.map Op.msg) = ms := by
      simp only [messages, List.filterMap_map]
      exact List.filterMap_some
    have := C15_backlog ops hq plugins w (ms.map Op.msg) interval percent key vs (by rw [hm]; exact hv)
    simp only [hr] at this
    rw [this ?_ hok]
    · simp [said, nm]
    · intro hk
      rcases (processAll_counter_keys ops w ms _ _).1 hk with hk | ⟨m, hm', o, ho⟩
      · simp [MPState.init] at hk
      · obtain ⟨fs, hp⟩ := counterEffect_counts ho
        exact hc m (hd m hm') _ fs hp (by rw [List.append_assoc]; exact List.prefix_append _ _)
  obtain ⟨vs, hv⟩ := collect_exists (Reading c!"g" key) (sendable datas)
  simp only [rn] at hokn ⊢
  rw [h2] at hokn ⊢
  refine ⟨owner name, h1 name, ?_, ?_⟩
  · exact (gauge_said _ _ vs (fun d hd => hsub d (toServer_mem hd)) (collect_owner owner name _ hname' hv) (hokn _ (h1 name))).trans
      (gauge_said _ _ vs hsub hv hok).symm
  · intro m hm hmn
    obtain ⟨us, hu⟩ := collect_exists (Reading c!"g" key)
      (toServer ((sendable datas).map fun d => (owner ((metricName d).getD []), d)) m)
    have hu0 := collect_other owner name _ hname' hmn hu
    subst hu0
    have e := gauge_said (wn m) _ [] (fun d hd => hsub d (toServer_mem hd)) hu (hokn m hm)
    unfold said at e
    exact List.map_eq_nil_iff.1 e

end

section
attribute [local instance] ratRounding

theorem slash_sent_timer : ((ShardedClient.init slashHashing [0, 5]).writes slashHashing [c!"/x:1|ms", c!"-y:2|g"]).sent =
    [(5, c!"/x:1|ms"), (0, c!"-y:2|g")] := by
  have h1 := slash_owner c!"/x" (by decide)
  have h2 := slash_owner c!"-y" (by decide)
  rw [show slashHashing.hash c!"/x" = 1 by decide, if_pos rfl] at h1
  rw [show slashHashing.hash c!"-y" = 0 by decide, if_neg (by decide)] at h2
  unfold ShardedClient.init
  exact writes_two slashHashing _ h1 h2 (x' := c!"1|ms") (y' := c!"2|g") (by decide) (by decide)

/-- The timer is on the second server, the gauge on the first. -/
example : toServer ((ShardedClient.init slashHashing [0, 5]).writes slashHashing [c!"/x:1|ms", c!"-y:2|g"]).sent 5 = [c!"/x:1|ms"] ∧
    sendable [c!"/x:1|ms", c!"-y:2|g"] = [c!"/x:1|ms", c!"-y:2|g"] ∧
    (flush (messageProcessor noPlugins) exWorld 1000 90 (processAll (messageProcessor noPlugins) exWorld (MPState.init noPlugins [])
      [c!"/x:1|ms"])).2.2 = none ∧
    (flush (messageProcessor noPlugins) exWorld 1000 90 (processAll (messageProcessor noPlugins) exWorld (MPState.init noPlugins [])
      [c!"/x:1|ms", c!"-y:2|g"])).2.2 = none ∧
    ((flush (messageProcessor noPlugins) exWorld 1000 90 (processAll (messageProcessor noPlugins) exWorld (MPState.init noPlugins [])
      [c!"/x:1|ms", c!"-y:2|g"])).2.1.filter (ofTimer c!"-x")).length = 5 := by
  rw [slash_sent_timer]
  decide +kernel

end
end Txstatsd
