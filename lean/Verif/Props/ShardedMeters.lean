import Verif.Props.ShardedReadings
import Verif.Props.ReorderMeter

set_option linter.unusedSectionVars false

/-!
# C149, for meters
-/

namespace Txstatsd
open Spec
section
variable [Rounding] {PF PM : Type} {N : Type} [LinearOrder N]

/-- A point with the name of a meter's total is reported only if readings of the meter were received. -/
theorem meter_point_received (ops : PluginOps PF PM) (hq : Quiet ops c!"stats.meter.") (plugins : List PF) (w : World)
    (es es' : List Event) (hes' : arrivals es' = []) (hn : NoCounter c!"meter." (arrivals es)) (i : Nat) (interval percent : ℤ)
    (key : Str) (hg : ((startUp (MPState.init ops plugins)).run (messageProcessor ops) w es).gens[i]? = some ⟨interval, percent, .fresh⟩)
    (d : Datapoint) (hd : d ∈ emits (messageProcessor ops) w i ((startUp (MPState.init ops plugins)).run (messageProcessor ops) w es) es')
    (hname : d.name = c!"stats.meter." ++ key ++ c!".count") : Received c!"m" key (arrivals es) ∧ MeterTotal key (arrivals es) d.value := by
  obtain ⟨es1, es2, he, h⟩ := C103_default ops plugins w es es' i interval percent hg d hd
  have h0 : arrivals es1 = [] := by
    subst he
    simp only [arrivals, List.filterMap_append, List.append_eq_nil_iff] at hes'
    exact hes'.1
  rw [h0, List.append_nil] at h
  rcases h with ⟨k, ⟨m, hm, fs, hk⟩, h | h⟩ | ⟨k, _, h⟩ | ⟨k, _, _, h, _⟩ | ⟨k, hr, h | ⟨h, ht⟩⟩ | h | ⟨pk, m, t, gs, n, secs, ts, hl, _, hdl⟩
  · rw [hname] at h
    have e : k = c!"meter." ++ key ++ c!".count" := by simpa using h.symm
    subst e
    exact absurd ⟨key ++ c!".count", by simp⟩ (hn m hm _ fs hk)
  · rw [hname] at h; simp at h
  · obtain ⟨word, _, h⟩ := ofTimer_iff.1 h
    rw [hname] at h; simp at h
  · rw [hname] at h; simp at h
  · rw [hname] at h
    have := congrArg (fun l => l.reverse.head?) h
    simp at this
  · rw [hname] at h
    have e : key = k := by simpa using h
    rw [e]; exact ⟨hr, ht⟩
  · rw [hname] at h
    obtain ⟨t, h⟩ := h
    simp at h
  · refine absurd ⟨key ++ c!".count", ?_⟩ (hq pk m (life_came hl) w n secs ts _ (madeBy_ok hdl) d hdl)
    rw [hname, List.append_assoc]

/-- C149: the same for a meter, whatever the network does to the order and whatever flushes were under way: one server reports the total
of all readings that can be sent (in doubles for whole readings, in exact arithmetic up to the six decimals it is rounded to), and no
other server has a point of that name. -/
theorem C149_meters (H : Hashing N) (clients : List N) (hne : clients ≠ []) (datas : List Str)
    (ops : PluginOps PF PM) (hq : Quiet ops c!"stats.meter.") (plugins : N → List PF) (w : N → World) (es fl : N → List Event)
    (hes : ∀ n ∈ clients, (arrivals (es n)).Perm (toServer ((ShardedClient.init H clients).writes H datas).sent n))
    (hfl : ∀ n ∈ clients, arrivals (fl n) = [])
    (key name : Str) (hname : ∀ d ∈ datas, ∀ v, Reading c!"m" key d v → metricName d = some name)
    (hc : NoCounter c!"meter." datas) :
    let v := fun n => (startUp (MPState.init ops (plugins n))).run (messageProcessor ops) (w n) (es n)
    ∃ n ∈ clients,
      (∀ i interval percent, (v n).gens[i]? = some ⟨interval, percent, .fresh⟩ → ∀ d ∈ emits (messageProcessor ops) (w n) i (v n) (fl n),
        d.name = c!"stats.meter." ++ key ++ c!".count" →
        (Exact → ∀ qs : List ℚ, Collect (Reading c!"m" key) (sendable datas) (qs.map PyFloat.fin) →
          ∃ c, d.value = .flt (.fin c) ∧ Near6 c qs.sum) ∧
        (IntExact → ∀ zs : List ℤ, Collect (Reading c!"m" key) (sendable datas) (zs.map fun z : ℤ => PyFloat.fin z) →
          (zs.map abs).sum ≤ 2 ^ 53 → d.value = .flt (.fin zs.sum))) ∧
      ∀ m ∈ clients, m ≠ n → ∀ i interval percent, (v m).gens[i]? = some ⟨interval, percent, .fresh⟩ →
        ∀ d ∈ emits (messageProcessor ops) (w m) i (v m) (fl m), d.name ≠ c!"stats.meter." ++ key ++ c!".count" := by
  intro v
  obtain ⟨owner, h1, h2⟩ := sharded_sent H clients hne
  rw [h2] at hes
  have hsub : ∀ d ∈ sendable datas, d ∈ datas := fun d hd => (List.mem_filter.1 hd).1
  have hname' : ∀ d ∈ sendable datas, ∀ v, Reading c!"m" key d v → metricName d = some name := fun d hd => hname d (hsub d hd)
  have hc1 : ∀ n ∈ clients, NoCounter c!"meter." (arrivals (es n)) := fun n hn m hm => hc m (hsub m (toServer_mem ((hes n hn).mem_iff.1 hm)))
  refine ⟨owner name, h1 name, ?_, ?_⟩
  · intro i interval percent hg d hd hdn
    obtain ⟨-, ht⟩ := meter_point_received ops hq _ _ _ _ (hfl _ (h1 name)) (hc1 _ (h1 name)) i interval percent key hg d hd hdn
    refine ⟨fun hE qs hqs => ?_, fun hI zs hzs hb => ?_⟩
    · obtain ⟨qs', hc', hp⟩ := collect_perm_map PyFloat.fin finRat (fun _ => rfl) (hes _ (h1 name)).symm (collect_owner owner name _ hname' hqs)
      obtain ⟨c, e1, e2⟩ := ht.1 hE qs' hc'
      exact ⟨c, e2, by rw [hp.sum_eq]; exact e1⟩
    · obtain ⟨zs', hc', hp⟩ := collect_perm_map (fun z : ℤ => PyFloat.fin z) (fun v => (finRat v).num) (fun z => by simp [finRat])
        (hes _ (h1 name)).symm (collect_owner owner name _ hname' hzs)
      have := ht.2.2 hI zs' hc' (by rw [← (hp.map abs).sum_eq]; exact hb)
      rw [this, hp.sum_eq]
  · intro m hm hmn i interval percent hg d hd hdn
    obtain ⟨⟨t, ht, x, hx⟩, -⟩ := meter_point_received ops hq _ _ _ _ (hfl m hm) (hc1 m hm) i interval percent key hg d hd hdn
    have ht' := (hes m hm).mem_iff.1 ht
    simp only [toServer, List.mem_map, List.mem_filter, decide_eq_true_eq, Prod.exists] at ht'
    obtain ⟨n', d', ⟨⟨d'', hd'', heq⟩, hn'⟩, rfl⟩ := ht'
    simp only [Prod.mk.injEq] at heq
    obtain ⟨e1, rfl⟩ := heq
    rw [hname' d'' hd'' x hx, Option.getD_some] at e1
    exact hmn (by rw [← hn', e1])

end

section
attribute [local instance] ratRounding

/-- Two servers that receive readings of two meters, and flush. -/
def exMeterShards : Nat → List Event
  | 5 => [.arrive c!"b:4|m", .spawn 1000 90]
  | 0 => [.arrive c!"x:2|m", .spawn 1000 90]
  | _ => []

/-- The hypotheses are met, and the total is reported. -/
example :
    (∀ n ∈ [0, 5], (arrivals (exMeterShards n)).Perm
      (toServer ((ShardedClient.init slashHashing [0, 5]).writes slashHashing [c!"b:4|m", c!"x:2|m"]).sent n)) ∧
    Collect (Reading c!"m" c!"b") (sendable [c!"b:4|m", c!"x:2|m"]) [.fin 4] ∧
    ((emits (messageProcessor noPlugins) exWorld 0 ((startUp (MPState.init noPlugins [])).run (messageProcessor noPlugins) exWorld
      (exMeterShards 5)) (List.replicate 12 (.advance 0))).filter fun d => d.name = c!"stats.meter.b.count").map (·.value) = [.flt (.fin 4)] ∧
    ((startUp (MPState.init noPlugins [])).run (messageProcessor noPlugins) exWorld (exMeterShards 5)).gens[0]? = some ⟨1000, 90, .fresh⟩ := by
  refine ⟨?_, ?_, by decide +kernel, rfl⟩
  · have h1 := slash_owner c!"b" (by decide)
    have h2 := slash_owner c!"x" (by decide)
    rw [show slashHashing.hash c!"b" = 1 by decide, if_pos rfl] at h1
    rw [show slashHashing.hash c!"x" = 0 by decide, if_neg (by decide)] at h2
    have hs : ((ShardedClient.init slashHashing [0, 5]).writes slashHashing [c!"b:4|m", c!"x:2|m"]).sent =
        [(5, c!"b:4|m"), (0, c!"x:2|m")] := by
      unfold ShardedClient.init
      exact writes_two slashHashing _ h1 h2 (x' := c!"4|m") (y' := c!"2|m") (by decide) (by decide)
    rw [hs]
    intro n hn
    simp only [List.mem_cons, List.not_mem_nil, or_false] at hn
    rcases hn with rfl | rfl <;> decide
  · have e : sendable [c!"b:4|m", c!"x:2|m"] = [c!"b:4|m", c!"x:2|m"] := by decide
    rw [e]
    refine .hit ⟨c!"4", [c!"m"], parsed_iff.2 (by decide +kernel), by decide +kernel⟩ (.skip ?_ .nil)
    rintro v ⟨a, b, hp, -⟩
    have h1 := parsed_iff.1 hp
    have h2 : ((parseMessage c!"x:2|m").map fun x => x.key) = some c!"x" := by decide +kernel
    rw [h1] at h2
    simp at h2

end
end Txstatsd
