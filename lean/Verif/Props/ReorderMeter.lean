import Verif.Lemmas.Reorder
import Verif.Props.DoubleFlow

set_option linter.unusedSectionVars false

/-!
# C148, for meters
-/

namespace Txstatsd
open Spec
section
variable [Rounding] {PF PM : Type}

theorem collect_perm_map {ι : Type} {P : Str → PyFloat → Prop} (f : ι → PyFloat) (g : PyFloat → ι) (hg : ∀ i, g (f i) = i)
    {a b : List Str} (h : a.Perm b) {qs : List ι} (hx : Collect P a (qs.map f)) :
    ∃ qs' : List ι, Collect P b (qs'.map f) ∧ qs.Perm qs' := by
  obtain ⟨y, hy, hp⟩ := collect_perm h hx
  have e : (y.map g).map f = y := by
    rw [List.map_map]
    conv_rhs => rw [← List.map_id y]
    refine List.map_congr_left fun v hv => ?_
    obtain ⟨q, _, rfl⟩ := List.mem_map.1 (hp.mem_iff.2 hv)
    simp [hg]
  refine ⟨y.map g, by rw [e]; exact hy, ?_⟩
  have := hp.map g
  rw [List.map_map] at this
  have hid : (g ∘ f) = id := funext hg
  rwa [hid, List.map_id] at this

/-- The number in a finite float. -/
def finRat : PyFloat → ℚ
  | .fin q => q
  | _ => 0

/-- Totals of the same messages in another order. -/
theorem meterTotals_agree {key : Str} {ms ms' : List Str} (hp : ms.Perm ms') {v v' : Num} (h : MeterTotal key ms v)
    (h' : MeterTotal key ms' v') :
    (Exact → ∀ qs : List ℚ, Collect (Reading c!"m" key) ms (qs.map PyFloat.fin) →
      ∃ c c', v = .flt (.fin c) ∧ v' = .flt (.fin c') ∧ Near6 c qs.sum ∧ Near6 c' qs.sum) ∧
    (IntExact → ∀ zs : List ℤ, Collect (Reading c!"m" key) ms (zs.map fun z : ℤ => PyFloat.fin z) → (zs.map abs).sum ≤ 2 ^ 53 →
      v = .flt (.fin zs.sum) ∧ v' = v) := by
  refine ⟨fun hE qs hc => ?_, fun hI zs hc hs => ?_⟩
  · obtain ⟨qs', hc', hq⟩ := collect_perm_map PyFloat.fin finRat (fun _ => rfl) hp hc
    obtain ⟨c, h1, h2⟩ := h.1 hE qs hc
    obtain ⟨c', h3, h4⟩ := h'.1 hE qs' hc'
    exact ⟨c, c', h2, h4, h1, by rw [hq.sum_eq]; exact h3⟩
  · obtain ⟨zs', hc', hq⟩ := collect_perm_map (fun z : ℤ => PyFloat.fin z) (fun v => (finRat v).num) (fun z => by simp [finRat]) hp hc
    have h1 := h.2.2 hI zs hc hs
    have h2 := h'.2.2 hI zs' hc' (by rw [← (hq.map abs).sum_eq]; exact hs)
    exact ⟨h1, by rw [h1, h2, hq.sum_eq]⟩

/-- C148: whatever flushes were under way before, the total of a meter that a flush reports after the same messages in another order
is the same: in doubles for whole readings, in exact arithmetic up to the six decimals it is rounded to. (Its rate depends on when the
meter was created.) -/
theorem C148_meters (ops : PluginOps PF PM) (hq : Quiet ops c!"stats.meter.") (plugins : List PF) (w w' : World)
    (es es' fl fl' : List Event) (hp : (arrivals es).Perm (arrivals es')) (hfl : arrivals fl = []) (hfl' : arrivals fl' = [])
    (hn : NoCounter c!"meter." (arrivals es)) (i i' : Nat) (interval interval' percent percent' : ℤ) (key : Str) :
    let v := (startUp (MPState.init ops plugins)).run (messageProcessor ops) w es
    let v' := (startUp (MPState.init ops plugins)).run (messageProcessor ops) w' es'
    v.gens[i]? = some ⟨interval, percent, .fresh⟩ → v'.gens[i']? = some ⟨interval', percent', .fresh⟩ →
    ∀ d ∈ emits (messageProcessor ops) w i v fl, ∀ d' ∈ emits (messageProcessor ops) w' i' v' fl',
      d.name = c!"stats.meter." ++ key ++ c!".count" → d'.name = c!"stats.meter." ++ key ++ c!".count" →
      (Exact → ∀ qs : List ℚ, Collect (Reading c!"m" key) (arrivals es) (qs.map PyFloat.fin) →
        ∃ c c', d.value = .flt (.fin c) ∧ d'.value = .flt (.fin c') ∧ Near6 c qs.sum ∧ Near6 c' qs.sum) ∧
      (IntExact → ∀ zs : List ℤ, Collect (Reading c!"m" key) (arrivals es) (zs.map fun z : ℤ => PyFloat.fin z) →
        (zs.map abs).sum ≤ 2 ^ 53 → d.value = .flt (.fin zs.sum) ∧ d'.value = d.value) := by
  intro v v' hg hg' d hd d' hd' h1 h2
  have none_of : ∀ {l a b : List Event}, arrivals l = [] → l = a ++ b → arrivals a = [] := by
    intro l a b hl e
    subst e
    simp only [arrivals, List.filterMap_append, List.append_eq_nil_iff] at hl
    exact hl.1
  obtain ⟨a, b, e1, e2⟩ := C128_default ops hq plugins w es fl (by rw [hfl, List.append_nil]; exact hn) i interval percent key hg d hd h1
  obtain ⟨a', b', e3, e4⟩ := C128_default ops hq plugins w' es' fl'
    (by rw [hfl', List.append_nil]; exact fun m hm => hn m (hp.mem_iff.2 hm)) i' interval' percent' key hg' d' hd' h2
  rw [none_of hfl e1, List.append_nil] at e2
  rw [none_of hfl' e3, List.append_nil] at e4
  exact meterTotals_agree hp e2 e4

/-- C148: the same of the configurable processor. (The key is not used for a counter, a timer or a plugin as well, no other metric of a
plugin has a point of this name, and it is not among the processor's own statistics.) -/
theorem C148_metersC (ops : PluginOps PF PM) (pre int : Str) (plugins : List PF) (w w' : World) (es es' fl fl' : List Event)
    (hp : (arrivals es).Perm (arrivals es')) (hfl : arrivals fl = []) (hfl' : arrivals fl' = [])
    (i i' : Nat) (interval interval' percent percent' : ℤ) (key : Str)
    (hq : ∀ w, OthersQuiet ops w (CPState.init ops plugins).plugins (fun _ => pre) key fun d => decide (d.name = prefixed pre key c!".count"))
    (hnp : pluginMsgs (CPState.init ops plugins).plugins key (arrivals es) = [])
    (hself : ¬ internalPrefixOf pre int <+: prefixed pre key c!".count")
    (hc : ¬ Received c!"c" key (arrivals es)) (ht : ¬ Received c!"ms" key (arrivals es)) :
    let v := (startUp (CPState.init ops plugins)).run (configurable ops pre int) w es
    let v' := (startUp (CPState.init ops plugins)).run (configurable ops pre int) w' es'
    v.gens[i]? = some ⟨interval, percent, .fresh⟩ → v'.gens[i']? = some ⟨interval', percent', .fresh⟩ →
    ∀ d ∈ emits (configurable ops pre int) w i v fl, ∀ d' ∈ emits (configurable ops pre int) w' i' v' fl',
      d.name = prefixed pre key c!".count" → d'.name = prefixed pre key c!".count" →
      (Exact → ∀ qs : List ℚ, Collect (Reading c!"m" key) (arrivals es) (qs.map PyFloat.fin) →
        ∃ c c', d.value = .flt (.fin c) ∧ d'.value = .flt (.fin c') ∧ Near6 c qs.sum ∧ Near6 c' qs.sum) ∧
      (IntExact → ∀ zs : List ℤ, Collect (Reading c!"m" key) (arrivals es) (zs.map fun z : ℤ => PyFloat.fin z) →
        (zs.map abs).sum ≤ 2 ^ 53 → d.value = .flt (.fin zs.sum) ∧ d'.value = d.value) := by
  intro v v' hg hg' d hd d' hd' h1 h2
  have none_of : ∀ {l a b : List Event}, arrivals l = [] → l = a ++ b → arrivals a = [] := by
    intro l a b hl e
    subst e
    simp only [arrivals, List.filterMap_append, List.append_eq_nil_iff] at hl
    exact hl.1
  have hr : ∀ t, ¬ Received t key (arrivals es) → ¬ Received t key (arrivals es') := by
    rintro t h ⟨m, hm, hx⟩
    exact h ⟨m, hp.mem_iff.2 hm, hx⟩
  have hnp' : pluginMsgs (CPState.init ops plugins).plugins key (arrivals es') = [] := by
    unfold pluginMsgs at hnp ⊢
    exact List.eq_nil_of_length_eq_zero (by rw [← (hp.filterMap _).length_eq, hnp]; rfl)
  obtain ⟨a, b, e1, e2⟩ := C128_configurable ops pre int plugins w es fl i interval percent key (hq w) (by rw [hfl, List.append_nil]; exact hnp)
    hself (by rw [hfl, List.append_nil]; exact hc) (by rw [hfl, List.append_nil]; exact ht) hg d hd h1
  obtain ⟨a', b', e3, e4⟩ := C128_configurable ops pre int plugins w' es' fl' i' interval' percent' key (hq w')
    (by rw [hfl', List.append_nil]; exact hnp') hself (by rw [hfl', List.append_nil]; exact hr _ hc)
    (by rw [hfl', List.append_nil]; exact hr _ ht) hg' d' hd' h2
  rw [none_of hfl e1, List.append_nil] at e2
  rw [none_of hfl' e3, List.append_nil] at e4
  exact meterTotals_agree hp e2 e4

end

section
attribute [local instance] ratRounding

/-- Two orders of two readings, the second with a flush between them, and what the flush after both reports. -/
example :
    (((startUp (MPState.init noPlugins [])).run (messageProcessor noPlugins) exWorld
      [.arrive c!"a:1|m", .arrive c!"a:2|m", .spawn 1000 90]).gens[0]? = some ⟨1000, 90, .fresh⟩ ∧
    ((startUp (MPState.init noPlugins [])).run (messageProcessor noPlugins) exWorld
      ([.arrive c!"a:2|m", .spawn 1000 90] ++ List.replicate 12 (.advance 0) ++ [.arrive c!"a:1|m", .spawn 1000 90])).gens[1]? =
        some ⟨1000, 90, .fresh⟩) ∧
    ((emits (messageProcessor noPlugins) exWorld 0 ((startUp (MPState.init noPlugins [])).run (messageProcessor noPlugins) exWorld
      [.arrive c!"a:1|m", .arrive c!"a:2|m", .spawn 1000 90]) (List.replicate 12 (.advance 0))).filter
      fun d => d.name = c!"stats.meter.a.count").map (·.value) = [.flt (.fin 3)] ∧
    ((emits (messageProcessor noPlugins) exWorld 1 ((startUp (MPState.init noPlugins [])).run (messageProcessor noPlugins) exWorld
      ([.arrive c!"a:2|m", .spawn 1000 90] ++ List.replicate 12 (.advance 0) ++ [.arrive c!"a:1|m", .spawn 1000 90]))
      (List.replicate 12 (.advance 1))).filter fun d => d.name = c!"stats.meter.a.count").map (·.value) = [.flt (.fin 3)] := by
  refine ⟨⟨rfl, rfl⟩, by decide +kernel, by decide +kernel⟩

/-- The hypotheses of `C148_metersC` are met, and both flushes report the total. -/
example :
    let es : List Event := [.arrive c!"a:1|m", .arrive c!"b:2|c", .arrive c!"a:2|m", .spawn 1000 90]
    let es' : List Event := [.arrive c!"a:2|m", .arrive c!"b:2|c", .arrive c!"a:1|m", .spawn 1000 90]
    (arrivals es).Perm (arrivals es') ∧
    (∀ w, OthersQuiet noPlugins w (CPState.init noPlugins []).plugins (fun _ => c!"p") c!"a" fun d => decide (d.name = prefixed c!"p" c!"a" c!".count")) ∧
    pluginMsgs (CPState.init noPlugins []).plugins c!"a" (arrivals es) = [] ∧
    ¬ internalPrefixOf c!"p" c!"own." <+: prefixed c!"p" c!"a" c!".count" ∧
    ∀ l ∈ [es, es'], ((startUp (CPState.init noPlugins [])).run (configurable noPlugins c!"p" c!"own.") exWorld l).gens[0]? = some ⟨1000, 90, .fresh⟩ ∧
      ((emits (configurable noPlugins c!"p" c!"own.") exWorld 0
        ((startUp (CPState.init noPlugins [])).run (configurable noPlugins c!"p" c!"own.") exWorld l) (List.replicate 12 (.advance 0))).filter
          fun d => d.name = c!"p.a.count").map (·.value) = [.flt (.fin 3)] := by
  intro es es'
  refine ⟨by decide, ?_, by decide +kernel, by decide, ?_⟩
  · intro w k m _ _ n secs ts d hd
    simp [noPlugins, madeBy] at hd
  · intro l hl
    simp only [List.mem_cons, List.not_mem_nil, or_false] at hl
    rcases hl with rfl | rfl <;> exact ⟨rfl, by decide +kernel⟩

end
end Txstatsd
