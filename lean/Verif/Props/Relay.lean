import Verif.Model.Plugins
import Verif.Lemmas.Relay

/-!
# Services with routing rules, and one behind the other: C119, C120
-/

namespace Txstatsd
open Spec
section
variable [Rounding] {C T G PF PM R : Type}

/-! ## C119: a service with routing rules -/

/-- C119: in every schedule of a service with rules, the texts taken in are processed once each or still scheduled. The state,
the running flushes and the datapoints are those of a server without rules to which the messages made by the rules arrived
instead, each text's up to the first that raises. What was redirected is what the rules send away for the processed texts. -/
theorem C119_served (I : Impl C T G PF PM) (hI : TypeFree I) (cf : AppConf R) (hs : ∀ r ∈ cf.rules, Sound cf.rx r)
    (hl : LegalRewrites cf.rx cf.rules) (ht : KnownTypes cf.rules) (w : World) (s : PS C T G PF PM) (es : List AppEvent) :
    let v := App.run I.proc cf w { ps := s } es
    ∃ (es' : List Event) (done : List (Str × List Str)),
      (done.map Prod.fst ++ v.scheduled).Perm (takenIn cf.monitor.message es) ∧
      arrivals es' = done.flatMap Prod.snd ∧
      (∀ p ∈ done, p.2 <+: routedTexts cf.rx cf.rules [p.1] ∧
        (p.2 = routedTexts cf.rx cf.rules [p.1] ∨ ∃ s x, p.2.getLast? = some x ∧ (process I w s x).2.exc ≠ none)) ∧
      (∀ i p, Event.spawn i p ∈ es' → i = cf.flushInterval ∧ p = 90) ∧
      v.ps = ((startUp s).run I w es').ps ∧ v.gens = ((startUp s).run I w es').gens ∧
      v.out = ((startUp s).run I w es').out ∧ v.sent = sentTexts cf.rx cf.rules (done.map Prod.fst) := by
  intro v
  obtain ⟨es', done, h1, h2, h3, h4, h5, h6⟩ := app_routed (I := I) cf w
    (Q := Delivered I w cf.rx cf.rules) (F := fun t => sentTexts cf.rx cf.rules [t])
    (fun s t => routeText_delivered hI w hs hl ht s t)
    (fun s t => routeText_sent _ hs s t) es { ps := s }
  refine ⟨es', done, by simpa using h3, h2, h4, h6, congrArg Server.ps h1, congrArg Server.gens h1, congrArg Server.out h1, ?_⟩
  refine h5.trans ?_
  simp only [sentTexts, List.nil_append, List.flatMap_map, List.flatMap_cons, List.flatMap_nil, List.append_nil]

/-- C119: with exact arithmetic and plugins that do not raise on texts that the rules make counters of, at every moment of every schedule of a service with rules, the
counts sent to carbon, those under way, the stored count and the increments still scheduled add up to the increments among
the messages the rules make of all texts taken in. -/
theorem C119_no_loss [Exact] (ops : PluginOps PF PM) (hq : Quiet ops c!"stats_counts.")
    (plugins : List PF) (cf : AppConf R)
    (hs : ∀ r ∈ cf.rules, Sound cf.rx r) (hl : LegalRewrites cf.rx cf.rules) (ht : KnownTypes cf.rules)
    (hi : 1000 ≤ cf.flushInterval) (w : World) (es : List AppEvent) (key : Str)
    (hn : ∀ t ∈ takenIn cf.monitor.message es, Harmless ops cf.rx cf.rules key t) (qs : List (ℚ × ℚ))
    (hinc : FiniteIncrements key (routedTexts cf.rx cf.rules (takenIn cf.monitor.message es)) qs) :
    let v := App.run (messageProcessor ops).proc cf w { ps := MPState.init ops plugins } es
    ∃ waiting, FiniteIncrements key (routedTexts cf.rx cf.rules v.scheduled) waiting ∧
      countedAt key v + amount waiting = amount qs := by
  intro v
  obtain ⟨done, h1, _, h3⟩ := relay_balance ops hq plugins cf hs hl ht hi w es key
    (fun t hm ts h x hx => delivered_full ops w hs hl ht (hn t hm) h hx)
  have hp : (routedTexts cf.rx cf.rules done ++ routedTexts cf.rx cf.rules v.scheduled).Perm
      (routedTexts cf.rx cf.rules (takenIn cf.monitor.message es)) := by
    unfold routedTexts
    rw [← List.flatMap_append]
    exact h1.flatMap_right _
  obtain ⟨qa, qb, ha, hb, he⟩ := finite_split hp hinc
  exact ⟨qb, hb, by rw [← he, ← h3 qa ha]⟩

/-! ## C120: one service behind another -/

/-- C120: a service that redirects the metrics of a condition to a second service and drops them itself shares the work with it:
with exact arithmetic and no lost datagrams, what the two have counted and the increments still scheduled in either add up to
all increments taken in by the first. -/
theorem C120_shared [Exact] {PF' PM' R' : Type} (ops : PluginOps PF PM) (hq : Quiet ops c!"stats_counts.") (plugins : List PF)
    (ops' : PluginOps PF' PM') (hq' : Quiet ops' c!"stats_counts.") (plugins' : List PF') (cf : AppConf R) (cf' : AppConf R')
    (c : Cond) (k : Sink) (hc : GoodPatterns c) (hr : cf.rules = [⟨c, .redirect k⟩, ⟨c, .drop⟩]) (hr' : cf'.rules = [])
    (hi : 1000 ≤ cf.flushInterval) (hi' : 1000 ≤ cf'.flushInterval) (w w' : World) (es es' : List AppEvent) (key : Str)
    (qs : List (ℚ × ℚ)) (hinc : FiniteIncrements key (takenIn cf.monitor.message es) qs) :
    let a := App.run (messageProcessor ops).proc cf w { ps := MPState.init ops plugins } es
    let b := App.run (messageProcessor ops').proc cf' w' { ps := MPState.init ops' plugins' } es'
    (takenIn cf'.monitor.message es').Perm (sentTo k a.sent) →
    ∃ wa wb, FiniteIncrements key a.scheduled wa ∧ FiniteIncrements key b.scheduled wb ∧
      countedAt key a + countedAt key b + amount wa + amount wb = amount qs ∧
      (∀ fs, Holds c ⟨c!"c", key, fs⟩ → countedAt key a = 0) ∧
      (∀ fs, ¬ Holds c ⟨c!"c", key, fs⟩ → countedAt key b = 0 ∧ wb = []) := by
  classical
  intro a b hlink
  have hs : ∀ r ∈ cf.rules, Sound cf.rx r := by
    rw [hr]; intro r h
    simp only [List.mem_cons, List.not_mem_nil, or_false] at h
    rcases h with rfl | rfl <;> exact ⟨hc, trivial⟩
  have hl : LegalRewrites cf.rx cf.rules := by
    rw [hr]; intro r h
    simp only [List.mem_cons, List.not_mem_nil, or_false] at h
    rcases h with rfl | rfl <;> trivial
  have ht : KnownTypes cf.rules := by
    rw [hr]; intro r h
    simp only [List.mem_cons, List.not_mem_nil, or_false] at h
    rcases h with rfl | rfl <;> trivial
  have hrt : ∀ t m, parseMessage t = some m →
      (Holds c m → routed cf.rx cf.rules [m] = [] ∧ sentAway cf.rx cf.rules [m] = [(k, textOf m)]) ∧
      (¬ Holds c m → routed cf.rx cf.rules [m] = [m] ∧ sentAway cf.rx cf.rules [m] = []) := by
    intro t m hm
    rw [hr]
    constructor
    · intro h; simp [routed, rewriteBy, sentAway, copiesBy, copies, outputs, h]
    · intro h; simp [routed, rewriteBy, sentAway, copiesBy, copies, outputs, h]
  obtain ⟨done, h1, h2, h3⟩ := relay_balance ops hq plugins cf hs hl ht hi w es key (fun t _ ts h x hx => by
    refine delivered_single h ?_ hx
    cases hm : parseMessage t with
    | none => simp [routedTexts, hm]
    | some m =>
      by_cases hh : Holds c m
      · simp [routedTexts, hm, (hrt t m hm).1 hh]
      · simp [routedTexts, hm, (hrt t m hm).2 hh])
  obtain ⟨qd, wa, hqd, hwa, he⟩ := finite_split h1 hinc
  -- the second service
  obtain ⟨done', h1', _, h3'⟩ := relay_balance ops' hq' plugins' cf' (by rw [hr']; simp) (by intro r h; rw [hr'] at h; cases h)
    (by intro r h; rw [hr'] at h; cases h) hi' w' es' key (fun t _ ts h x hx => by
      refine delivered_single h ?_ hx
      rw [hr']
      cases hm : parseMessage t <;> simp [routedTexts, hm, routed])
  have hmid : FiniteIncrements key (sentTo k a.sent) (if Holds c ⟨c!"c", key, []⟩ then qd else []) ∧
      FiniteIncrements key (routedTexts cf.rx cf.rules done) (if Holds c ⟨c!"c", key, []⟩ then [] else qd) := by
    rw [show a.sent = _ from h2]
    exact shared_increments hrt hqd
  obtain ⟨qd', wb, hqd', hwb, he'⟩ := finite_split (h1'.trans hlink) hmid.1
  have hb : countedAt key b = amount qd' := by
    apply h3'
    rw [hr']
    exact norules_increments hqd'
  have ha : countedAt key a = amount (if Holds c ⟨c!"c", key, []⟩ then [] else qd) := h3 _ hmid.2
  have hfields : ∀ fs, Holds c ⟨c!"c", key, fs⟩ ↔ Holds c ⟨c!"c", key, []⟩ := fun fs => holds_fields c ⟨c!"c", key, fs⟩ ⟨c!"c", key, []⟩ rfl rfl
  refine ⟨wa, wb, hwa, hwb, ?_, ?_, ?_⟩
  · rw [ha, hb, ← he]
    split_ifs at he' ⊢
    · rw [← he']; simp only [amount, List.map_nil, List.sum_nil]; ring
    · have : amount ([] : List (ℚ × ℚ)) = 0 := rfl
      rw [this] at he'
      linarith
  · intro fs h
    rw [ha, if_pos ((hfields fs).1 h)]; rfl
  · intro fs h
    rw [hfields] at h
    rw [if_neg h] at hmid
    have hnil : qd' = [] ∧ wb = [] := by
      obtain ⟨z, hz, hzp⟩ := increments_perm (h1'.trans hlink) (increments_append hqd' hwb)
      have := increments_unique hz hmid.1
      rw [this] at hzp
      simpa using hzp
    rw [hb, hnil.1]
    exact ⟨rfl, hnil.2⟩

/-- C120: a service that redirects the metrics of a condition to a second one and goes on processing them doubles them: the first
counts all its increments, and the second as well, those of a condition that holds of the name. Both are right when nothing
is scheduled any more. -/
theorem C120_mirrored [Exact] {PF' PM' R' : Type} (ops : PluginOps PF PM) (hq : Quiet ops c!"stats_counts.") (plugins : List PF)
    (ops' : PluginOps PF' PM') (hq' : Quiet ops' c!"stats_counts.") (plugins' : List PF') (cf : AppConf R) (cf' : AppConf R')
    (c : Cond) (k : Sink) (hc : GoodPatterns c) (hr : cf.rules = [⟨c, .redirect k⟩]) (hr' : cf'.rules = [])
    (hi : 1000 ≤ cf.flushInterval) (hi' : 1000 ≤ cf'.flushInterval) (w w' : World) (es es' : List AppEvent) (key : Str)
    (qs : List (ℚ × ℚ)) (hinc : FiniteIncrements key (takenIn cf.monitor.message es) qs) :
    let a := App.run (messageProcessor ops).proc cf w { ps := MPState.init ops plugins } es
    let b := App.run (messageProcessor ops').proc cf' w' { ps := MPState.init ops' plugins' } es'
    (takenIn cf'.monitor.message es').Perm (sentTo k a.sent) →
    ∃ wa wb, FiniteIncrements key a.scheduled wa ∧ FiniteIncrements key b.scheduled wb ∧
      countedAt key a + amount wa = amount qs ∧
      (∀ fs, Holds c ⟨c!"c", key, fs⟩ → countedAt key b + amount wb + amount wa = amount qs) := by
  classical
  intro a b hlink
  have hs : ∀ r ∈ cf.rules, Sound cf.rx r := by
    rw [hr]; intro r h
    simp only [List.mem_cons, List.not_mem_nil, or_false] at h
    subst h; exact ⟨hc, trivial⟩
  have hl : LegalRewrites cf.rx cf.rules := by
    rw [hr]; intro r h
    simp only [List.mem_cons, List.not_mem_nil, or_false] at h
    subst h; trivial
  have ht : KnownTypes cf.rules := by
    rw [hr]; intro r h
    simp only [List.mem_cons, List.not_mem_nil, or_false] at h
    subst h; trivial
  have hrt : ∀ t m, parseMessage t = some m → routed cf.rx cf.rules [m] = [m] ∧
      (Holds c m → sentAway cf.rx cf.rules [m] = [(k, textOf m)]) ∧ (¬ Holds c m → sentAway cf.rx cf.rules [m] = []) := by
    intro t m hm
    rw [hr]
    refine ⟨?_, ?_, ?_⟩
    · by_cases h : Holds c m <;> simp [routed, rewriteBy, outputs, h]
    · intro h; simp [sentAway, copiesBy, copies, h]
    · intro h; simp [sentAway, copiesBy, copies, h]
  obtain ⟨done, h1, h2, h3⟩ := relay_balance ops hq plugins cf hs hl ht hi w es key (fun t _ ts h x hx => by
    refine delivered_single h ?_ hx
    cases hm : parseMessage t with
    | none => simp [routedTexts, hm]
    | some m => simp [routedTexts, hm, (hrt t m hm).1])
  obtain ⟨qd, wa, hqd, hwa, he⟩ := finite_split h1 hinc
  obtain ⟨done', h1', _, h3'⟩ := relay_balance ops' hq' plugins' cf' (by rw [hr']; simp) (by intro r h; rw [hr'] at h; cases h)
    (by intro r h; rw [hr'] at h; cases h) hi' w' es' key (fun t _ ts h x hx => by
      refine delivered_single h ?_ hx
      rw [hr']
      cases hm : parseMessage t <;> simp [routedTexts, hm, routed])
  have hmid : FiniteIncrements key (sentTo k a.sent) (if Holds c ⟨c!"c", key, []⟩ then qd else []) := by
    rw [show a.sent = _ from h2]
    exact sent_increments (fun t m hm => (hrt t m hm).2) hqd
  obtain ⟨qd', wb, hqd', hwb, he'⟩ := finite_split (h1'.trans hlink) hmid
  have hb : countedAt key b = amount qd' := by
    apply h3'
    rw [hr']
    exact norules_increments hqd'
  have ha : countedAt key a = amount qd := h3 _ (same_increments (fun t m hm => (hrt t m hm).1) hqd)
  refine ⟨wa, wb, hwa, hwb, by rw [ha, he], ?_⟩
  intro fs h
  rw [holds_fields c ⟨c!"c", key, fs⟩ ⟨c!"c", key, []⟩ rfl rfl] at h
  rw [if_pos h] at he'
  rw [hb, he', he]

end

section
attribute [local instance] ratRounding

/-- Two services: the first hands the counters of `a.*` on. -/
example : GoodPatterns (.pathLike c!"a.*") := goodPattern_plain (by decide)
example : Holds (.pathLike c!"a.*") ⟨c!"c", c!"a.b", []⟩ :=
  (shell_plain (by decide) _).2 <| .lit _ _ _ (by decide) (by decide) (.lit _ _ _ (by decide) (by decide) (.star ['b'] [] [] .nil))
/-- The rules at work on two counters and one text that is no message. -/
example : (App.run (messageProcessor noPlugins).proc
      (⟨exRx, [⟨.pathLike c!"a.*", .redirect ⟨false, c!"h", 1⟩⟩, ⟨.pathLike c!"a.*", .drop⟩], ⟨none, []⟩, 1000⟩ : AppConf Str) exWorld
      { ps := MPState.init noPlugins [] }
      [.receive c!"a.x:3|c", .receive c!"b:4|c", .receive c!"bad", .turn 1, .turn 0, .turn 0]).sent =
    [(⟨false, c!"h", 1⟩, c!"a.x:3|c")] := by decide +kernel

/-- No text for the shipped plugins does harm under rules that make meters of some counters. -/
example [Power] (key t : Str) : Harmless shippedOps exRx [⟨.pathLike c!"a.*", .setType c!"m" true⟩] key t :=
  harmless_of_types _ (by intro r h; simp only [List.mem_singleton] at h; subst h; exact ⟨goodPattern_plain (by decide), trivial⟩)
    (by intro r h; simp only [List.mem_singleton] at h; subst h; trivial)
    (by intro r h; simp only [List.mem_singleton] at h; subst h; simp)
    (by intro r h; simp only [List.mem_singleton] at h; subst h; intro t d e; cases e; decide) key t

/-- C119, refuted: the copies the rules make of a message are not processed independently: if the first raises (a counter with the
rate 0), the others are lost. -/
theorem C119_copies_refuted : ¬ ∀ (rules : List (Rule Str)) (t : Str), (∀ r ∈ rules, Sound exRx r) →
    (routeText exRx rules (processMessage (messageProcessor noPlugins) exWorld) (MPState.init noPlugins []) t).2.1.timers =
      (processAll (messageProcessor noPlugins) exWorld (MPState.init noPlugins []) (routedTexts exRx rules [t])).timers := by
  intro h
  have := h [⟨.any, .setType c!"ms" true⟩] c!"a:1|c|@0" (by
    intro r hr
    simp only [List.mem_cons, List.not_mem_nil, or_false] at hr
    subst hr
    exact ⟨trivial, trivial⟩)
  have hm : parseMessage c!"a:1|c|@0" = some ⟨c!"c", c!"a", [c!"1", c!"c", c!"@0"]⟩ := by decide +kernel
  have hr : routedTexts exRx [⟨.any, .setType c!"ms" true⟩] [c!"a:1|c|@0"] = [c!"a:1|c|@0", c!"a:1|ms|@0"] := by
    unfold routedTexts
    simp only [List.flatMap_cons, List.flatMap_nil, List.append_nil, hm, routed, List.foldl_cons, List.foldl_nil, rewriteBy,
      Holds, if_true, outputs]
    decide +kernel
  rw [hr] at this
  revert this
  decide +kernel

end
end Txstatsd
