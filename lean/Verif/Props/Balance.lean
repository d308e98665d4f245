import Verif.Lemmas.Balance
import Verif.Lemmas.Ieee
import Verif.Props.Relay

/-!
# C125: Counts add up in doubles
-/

namespace Txstatsd
open Spec
section
variable [Rounding] {PF PM R : Type}

/-! ## When increments add up -/

/-- C125: whole increments without sampling add up exactly in any arithmetic that represents the integers up to 2^53, as doubles
do, as long as their sizes add up to at most that. -/
theorem C125_whole [IntExact] (qs : List (ℚ × ℚ)) (h : ∀ p ∈ qs, p.2 = 1 ∧ ∃ z : ℤ, p.1 = z) (hs : sizes qs ≤ 2 ^ 53) : AddsUp 0 qs :=
  addsUp_int h hs

/-- C125: any increments of moderate values and rates add up, in the arithmetic of doubles, to within `n + 2` units of the 52nd
bit of the sum of their sizes, `n` being their number. -/
theorem C125_moderate [Ieee] (qs : List (ℚ × ℚ)) (h : ∀ p ∈ qs, p.2 ≠ 0 ∧ Moderate p.1 ∧ Moderate p.2) (hn : qs.length ≤ 2 ^ 50) :
    AddsUp ((qs.length + 2) / 2 ^ 52) qs :=
  addsUp_ieee h hn

/-! ## The default processor and the services -/

/-- C125: in every schedule of arrivals and overlapping flushes, at every moment, the counts sent, those under way and the stored
one are finite and add up to the sum of value/rate over all accepted increments, to within the error of the arithmetic. -/
theorem C125_schedule (ops : PluginOps PF PM) (hq : Quiet ops c!"stats_counts.") (plugins : List PF) (w : World)
    (es : List Event) (hw : WholeSecondSpawns es) (key : Str) (c : ℚ) (qs : List (ℚ × ℚ))
    (hinc : FiniteIncrements key (arrivals es) qs) (hc : AddsUp c qs) :
    let v := (startUp (MPState.init ops plugins)).run (messageProcessor ops) w es
    ∃ x, SumOf (countsAt key v.out v.gens v.ps) x ∧ |x - amount qs| ≤ c * sizes qs :=
  schedule_balance ops hq plugins w es hw key c qs hinc hc

/-- C125: for whole increments without sampling, in doubles, exactly. -/
theorem C125_integers [Ieee] (ops : PluginOps PF PM) (hq : Quiet ops c!"stats_counts.") (plugins : List PF) (w : World)
    (es : List Event) (hw : WholeSecondSpawns es) (key : Str) (zs : List ℤ)
    (hinc : FiniteIncrements key (arrivals es) (zs.map fun z : ℤ => ((z : ℚ), (1 : ℚ)))) (hz : (zs.map abs).sum ≤ 2 ^ 53) :
    let v := (startUp (MPState.init ops plugins)).run (messageProcessor ops) w es
    SumOf (countsAt key v.out v.gens v.ps) (zs.sum : ℤ) := by
  intro v
  have hsz : ∀ zs : List ℤ, sizes (zs.map fun z : ℤ => ((z : ℚ), (1 : ℚ))) = (((zs.map abs).sum : ℤ) : ℚ) := by
    intro zs
    induction zs with
    | nil => rfl
    | cons z zs ih => simp only [sizes, List.map_cons, List.sum_cons] at ih ⊢; rw [ih]; simp
  have ham : ∀ zs : List ℤ, amount (zs.map fun z : ℤ => ((z : ℚ), (1 : ℚ))) = ((zs.sum : ℤ) : ℚ) := by
    intro zs
    induction zs with
    | nil => rfl
    | cons z zs ih => simp only [amount, List.map_cons, List.sum_cons] at ih ⊢; rw [ih]; simp
  obtain ⟨x, h1, h2⟩ := C125_schedule ops hq plugins w es hw key 0 _ hinc (C125_whole _ (by
    intro p hp
    obtain ⟨z, _, rfl⟩ := List.mem_map.1 hp
    exact ⟨rfl, z, rfl⟩) (by rw [hsz]; exact_mod_cast hz))
  rw [zero_mul, ham] at h2
  have : x = ((zs.sum : ℤ) : ℚ) := by
    have := abs_eq_zero.1 (le_antisymm h2 (abs_nonneg _)); linarith
  rw [← this]; exact h1

/-- C125: at every moment of every schedule of a service without rules, the counts sent to carbon, those under way, the stored one
and the increments still scheduled add up to the increments of all texts taken in, to within the error of the arithmetic. -/
theorem C125_service (ops : PluginOps PF PM) (hq : Quiet ops c!"stats_counts.") (plugins : List PF) (cf : AppConf R)
    (hr : cf.rules = []) (hi : 1000 ≤ cf.flushInterval) (w : World) (es : List AppEvent) (key : Str) (c : ℚ) (hc0 : 0 ≤ c)
    (qs : List (ℚ × ℚ)) (hinc : FiniteIncrements key (takenIn cf.monitor.message es) qs) (hc : AddsUp c qs) :
    let v := App.run (messageProcessor ops).proc cf w { ps := MPState.init ops plugins } es
    ∃ waiting x, FiniteIncrements key v.scheduled waiting ∧ SumOf (countsAt key v.out v.gens v.ps) x ∧
      |x + amount waiting - amount qs| ≤ c * sizes qs := by
  intro v
  obtain ⟨done, h1, _, h3⟩ := relay_sum ops hq plugins cf (by rw [hr]; simp) (by intro r h; rw [hr] at h; cases h)
    (by intro r h; rw [hr] at h; cases h) hi w es key (fun t _ ts h x hx => by
      refine delivered_single h ?_ hx
      rw [hr]
      cases hm : parseMessage t <;> simp [routedTexts, hm, routed])
  obtain ⟨qd, qw, k1, k2, k3⟩ := finite_parts h1 hinc
  have hsub : qd.Subperm qs := (List.sublist_append_left qd qw).subperm.trans k3.subperm
  obtain ⟨x, k4, k5⟩ := h3 c qd (by rw [hr]; exact norules_increments k1) (addsUp_subperm hsub hc)
  refine ⟨qw, x, k2, k4, ?_⟩
  have e : amount qs = amount qd + amount qw := by
    rw [← amount_append]; exact ((k3.map _).sum_eq).symm
  rw [e, show x + amount qw - (amount qd + amount qw) = x - amount qd by ring]
  exact le_trans k5 (mul_le_mul_of_nonneg_left (sizes_subperm hsub) hc0)

/-- C125: the same of a service with rules and plugins that do not raise on texts that the rules make counters of, for the increments among the messages that the rules
make of all texts taken in. -/
theorem C125_rules (ops : PluginOps PF PM) (hq : Quiet ops c!"stats_counts.")
    (plugins : List PF) (cf : AppConf R)
    (hs : ∀ r ∈ cf.rules, Sound cf.rx r) (hl : LegalRewrites cf.rx cf.rules) (ht : KnownTypes cf.rules)
    (hi : 1000 ≤ cf.flushInterval) (w : World) (es : List AppEvent) (key : Str)
    (hn : ∀ t ∈ takenIn cf.monitor.message es, Harmless ops cf.rx cf.rules key t) (c : ℚ) (hc0 : 0 ≤ c) (qs : List (ℚ × ℚ))
    (hinc : FiniteIncrements key (routedTexts cf.rx cf.rules (takenIn cf.monitor.message es)) qs) (hc : AddsUp c qs) :
    let v := App.run (messageProcessor ops).proc cf w { ps := MPState.init ops plugins } es
    ∃ waiting x, FiniteIncrements key (routedTexts cf.rx cf.rules v.scheduled) waiting ∧
      SumOf (countsAt key v.out v.gens v.ps) x ∧ |x + amount waiting - amount qs| ≤ c * sizes qs := by
  intro v
  obtain ⟨done, h1, _, h3⟩ := relay_sum ops hq plugins cf hs hl ht hi w es key
    (fun t hm ts h x hx => delivered_full ops w hs hl ht (hn t hm) h hx)
  have hp : (routedTexts cf.rx cf.rules done ++ routedTexts cf.rx cf.rules v.scheduled).Perm
      (routedTexts cf.rx cf.rules (takenIn cf.monitor.message es)) := by
    unfold routedTexts
    rw [← List.flatMap_append]
    exact h1.flatMap_right _
  obtain ⟨qd, qw, k1, k2, k3⟩ := finite_parts hp hinc
  have hsub : qd.Subperm qs := (List.sublist_append_left qd qw).subperm.trans k3.subperm
  obtain ⟨x, k4, k5⟩ := h3 c qd k1 (addsUp_subperm hsub hc)
  refine ⟨qw, x, k2, k4, ?_⟩
  have e : amount qs = amount qd + amount qw := by
    rw [← amount_append]; exact ((k3.map _).sum_eq).symm
  rw [e, show x + amount qw - (amount qd + amount qw) = x - amount qd by ring]
  exact le_trans k5 (mul_le_mul_of_nonneg_left (sizes_subperm hsub) hc0)

/-! ## Two services in a row, with losses -/

/-- C125: a service that redirects the metrics of a condition to a second one and drops them itself, with the texts `lost` on the
way: what the two have counted, the increments scheduled in either and those lost add up to all increments taken in by the
first. -/
theorem C125_shared {PF' PM' R' : Type} (ops : PluginOps PF PM) (hq : Quiet ops c!"stats_counts.") (plugins : List PF)
    (ops' : PluginOps PF' PM') (hq' : Quiet ops' c!"stats_counts.") (plugins' : List PF') (cf : AppConf R) (cf' : AppConf R')
    (d : Cond) (k : Sink) (hd : GoodPatterns d) (hr : cf.rules = [⟨d, .redirect k⟩, ⟨d, .drop⟩]) (hr' : cf'.rules = [])
    (hi : 1000 ≤ cf.flushInterval) (hi' : 1000 ≤ cf'.flushInterval) (w w' : World) (es es' : List AppEvent) (key : Str)
    (c : ℚ) (hc0 : 0 ≤ c) (qs : List (ℚ × ℚ)) (hinc : FiniteIncrements key (takenIn cf.monitor.message es) qs) (hc : AddsUp c qs)
    (lost : List Str) :
    let a := App.run (messageProcessor ops).proc cf w { ps := MPState.init ops plugins } es
    let b := App.run (messageProcessor ops').proc cf' w' { ps := MPState.init ops' plugins' } es'
    (takenIn cf'.monitor.message es' ++ lost).Perm (sentTo k a.sent) →
    ∃ wa wb wl x y, FiniteIncrements key a.scheduled wa ∧ FiniteIncrements key b.scheduled wb ∧ FiniteIncrements key lost wl ∧
      SumOf (countsAt key a.out a.gens a.ps) x ∧ SumOf (countsAt key b.out b.gens b.ps) y ∧
      |x + y + amount wa + amount wb + amount wl - amount qs| ≤ c * sizes qs ∧
      (∀ fs, Holds d ⟨c!"c", key, fs⟩ → x = 0) ∧ (∀ fs, ¬ Holds d ⟨c!"c", key, fs⟩ → y = 0 ∧ wb = [] ∧ wl = []) := by
  classical
  intro a b hlink
  have hs : ∀ r ∈ cf.rules, Sound cf.rx r := by
    rw [hr]; intro r h
    simp only [List.mem_cons, List.not_mem_nil, or_false] at h
    rcases h with rfl | rfl <;> exact ⟨hd, trivial⟩
  have hl : LegalRewrites cf.rx cf.rules := by
    rw [hr]; intro r h
    simp only [List.mem_cons, List.not_mem_nil, or_false] at h
    rcases h with rfl | rfl <;> trivial
  have ht : KnownTypes cf.rules := by
    rw [hr]; intro r h
    simp only [List.mem_cons, List.not_mem_nil, or_false] at h
    rcases h with rfl | rfl <;> trivial
  have hrt : ∀ t m, parseMessage t = some m →
      (Holds d m → routed cf.rx cf.rules [m] = [] ∧ sentAway cf.rx cf.rules [m] = [(k, textOf m)]) ∧
      (¬ Holds d m → routed cf.rx cf.rules [m] = [m] ∧ sentAway cf.rx cf.rules [m] = []) := by
    intro t m hm
    rw [hr]
    constructor
    · intro h; simp [routed, rewriteBy, sentAway, copiesBy, copies, outputs, h]
    · intro h; simp [routed, rewriteBy, sentAway, copiesBy, copies, outputs, h]
  obtain ⟨done, h1, h2, h3⟩ := relay_sum ops hq plugins cf hs hl ht hi w es key (fun t _ ts h x hx => by
    refine delivered_single h ?_ hx
    cases hm : parseMessage t with
    | none => simp [routedTexts, hm]
    | some m =>
      by_cases hh : Holds d m
      · simp [routedTexts, hm, (hrt t m hm).1 hh]
      · simp [routedTexts, hm, (hrt t m hm).2 hh])
  obtain ⟨qd, wa, hqd, hwa, hpa⟩ := finite_parts h1 hinc
  obtain ⟨done', h1', _, h3'⟩ := relay_sum ops' hq' plugins' cf' (by rw [hr']; simp) (by intro r h; rw [hr'] at h; cases h)
    (by intro r h; rw [hr'] at h; cases h) hi' w' es' key (fun t _ ts h x hx => by
      refine delivered_single h ?_ hx
      rw [hr']
      cases hm : parseMessage t <;> simp [routedTexts, hm, routed])
  have hmid : FiniteIncrements key (sentTo k a.sent) (if Holds d ⟨c!"c", key, []⟩ then qd else []) ∧
      FiniteIncrements key (routedTexts cf.rx cf.rules done) (if Holds d ⟨c!"c", key, []⟩ then [] else qd) := by
    rw [show a.sent = _ from h2]
    exact shared_increments hrt hqd
  obtain ⟨qt, wl, hqt, hwl, hpl⟩ := finite_parts hlink hmid.1
  obtain ⟨qd', wb, hqd', hwb, hpb⟩ := finite_parts h1' hqt
  have hsd : qd.Subperm qs := (List.sublist_append_left qd wa).subperm.trans hpa.subperm
  have hfields : ∀ fs, Holds d ⟨c!"c", key, fs⟩ ↔ Holds d ⟨c!"c", key, []⟩ := fun fs => holds_fields d ⟨c!"c", key, fs⟩ ⟨c!"c", key, []⟩ rfl rfl
  have ea : amount qs = amount qd + amount wa := by rw [← amount_append]; exact ((hpa.map _).sum_eq).symm
  have eb : amount qt = amount qd' + amount wb := by rw [← amount_append]; exact ((hpb.map _).sum_eq).symm
  have hnil : AddsUp c [] := addsUp_subperm (List.nil_subperm) hc
  have hzero : ∀ x : ℚ, |x - amount []| ≤ c * sizes [] → x = 0 := by
    intro x hx
    simp only [amount, sizes, List.map_nil, List.sum_nil, mul_zero, sub_zero] at hx
    exact abs_eq_zero.1 (le_antisymm hx (abs_nonneg _))
  by_cases hh : Holds d ⟨c!"c", key, []⟩
  · rw [if_pos hh] at hpl hmid
    rw [if_pos hh] at hmid
    have el : amount qd = amount qt + amount wl := by rw [← amount_append]; exact ((hpl.map _).sum_eq).symm
    have hsub : qd'.Subperm qs := ((List.sublist_append_left qd' wb).subperm.trans hpb.subperm).trans
      (((List.sublist_append_left qt wl).subperm.trans hpl.subperm).trans hsd)
    obtain ⟨x, hx1, hx2⟩ := h3 c [] hmid.2 hnil
    obtain ⟨y, hy1, hy2⟩ := h3' c qd' (by rw [hr']; exact norules_increments hqd') (addsUp_subperm hsub hc)
    refine ⟨wa, wb, wl, x, y, hwa, hwb, hwl, hx1, hy1, ?_, fun _ _ => hzero x hx2, fun fs h => absurd ((hfields fs).2 hh) h⟩
    rw [ea, el, eb, hzero x hx2, show 0 + y + amount wa + amount wb + amount wl - (amount qd' + amount wb + amount wl + amount wa) = y - amount qd' by ring]
    exact le_trans hy2 (mul_le_mul_of_nonneg_left (sizes_subperm hsub) hc0)
  · rw [if_neg hh] at hpl hmid
    rw [if_neg hh] at hmid
    have hl0 : qt = [] ∧ wl = [] := List.append_eq_nil_iff.1 hpl.eq_nil
    have hb0 : qd' = [] ∧ wb = [] := by rw [hl0.1] at hpb; exact List.append_eq_nil_iff.1 hpb.eq_nil
    obtain ⟨x, hx1, hx2⟩ := h3 c qd hmid.2 (addsUp_subperm hsd hc)
    obtain ⟨y, hy1, hy2⟩ := h3' c [] (by rw [hr']; rw [← hb0.1]; exact norules_increments hqd') hnil
    refine ⟨wa, wb, wl, x, y, hwa, hwb, hwl, hx1, hy1, ?_, fun fs h => absurd ((hfields fs).1 h) hh, fun _ _ => ⟨hzero y hy2, hb0.2, hl0.2⟩⟩
    rw [ea, hzero y hy2, hb0.2, hl0.2]
    have : amount ([] : List (ℚ × ℚ)) = 0 := rfl
    rw [this, show x + 0 + amount wa + 0 + 0 - (amount qd + amount wa) = x - amount qd by ring]
    exact le_trans hx2 (mul_le_mul_of_nonneg_left (sizes_subperm hsd) hc0)

end

/-! ## Examples -/

section
attribute [local instance] binary64 binary64_ieee

/-- Whole increments, and sampled ones, meet the conditions. -/
example : AddsUp 0 [(3, 1), (-5, 1), (2 ^ 52, 1)] := C125_whole _ (by
    intro p hp
    simp only [List.mem_cons, List.not_mem_nil, or_false] at hp
    rcases hp with rfl | rfl | rfl
    · exact ⟨rfl, 3, by norm_num⟩
    · exact ⟨rfl, -5, by norm_num⟩
    · exact ⟨rfl, 2 ^ 52, by norm_num⟩) (by simp only [sizes, List.map_cons, List.map_nil, List.sum_cons, List.sum_nil]; norm_num)

example : AddsUp (4 / 2 ^ 52) [(3, 1 / 8), (0, 1 / 2)] := by
  have := C125_moderate [((3 : ℚ), (1 / 8 : ℚ)), (0, 1 / 2)] (by
    have hp : (1 : ℚ) ≤ 2 ^ (397 : ℤ) := one_le_zpow₀ (by norm_num) (by norm_num)
    have hq : (2 : ℚ) ^ (-397 : ℤ) ≤ 1 := zpow_le_one_of_nonpos₀ (by norm_num) (by norm_num)
    have e1 : (2 : ℚ) ^ (400 : ℤ) = 8 * 2 ^ (397 : ℤ) := by
      rw [show (400 : ℤ) = 3 + 397 by norm_num, zpow_add₀ (by norm_num)]; congr 1
    have e2 : (2 : ℚ) ^ (-400 : ℤ) = 1 / 8 * 2 ^ (-397 : ℤ) := by
      rw [show (-400 : ℤ) = -3 + -397 by norm_num, zpow_add₀ (by norm_num)]; congr 1; norm_num
    unfold Moderate
    rw [e1, e2]
    generalize (2 : ℚ) ^ (397 : ℤ) = P at hp ⊢
    generalize (2 : ℚ) ^ (-397 : ℤ) = Q at hq ⊢
    intro p hp'
    simp only [List.mem_cons, List.not_mem_nil, or_false] at hp'
    rcases hp' with rfl | rfl
    · refine ⟨by norm_num, .inr ⟨?_, ?_⟩, .inr ⟨?_, ?_⟩⟩ <;> simp only [abs_of_pos (show (0 : ℚ) < 3 by norm_num), abs_of_pos (show (0 : ℚ) < 1 / 8 by norm_num)] <;> linarith
    · refine ⟨by norm_num, .inl rfl, .inr ⟨?_, ?_⟩⟩ <;> simp only [abs_of_pos (show (0 : ℚ) < 1 / 2 by norm_num)] <;> linarith) (by norm_num)
  norm_num at this ⊢
  exact this

/-- Three increments of one counter with a flush between them, in doubles. -/
example : let es : List Event := [.arrive c!"a:3|c", .arrive c!"a:4|c|@1", .spawn 10000 90, .advance 0, .arrive c!"a:5|c"]
    WholeSecondSpawns es ∧ FiniteIncrements c!"a" (arrivals es) [(3, 1), (4, 1), (5, 1)] := by
  refine ⟨?_, ?_⟩
  · intro i p h
    simp only [List.mem_cons, List.not_mem_nil, or_false, reduceCtorEq, false_or, Event.spawn.injEq] at h
    omega
  · exact .hit (increment_of (by decide +kernel)) (.hit (increment_of (by decide +kernel)) (.hit (increment_of (by decide +kernel)) .nil))

/-- Two services: the first hands the counters of `a.*` on, and one of its two datagrams is lost. -/
example : (takenIn (none : Option Str) [.receive c!"a.x:3|c"] ++ [c!"a.x:4|c"]).Perm (sentTo ⟨false, c!"h", 1⟩
    (App.run (messageProcessor noPlugins).proc
      (⟨exRx, [⟨.pathLike c!"a.*", .redirect ⟨false, c!"h", 1⟩⟩, ⟨.pathLike c!"a.*", .drop⟩], ⟨none, []⟩, 1000⟩ : AppConf Str) exWorld
      { ps := MPState.init noPlugins [] } [.receive c!"a.x:3|c", .receive c!"a.x:4|c", .turn 0, .turn 0]).sent) := by decide +kernel

end
end Txstatsd
