import Verif.Lemmas.ShippedLife
import Verif.Props.Relay
import Verif.Props.Interleaved

set_option linter.unusedSectionVars false
set_option linter.unusedSimpArgs false
set_option linter.unusedVariables false

/-!
# Lemmas for C172: where the points of a service come from
-/

namespace Txstatsd
open Spec

section
variable [Rounding] {C T G PF PM R : Type}

theorem textFree_configurable (ops : PluginOps PF PM) (pre int : Str) : TextFree (configurable ops pre int) := by
  intro w s key fields msg msg'
  show (processCounterC _ s key _ msg).1 = (processCounterC _ s key _ msg').1 ∧
    (processCounterC _ s key _ msg).2.exc = (processCounterC _ s key _ msg').2.exc
  unfold processCounterC
  split <;> exact ⟨rfl, rfl⟩

/-- A point that a server has sent was sent before, or by one of the running flushes, or by one that was started since. -/
theorem out_emits (I : Impl C T G PF PM) (w : World) : ∀ (es : List Event) (v : Server C T G PF PM) (d : Datapoint), d ∈ (v.run I w es).out →
    d ∈ v.out ∨ (∃ i, i < v.gens.length ∧ d ∈ emits I w i v es) ∨
      ∃ es1 a b es2, es = es1 ++ .spawn a b :: es2 ∧
        d ∈ emits I w (v.run I w es1).gens.length (v.run I w (es1 ++ [.spawn a b])) es2
  | [], v, d, hd => .inl hd
  | e :: es, v, d, hd => by
    have hd' : d ∈ ((v.step I w e).run I w es).out := hd
    rcases out_emits I w es (v.step I w e) d hd' with h | ⟨i, hi, h⟩ | ⟨es1, a, b, es2, rfl, h⟩
    · cases e with
      | arrive m => exact .inl h
      | spawn a b => exact .inl h
      | advance i =>
        simp only [Server.step] at h
        cases hg : v.gens[i]? with
        | none => rw [hg] at h; exact .inl h
        | some g =>
          rw [hg] at h
          simp only [List.mem_append] at h
          rcases h with h | h
          · exact .inl h
          · refine .inr (.inl ⟨i, (List.getElem?_eq_some_iff.1 hg).1, ?_⟩)
            simp only [emits, hg, if_true, List.mem_append]
            exact .inl h
    · have hmem : d ∈ emits I w i v (e :: es) := by
        simp only [emits, List.mem_append]
        exact .inr h
      cases e with
      | arrive m => exact .inr (.inl ⟨i, hi, hmem⟩)
      | advance j =>
        refine .inr (.inl ⟨i, ?_, hmem⟩)
        simp only [Server.step] at hi
        cases hg : v.gens[j]? with
        | none => rw [hg] at hi; exact hi
        | some g => rw [hg] at hi; simpa using hi
      | spawn a b =>
        by_cases hl : i < v.gens.length
        · exact .inr (.inl ⟨i, hl, hmem⟩)
        · have : i = v.gens.length := by
            simp only [Server.step, List.length_append, List.length_singleton] at hi
            omega
          subst this
          exact .inr (.inr ⟨[], a, b, es, rfl, h⟩)
    · exact .inr (.inr ⟨e :: es1, a, b, es2, rfl, h⟩)

/-- What holds of the points of every flush holds of all points that a server sends. -/
theorem out_about (I : Impl C T G PF PM) (w : World) (s : PS C T G PF PM) (B : List Str → Datapoint → Prop)
    (hB : ∀ (es es' : List Event) (i : Nat) (a b : ℤ), ((startUp s).run I w es).gens[i]? = some ⟨a, b, .fresh⟩ →
      ∀ d ∈ emits I w i ((startUp s).run I w es) es', ∃ es1 es2, es' = es1 ++ es2 ∧ B (arrivals es ++ arrivals es1) d)
    (es : List Event) (d : Datapoint) (hd : d ∈ ((startUp s).run I w es).out) : ∃ es1 es2, es = es1 ++ es2 ∧ B (arrivals es1) d := by
  rcases out_emits I w es (startUp s) d hd with h | ⟨i, hi, -⟩ | ⟨es1, a, b, es2, rfl, h⟩
  · cases h
  · exact absurd hi (by simp [startUp])
  · have hrun : (startUp s).run I w (es1 ++ [.spawn a b]) = ((startUp s).run I w es1).step I w (.spawn a b) := by
      simp [Server.run, List.foldl_append]
    have hg : ((startUp s).run I w (es1 ++ [.spawn a b])).gens[((startUp s).run I w es1).gens.length]? = some ⟨a, b, .fresh⟩ := by
      rw [hrun]
      simp [Server.step]
    obtain ⟨e1, e2, he, h⟩ := hB _ es2 _ a b hg d h
    refine ⟨es1 ++ .spawn a b :: e1, e2, by simp [he], ?_⟩
    have : arrivals (es1 ++ .spawn a b :: e1) = arrivals (es1 ++ [.spawn a b]) ++ arrivals e1 := by simp [arrivals]
    rw [this]
    exact h

/-- The same for a service without rules. -/
theorem app_about (I : Impl C T G PF PM) (hI : TextFree I) (cf : AppConf R) (hr : cf.rules = []) (w : World) (s : PS C T G PF PM)
    (B : List Str → Datapoint → Prop)
    (hB : ∀ (es es' : List Event) (i : Nat) (a b : ℤ), ((startUp s).run I w es).gens[i]? = some ⟨a, b, .fresh⟩ →
      ∀ d ∈ emits I w i ((startUp s).run I w es) es', ∃ es1 es2, es' = es1 ++ es2 ∧ B (arrivals es ++ arrivals es1) d)
    (es : List AppEvent) (d : Datapoint) (hd : d ∈ (App.run I.proc cf w { ps := s } es).out) :
    ∃ done, done.Subperm (takenIn cf.monitor.message es) ∧ B done d := by
  obtain ⟨es', h1, -, -, -, h2⟩ := C92_processed_once I hI cf hr w s es
  rw [h2] at hd
  obtain ⟨es1, es2, rfl, h⟩ := out_about I w s B hB es' d hd
  refine ⟨arrivals es1, ?_, h⟩
  refine List.Subperm.trans ?_ h1.subperm
  have : arrivals (es1 ++ es2) = arrivals es1 ++ arrivals es2 := by simp [arrivals]
  rw [this, List.append_assoc]
  exact (List.sublist_append_left _ _).subperm

theorem flatMap_prefix {α β : Type} {f : α → List β} : ∀ {l : List (α × List β)}, (∀ p ∈ l, p.2 <+: f p.1) →
    (l.flatMap Prod.snd).Sublist ((l.map Prod.fst).flatMap f)
  | [], _ => by simp
  | p :: l, h => by
    simp only [List.flatMap_cons, List.map_cons]
    exact (h p (by simp)).sublist.append (flatMap_prefix fun q hq => h q (by simp [hq]))

/-- The same for a service with rules: the messages are those that the rules make. -/
theorem app_about_rules (I : Impl C T G PF PM) (hI : TypeFree I) (cf : AppConf R) (hs : ∀ r ∈ cf.rules, Spec.Sound cf.rx r)
    (hl : LegalRewrites cf.rx cf.rules) (ht : KnownTypes cf.rules) (w : World) (s : PS C T G PF PM) (B : List Str → Datapoint → Prop)
    (hB : ∀ (es es' : List Event) (i : Nat) (a b : ℤ), ((startUp s).run I w es).gens[i]? = some ⟨a, b, .fresh⟩ →
      ∀ d ∈ emits I w i ((startUp s).run I w es) es', ∃ es1 es2, es' = es1 ++ es2 ∧ B (arrivals es ++ arrivals es1) d)
    (es : List AppEvent) (d : Datapoint) (hd : d ∈ (App.run I.proc cf w { ps := s } es).out) :
    ∃ done, done.Subperm (routedTexts cf.rx cf.rules (takenIn cf.monitor.message es)) ∧ B done d := by
  obtain ⟨es', done, h1, h2, h3, -, -, -, h4, -⟩ := C119_served I hI cf hs hl ht w s es
  rw [h4] at hd
  obtain ⟨es1, es2, rfl, h⟩ := out_about I w s B hB es' d hd
  refine ⟨arrivals es1, ?_, h⟩
  have e : arrivals (es1 ++ es2) = arrivals es1 ++ arrivals es2 := by simp [arrivals]
  have k1 : (arrivals es1).Sublist (done.flatMap Prod.snd) := by
    rw [← h2, e]
    exact List.sublist_append_left _ _
  have k2 := flatMap_prefix (f := fun t => routedTexts cf.rx cf.rules [t]) (l := done) fun p hp => (h3 p hp).1
  have k3 : (done.map Prod.fst).flatMap (fun t => routedTexts cf.rx cf.rules [t]) = routedTexts cf.rx cf.rules (done.map Prod.fst) := by
    simp [routedTexts, List.flatMap_map, List.flatMap_cons, List.flatMap_nil]
  rw [k3] at k2
  refine (k1.trans k2).subperm.trans ?_
  have k4 : (routedTexts cf.rx cf.rules (done.map Prod.fst) ++ routedTexts cf.rx cf.rules
      (App.run I.proc cf w { ps := s } es).scheduled).Perm (routedTexts cf.rx cf.rules (takenIn cf.monitor.message es)) := by
    unfold routedTexts
    rw [← List.flatMap_append]
    exact h1.flatMap_right _
  exact (List.sublist_append_left _ _).subperm.trans k4.subperm

theorem prefix_of_name {pre k suffix n : Str} (h : n = prefixed pre k suffix) : pre <+: n ∧ (pre ≠ [] → pre ++ c!"." <+: n) := by
  subst h
  unfold prefixed
  split
  · next h => subst h; exact ⟨List.nil_prefix, fun h => absurd rfl h⟩
  · refine ⟨⟨'.' :: (k ++ suffix), by simp⟩, fun _ => ⟨k ++ suffix, by simp⟩⟩

variable [Power]

/-- Names of the points of the shipped plugins begin with the prefix. -/
theorem plugin_prefix {w : World} {P : Dict Factory} {pre : Str} {msgs : List Str} {d : Datapoint}
    (h : ByPlugin shippedOps w P (fun _ => pre) msgs d) : pre <+: d.name ∧ (pre ≠ [] → pre.getLast? ≠ some '.' → pre ++ c!"." <+: d.name) := by
  obtain ⟨key, m, t, gs, n, secs, ts, hl, -, hd⟩ := h
  obtain ⟨z, hz | hz⟩ := shipped_points (life_came hl) hd
  · rw [hz]
    unfold sliPath
    split
    · next h => subst h; exact ⟨List.nil_prefix, fun h => absurd rfl h⟩
    · split
      · next h => exact ⟨⟨key ++ '.' :: z, by simp⟩, fun _ h' => absurd h h'⟩
      · exact ⟨⟨'.' :: (key ++ '.' :: z), by simp⟩, fun _ _ => ⟨key ++ '.' :: z, by simp⟩⟩
  · obtain ⟨h1, h2⟩ := prefix_of_name hz
    exact ⟨h1, fun h _ => h2 h⟩

theorem plugin_stats {w : World} {P : Dict Factory} {msgs : List Str} {d : Datapoint}
    (h : ByPlugin shippedOps w P statsPrefix msgs d) : c!"stats." <+: d.name := by
  obtain ⟨key, m, t, gs, n, secs, ts, hl, -, hd⟩ := h
  obtain ⟨z, hz | hz⟩ := shipped_points (life_came hl) hd
  · refine ⟨c!"SLI." ++ key ++ '.' :: z, ?_⟩
    rw [hz]
    rfl
  · refine ⟨c!"pdistinct." ++ key ++ '.' :: z, ?_⟩
    rw [hz]
    rfl

theorem aboutD_names {B : Datapoint → Prop} {msgs : List Str} {d : Datapoint} (h : AboutD B msgs d) (hB : B d → c!"stats." <+: d.name) :
    c!"stats." <+: d.name ∨ c!"stats_counts." <+: d.name ∨ c!"statsd." <+: d.name := by
  rcases h with ⟨k, -, h | h⟩ | ⟨k, -, h⟩ | ⟨k, v, -, h, -⟩ | ⟨k, -, h | ⟨h, -⟩⟩ | h | h
  · exact .inl ⟨k, h.symm⟩
  · exact .inr (.inl ⟨k, h.symm⟩)
  · left
    simp only [ofTimer, Bool.and_eq_true, List.isPrefixOf_iff_prefix] at h
    exact List.IsPrefix.trans ⟨c!"timers." ++ k ++ c!".", by rfl⟩ h.1
  · exact .inl ⟨c!"gauge." ++ k ++ c!".value", by rw [h]; rfl⟩
  · exact .inl ⟨c!"meter." ++ k ++ c!".rate", by rw [h]; rfl⟩
  · exact .inl ⟨c!"meter." ++ k ++ c!".count", by rw [h]; rfl⟩
  · exact .inr (.inr h)
  · exact .inl (hB h)

theorem aboutC_names {B : Datapoint → Prop} {pre self : Str} {msgs : List Str} {d : Datapoint} (h : AboutC B pre self msgs d) :
    (∃ k suffix, d.name = prefixed pre k suffix) ∨ self <+: d.name ∨ B d := by
  rcases h with ⟨k, _, _, -, -, h, -⟩ | ⟨k, _, -, h, -⟩ | ⟨k, s, -, -, h⟩ | ⟨k, -, h | ⟨h, -⟩⟩ | h | h
  · exact .inl ⟨_, _, h⟩
  · exact .inl ⟨_, _, h⟩
  · exact .inl ⟨_, _, h⟩
  · exact .inl ⟨_, _, h⟩
  · exact .inl ⟨_, _, h⟩
  · exact .inr (.inl h)
  · exact .inr (.inr h)

end
end Txstatsd
