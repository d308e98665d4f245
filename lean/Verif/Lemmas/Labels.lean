import Verif.Spec.Labels
import Verif.Lemmas.Sli
import Verif.Lemmas.PluginFlow

set_option linter.unusedSectionVars false
set_option linter.unusedSimpArgs false
set_option linter.unusedVariables false

/-!
# Lemmas for C175
-/

namespace Txstatsd
open Spec
section
variable [Rounding]

theorem put_each {V : Type} (P : Str × V → Prop) {d : Dict V} (hd : ∀ p ∈ d, P p) {k : Str} {v : V} (hk : P (k, v)) :
    ∀ p ∈ d.put k v, P p := by
  induction d with
  | nil => intro p hp; simp [Dict.put] at hp; rw [hp]; exact hk
  | cons a d ih =>
    obtain ⟨k', v'⟩ := a
    intro p hp
    simp only [Dict.put] at hp
    split_ifs at hp with h
    · rcases List.mem_cons.1 hp with rfl | hp
      · subst h; exact hk
      · exact hd p (List.mem_cons_of_mem _ hp)
    · rcases List.mem_cons.1 hp with rfl | hp
      · exact hd _ List.mem_cons_self
      · exact ih (fun q hq => hd q (List.mem_cons_of_mem _ hq)) p hp

theorem old_each {V : Type} (P : Str × V → Prop) {d : Dict (Dict V)} (hd : ∀ p ∈ d, ∀ q ∈ p.2, P q) (k : Str) :
    ∀ q ∈ (d.find k).getD [], P q := by
  cases h : d.find k with
  | none => simp
  | some o => exact hd (k, o) (Dict.mem_of_find h)

theorem old_wf {V : Type} {d : Dict (Dict V)} (hd : ∀ p ∈ d, p.2.Wf) (k : Str) : ((d.find k).getD []).Wf := by
  cases h : d.find k with
  | none => exact Dict.wf_nil
  | some o => exact hd (k, o) (Dict.mem_of_find h)

theorem readRules_rule {cfg : SliConfig} (h : ReadRules cfg) (line : Str) : ReadRules (configureRule cfg line).1 := by
  unfold configureRule
  split
  · exact h
  · next head label cname params hm =>
    have hr := (matchRule_iff _ _ _ _ _).1 hm
    have ho := old_each (fun kc : Str × SliCond => kc.1 ≠ [] ∧ ∀ c ∈ kc.1, c ∈ wordChars) (fun p hp => (h.2 p hp).2.2.2) head
    have hw := old_wf (fun p hp => (h.2 p hp).2.2.1) head
    simp only
    split
    · refine ⟨Dict.wf_put h.1 _ _, put_each _ h.2 ⟨hr.head_ne, hr.head_ok, hw, ho⟩⟩
    · refine ⟨Dict.wf_put h.1 _ _, put_each _ h.2 ⟨hr.head_ne, hr.head_ok, Dict.wf_put hw _ _, ?_⟩⟩
      exact put_each _ ho ⟨hr.label_ne, hr.label_ok⟩

theorem readRules_rules : ∀ (lines : List Str) {cfg : SliConfig}, ReadRules cfg → ReadRules (configureRules cfg lines).1
  | [], cfg, h => h
  | l :: ls, cfg, h => by
    have h1 := readRules_rule h l
    rw [configureRules]
    cases hc : configureRule cfg l with
    | mk c' e =>
      rw [hc] at h1
      cases e with
      | some e => exact h1
      | none => exact readRules_rules ls h1

theorem buildCond_reporter {kind : Str} {params : List Str} {c : SliCond} (h : buildCond kind params = .ok c) (hk : kind ≠ c!"metric") :
    c ≠ .reporter := by
  intro hc
  subst hc
  unfold buildCond at h
  simp only [if_neg hk] at h
  split_ifs at h <;> split at h <;> simp [bind, Except.bind] at h <;> (repeat' split at h) <;> simp at h

/-- No condition of the configuration is a reporter. -/
def NoReporters (cfg : SliConfig) : Prop := ∀ pc ∈ cfg, ∀ kc ∈ pc.2, kc.2 ≠ SliCond.reporter

theorem noReporters_rule {cfg : SliConfig} (h : NoReporters cfg) {line : Str}
    (hl : ∀ head label params, ¬ RuleLine line head label c!"metric" params) : NoReporters (configureRule cfg line).1 := by
  unfold configureRule
  split
  · exact h
  · next head label cname params hm =>
    have hr := (matchRule_iff _ _ _ _ _).1 hm
    have ho := old_each (fun kc : Str × SliCond => kc.2 ≠ SliCond.reporter) h head
    have hne : cname ≠ c!"metric" := by rintro rfl; exact hl _ _ _ hr
    simp only
    split
    · exact put_each (fun pc : Str × Dict SliCond => ∀ kc ∈ pc.2, kc.2 ≠ SliCond.reporter) h ho
    · next c hc =>
      exact put_each (fun pc : Str × Dict SliCond => ∀ kc ∈ pc.2, kc.2 ≠ SliCond.reporter) h
        (put_each (fun kc : Str × SliCond => kc.2 ≠ SliCond.reporter) ho (buildCond_reporter hc hne))

theorem noReporters_rules : ∀ (lines : List Str) {cfg : SliConfig}, NoReporters cfg →
    (∀ line ∈ lines, ∀ head label params, ¬ RuleLine line head label c!"metric" params) → NoReporters (configureRules cfg lines).1
  | [], cfg, h, _ => h
  | l :: ls, cfg, h, hl => by
    have h1 := noReporters_rule h (hl l List.mem_cons_self)
    rw [configureRules]
    cases hc : configureRule cfg l with
    | mk c' e =>
      rw [hc] at h1
      cases e with
      | some e => exact h1
      | none => exact noReporters_rules ls h1 fun x hx => hl x (List.mem_cons_of_mem _ hx)

theorem updateWith_each {V : Type} (P : Str × V → Prop) : ∀ (e d : Dict V), (∀ p ∈ d, P p) → (∀ p ∈ e, P p) → ∀ p ∈ updateWith d e, P p
  | [], d, hd, _ => hd
  | x :: e, d, hd, he => by
    have := updateWith_each P e (d.put x.1 x.2) (put_each P hd (he x List.mem_cons_self)) fun p hp => he p (List.mem_cons_of_mem _ hp)
    exact this

theorem updateWith_nodup {V : Type} : ∀ (e d : Dict V), d.Wf → (updateWith d e).Wf
  | [], d, hd => hd
  | x :: e, d, hd => updateWith_nodup e (d.put x.1 x.2) (Dict.wf_put hd _ _)

theorem gather_proper (path : Str) : ∀ (cfg : SliConfig) (r : Dict SliCond), NoReporters cfg → ProperConditions r →
    ProperConditions (gather path cfg r)
  | [], r, _, hr => hr
  | pc :: cfg, r, hc, hr => by
    have hc' : NoReporters cfg := fun x hx => hc x (List.mem_cons_of_mem _ hx)
    unfold gather
    rw [List.foldl_cons]
    refine gather_proper path cfg _ hc' ?_
    split
    · exact ⟨updateWith_nodup _ _ hr.1, updateWith_each (fun kc : Str × SliCond => kc.2 ≠ SliCond.reporter) _ _ hr.2 (hc pc List.mem_cons_self)⟩
    · exact hr

end
end Txstatsd
