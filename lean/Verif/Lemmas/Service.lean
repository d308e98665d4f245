import Verif.Spec.Service
import Verif.Lemmas.Dict
import Mathlib.Tactic.Ring
import Mathlib.Tactic.Linarith

/-! Lemmas about the carbon client's statistics. -/

set_option linter.unusedSimpArgs false
set_option linter.unusedVariables false

namespace Txstatsd
open Spec

theorem Dict.find_filter_ne {V : Type} (d : Dict V) (k r : Str) :
    Dict.find (d.filter fun p => p.1 ≠ k) r = if r = k then none else Dict.find d r := by
  induction d with
  | nil => simp
  | cons p d ih =>
    by_cases hp : p.1 = k
    · rw [List.filter_cons_of_neg (by simp [hp]), ih]
      by_cases hr : r = k
      · simp [hr]
      · rw [if_neg hr, if_neg hr]
        have : p.1 ≠ r := by rw [hp]; exact fun h => hr h.symm
        simp [Dict.find, this]
    · rw [List.filter_cons_of_pos (by simp [hp])]
      by_cases hr : p.1 = r
      · subst hr
        simp [Dict.find, hp]
      · have h1 : Dict.find (p :: d.filter fun p => p.1 ≠ k) r = Dict.find (d.filter fun p => p.1 ≠ k) r := by
          simp [Dict.find, hr]
        have h2 : Dict.find (p :: d) r = Dict.find d r := by simp [Dict.find, hr]
        rw [h1, h2, ih]

theorem Dict.find_cons {V : Type} (k : Str) (v : V) (d : Dict V) (r : Str) :
    Dict.find ((k, v) :: d) r = if k = r then some v else Dict.find d r := by
  by_cases h : k = r <;> simp [Dict.find, h]

theorem ofDestination_iff (n : Str) : c!"destinations" <+: n ↔ OfDestination n :=
  ⟨fun ⟨t, h⟩ => ⟨t, h.symm⟩, fun ⟨t, h⟩ => ⟨t, h.symm⟩⟩

theorem ofDestination_uncolon {n : Str} (h : OfDestination n) : OfDestination (uncolon n) := by
  obtain ⟨t, rfl⟩ := h
  exact ⟨uncolon t, by unfold uncolon; rw [List.map_append]; rfl⟩

theorem uncolon_idem (n : Str) : uncolon (uncolon n) = uncolon n := by
  unfold uncolon
  rw [List.map_map]
  refine List.map_congr_left fun c _ => ?_
  by_cases h : c = ':' <;> simp [h]

theorem statLoop_spec {names : Str → Prop} (hu : Unambiguous names) :
    ∀ (rest pre : List (Str × ℤ)) (current stats : Dict ℤ),
      (∀ p ∈ pre ++ rest, names p.1) → Dict.Wf (pre ++ rest : Dict ℤ) →
      (∀ r v, current.find r = some v ↔
        Dict.find rest r = some v ∨ ∃ m, (m, v) ∈ pre ∧ OfDestination m ∧ uncolon m = r) →
      ∃ current' stats', statLoop current stats rest = .ok (current', stats') ∧
        (∀ r v, current'.find r = some v ↔ ∃ m, (m, v) ∈ pre ++ rest ∧ OfDestination m ∧ uncolon m = r) ∧
        ∀ n, stats'.find n = if n ∈ Dict.keys rest then some 0 else stats.find n
  | [], pre, current, stats, hn, hw, hc =>
    ⟨current, stats, rfl, fun r v => by rw [hc]; simp, fun n => by simp⟩
  | (n, x) :: rest, pre, current, stats, hn, hw, hc => by
    have hnr : n ∉ Dict.keys rest := by
      intro h
      unfold Dict.Wf at hw
      rw [Dict.keys_append, Dict.keys_cons, List.nodup_append] at hw
      exact (List.nodup_cons.mp hw.2.1).1 h
    have hnp : ∀ v, (n, v) ∉ pre := by
      intro v h
      unfold Dict.Wf at hw
      rw [Dict.keys_append, Dict.keys_cons, List.nodup_append] at hw
      exact hw.2.2 n (Dict.mem_keys_of_mem h) n (by simp) rfl
    have hnn : names n := hn (n, x) (by simp)
    have hhas : current.has n = true := by
      have := (hc n x).mpr (Or.inl (by rw [Dict.find_cons]; simp))
      unfold Dict.has
      rw [this]; rfl
    have hdel : current.del n = .ok (current.filter fun p => p.1 ≠ n) := by
      unfold Dict.del; rw [if_pos hhas]
    set cur1 : Dict ℤ := if c!"destinations" <+: n then Dict.put (current.filter fun p => p.1 ≠ n) (uncolon n) x
      else current.filter fun p => p.1 ≠ n with hcur1
    have hstep : statStep current stats n x = .ok (cur1, stats.put n 0) := by
      unfold statStep
      rw [hdel]
    have hkey : ∀ r v, Dict.find rest r = some v → names r := fun r v h =>
      hn (r, v) (List.mem_append_right _ (List.mem_cons_of_mem _ (Dict.mem_of_find h)))
    have hfil : ∀ r v, (Dict.find (current.filter fun p => p.1 ≠ n) r = some v ↔ r ≠ n ∧
        (Dict.find rest r = some v ∨ ∃ m, (m, v) ∈ pre ∧ OfDestination m ∧ uncolon m = r)) := by
      intro r v
      rw [Dict.find_filter_ne]
      by_cases hr : r = n
      · simp [hr]
      · rw [if_neg hr, hc, Dict.find_cons, if_neg (fun h => hr h.symm)]
        simp [hr]
    have hcur : ∀ r v, cur1.find r = some v ↔ Dict.find rest r = some v ∨
        ∃ m, (m, v) ∈ pre ++ [(n, x)] ∧ OfDestination m ∧ uncolon m = r := by
      intro r v
      by_cases hd : c!"destinations" <+: n
      · have hd' := (ofDestination_iff n).mp hd
        rw [hcur1, if_pos hd, Dict.find_put]
        by_cases hr : r = uncolon n
        · rw [if_pos hr]
          constructor
          · intro h
            cases h
            exact Or.inr ⟨n, by simp, hd', hr.symm⟩
          · rintro (h | ⟨m, hm, hdm, hmr⟩)
            · exfalso
              have : r = n := hu r n (hkey r v h) hnn (hr ▸ ofDestination_uncolon hd') hd'
                (show uncolon r = uncolon n by rw [hr, uncolon_idem])
              exact hnr (this ▸ Dict.mem_keys_of_mem (Dict.mem_of_find h))
            · have : m = n := hu m n (by
                rcases List.mem_append.mp hm with h | h
                · exact hn (m, v) (by simp [h])
                · rw [List.mem_singleton] at h; cases h; exact hnn) hnn hdm hd' (show uncolon m = uncolon n by rw [hmr, hr])
              subst this
              rcases List.mem_append.mp hm with h | h
              · exact absurd h (hnp v)
              · rw [List.mem_singleton] at h; cases h; rfl
        · rw [if_neg hr, hfil]
          constructor
          · rintro ⟨-, h | ⟨m, hm, h⟩⟩
            · exact Or.inl h
            · exact Or.inr ⟨m, by simp [hm], h⟩
          · rintro (h | ⟨m, hm, hdm, hmr⟩)
            · exact ⟨fun hrn => hnr (hrn ▸ Dict.mem_keys_of_mem (Dict.mem_of_find h)), Or.inl h⟩
            · rcases List.mem_append.mp hm with h | h
              · refine ⟨?_, Or.inr ⟨m, h, hdm, hmr⟩⟩
                rintro rfl
                have : m = r := hu m r (hn (m, v) (by simp [h])) hnn hdm hd'
                  (show uncolon m = uncolon r by rw [← hmr, uncolon_idem])
                subst this
                exact hnp v h
              · rw [List.mem_singleton] at h
                cases h
                exact absurd hmr.symm hr
      · have hd' : ¬ OfDestination n := fun h => hd ((ofDestination_iff n).mpr h)
        rw [hcur1, if_neg hd, hfil]
        constructor
        · rintro ⟨-, h | ⟨m, hm, h⟩⟩
          · exact Or.inl h
          · exact Or.inr ⟨m, by simp [hm], h⟩
        · rintro (h | ⟨m, hm, hdm, hmr⟩)
          · exact ⟨fun hrn => hnr (hrn ▸ Dict.mem_keys_of_mem (Dict.mem_of_find h)), Or.inl h⟩
          · rcases List.mem_append.mp hm with h | h
            · refine ⟨?_, Or.inr ⟨m, h, hdm, hmr⟩⟩
              rintro rfl
              exact hd' (hmr ▸ ofDestination_uncolon hdm)
            · rw [List.mem_singleton] at h
              cases h
              exact absurd hdm hd'
    obtain ⟨c', s', h1, h2, h3⟩ := statLoop_spec hu rest (pre ++ [(n, x)]) cur1 (stats.put n 0)
      (by simpa using hn) (by simpa using hw) hcur
    refine ⟨c', s', ?_, by simpa using h2, ?_⟩
    · rw [statLoop, hstep]
      exact h1
    · intro k
      rw [h3, Dict.find_put, Dict.keys_cons]
      by_cases hk : k ∈ Dict.keys rest
      · simp [hk]
      · by_cases hkn : k = n
        · simp [hkn]
        · simp [hk, hkn]

theorem reportClientStats_spec {names : Str → Prop} (hu : Unambiguous names) (stats : Dict ℤ)
    (hn : ∀ n ∈ stats.keys, names n) (hw : stats.Wf) :
    ∃ rep stats', reportClientStats stats = .ok (rep, stats') ∧
      (∀ r v, rep.find r = some v ↔ ∃ n, stats.find n = some v ∧ OfDestination n ∧ uncolon n = r) ∧
      ∀ n, stats'.find n = (stats.find n).map fun _ => 0 := by
  obtain ⟨c, s, h1, h2, h3⟩ := statLoop_spec hu stats [] stats stats
    (fun p hp => hn p.1 (Dict.mem_keys_of_mem (by simpa using hp))) hw (by simp)
  refine ⟨c, s, h1, ?_, ?_⟩
  · intro r v
    rw [h2]
    simp only [List.nil_append, Dict.mem_iff_find hw]
  · intro n
    rw [h3]
    split
    · rename_i h
      have := (Dict.find_isSome_iff stats n).mpr h
      rcases hf : stats.find n with _ | v
      · rw [hf] at this; simp at this
      · rfl
    · rename_i h
      rw [(Dict.find_eq_none stats n).mpr h]; rfl

theorem statLoop_wf : ∀ (rest : List (Str × ℤ)) {current stats c s : Dict ℤ},
    statLoop current stats rest = .ok (c, s) → stats.Wf → s.Wf ∧
      ∀ n, n ∈ s.keys → n ∈ stats.keys ∨ n ∈ Dict.keys rest
  | [], _, _, _, _, h, hw => by cases h; exact ⟨hw, fun n h => Or.inl h⟩
  | (n, x) :: rest, current, stats, c, s, h, hw => by
    rw [statLoop] at h
    split at h
    · exact absurd h (by simp)
    · rename_i c1 s1 h1
      unfold statStep at h1
      split at h1
      · exact absurd h1 (by simp)
      · cases h1
        obtain ⟨ha, hb⟩ := statLoop_wf rest h (Dict.wf_put hw n 0)
        refine ⟨ha, fun k hk => ?_⟩
        rcases hb k hk with h | h
        · rcases (Dict.mem_keys_put _ _ _ _).mp h with h | h
          · simp [h]
          · simp [h]
        · simp [h]

theorem find_bumps (bumps : List (Str × ℤ)) (stats : Dict ℤ) (n : Str) :
    ((bumps.foldl carbonBump stats).find n).getD 0 = (stats.find n).getD 0 + counted n bumps := by
  induction bumps generalizing stats with
  | nil => simp [counted]
  | cons b bs ih =>
    rw [List.foldl_cons, ih]
    unfold carbonBump counted
    rw [Dict.find_put]
    by_cases h : n = b.1
    · subst h
      simp [add_assoc]
    · rw [List.filter_cons_of_neg (by simpa using fun h' : b.1 = n => h h'.symm), if_neg h]

theorem wf_bumps (bumps : List (Str × ℤ)) (stats : Dict ℤ) (h : stats.Wf) : (bumps.foldl carbonBump stats).Wf := by
  induction bumps generalizing stats with
  | nil => exact h
  | cons b bs ih => exact ih _ (Dict.wf_put h _ _)

theorem keys_bumps (bumps : List (Str × ℤ)) (stats : Dict ℤ) (n : Str)
    (h : n ∈ (bumps.foldl carbonBump stats).keys) : n ∈ stats.keys ∨ ∃ b ∈ bumps, b.1 = n := by
  induction bumps generalizing stats with
  | nil => exact Or.inl h
  | cons b bs ih =>
    rcases ih _ h with h | ⟨b', hb, h⟩
    · rcases (Dict.mem_keys_put _ _ _ _).mp h with h | h
      · exact Or.inr ⟨b, by simp, h.symm⟩
      · exact Or.inl h
    · exact Or.inr ⟨b', by simp [hb], h⟩

theorem statRounds_spec {names : Str → Prop} (hu : Unambiguous names) {n : Str} (hn : OfDestination n) :
    ∀ (rounds : List (List (Str × ℤ))) (stats : Dict ℤ), stats.Wf → (∀ n ∈ stats.keys, names n) → names n →
      (∀ r ∈ rounds, ∀ b ∈ r, names b.1) →
      ∃ reps final, statRounds stats rounds = .ok (reps, final) ∧
        (reps.map fun rep => (rep.find (uncolon n)).getD 0).sum + (final.find n).getD 0
          = (stats.find n).getD 0 + (rounds.map (counted n)).sum
  | [], stats, _, _, _, _ => ⟨[], stats, rfl, by simp⟩
  | bumps :: rest, stats, hw, hk, hnn, hr => by
    have hw1 := wf_bumps bumps stats hw
    have hk1 : ∀ m ∈ (bumps.foldl carbonBump stats).keys, names m := by
      intro m hm
      rcases keys_bumps _ _ _ hm with h | ⟨b, hb, rfl⟩
      · exact hk m h
      · exact hr bumps (by simp) b hb
    obtain ⟨rep, st', h1, h2, h3⟩ := reportClientStats_spec hu _ hk1 hw1
    obtain ⟨hw2, hk2⟩ := statLoop_wf _ h1 hw1
    obtain ⟨reps, fin, h4, h5⟩ := statRounds_spec hu hn rest st' hw2
      (fun m hm => hk1 m (by rcases hk2 m hm with h | h <;> exact h)) hnn (fun r hr' => hr r (by simp [hr']))
    refine ⟨rep :: reps, fin, ?_, ?_⟩
    · rw [statRounds, h1]
      simp only [h4]
    · have hz : (st'.find n).getD 0 = 0 := by rw [h3]; cases (bumps.foldl carbonBump stats).find n <;> rfl
      have hrep : (rep.find (uncolon n)).getD 0 = ((bumps.foldl carbonBump stats).find n).getD 0 := by
        rcases hf : (bumps.foldl carbonBump stats).find n with _ | v
        · rcases hg : rep.find (uncolon n) with _ | w
          · rfl
          · obtain ⟨m, hm1, hm2, hm3⟩ := (h2 _ _).mp hg
            have := hu m n (hk1 m (Dict.mem_keys_of_mem (Dict.mem_of_find hm1))) hnn hm2 hn hm3
            rw [this, hf] at hm1
            exact absurd hm1 (by simp)
        · rw [(h2 (uncolon n) v).mpr ⟨n, hf, hn, rfl⟩]
      rw [List.map_cons, List.sum_cons, List.map_cons, List.sum_cons, hrep, find_bumps]
      rw [hz] at h5
      linarith

end Txstatsd
