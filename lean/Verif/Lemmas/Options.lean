import Verif.Model.Options
import Verif.Lemmas.Dict

/-! Lemmas about options. -/

set_option linter.unusedSimpArgs false
set_option linter.unusedVariables false

namespace Txstatsd

theorem dispatchOpt_find {d : OptDecl} {v v' : Dict OptVal} {arg : Str} (h : dispatchOpt d v arg = .ok v')
    {name : Str} (hn : name ≠ d.long) : v'.find name = v.find name := by
  unfold dispatchOpt at h
  split at h
  · cases h; exact Dict.find_put_ne _ _ hn
  · split at h
    · exact absurd h (by simp)
    · cases h; exact Dict.find_put_ne _ _ hn
  · cases h; exact Dict.find_put_ne _ _ hn
  · split at h
    · exact absurd h (by simp)
    · cases h; exact Dict.find_put_ne _ _ hn

theorem coerceOption_overridden {decls : List OptDecl} {st st' : Opts} {n v : Str}
    (h : coerceOption decls st n v = .ok st') : st'.overridden = st.overridden := by
  unfold coerceOption at h
  split at h
  · cases h; rfl
  · split at h
    · cases h; rfl
    · split at h
      · exact absurd h (by simp)
      · cases h; rfl

theorem find_decl_long {decls : List OptDecl} {n : Str} {d : OptDecl}
    (h : (decls.find? fun d => decide (d.long = n)) = some d) : d.long = n := by
  have := List.find?_some h
  simpa using this

theorem coerceOption_find {decls : List OptDecl} {st st' : Opts} {n v name : Str}
    (h : coerceOption decls st n v = .ok st') (hn : name ∈ st.overridden ∨ name ≠ n) :
    st'.values.find name = st.values.find name := by
  unfold coerceOption at h
  split at h
  · cases h; rfl
  · rename_i hno
    split at h
    · cases h; rfl
    · rename_i d hd
      split at h
      · exact absurd h (by simp)
      · rename_i vs hvs
        cases h
        refine dispatchOpt_find hvs ?_
        rw [find_decl_long hd]
        rintro rfl
        rcases hn with h | h
        · exact hno h
        · exact h rfl

theorem coerceItems_overridden {decls : List OptDecl} : ∀ {l : List (Str × Str)} {st st' : Opts},
    coerceItems decls st l = .ok st' → st'.overridden = st.overridden
  | [], _, _, h => by cases h; rfl
  | (n, v) :: l, st, st', h => by
    rw [coerceItems] at h
    split at h
    · exact absurd h (by simp)
    · rename_i s1 h1
      rw [coerceItems_overridden h, coerceOption_overridden h1]

theorem coerceItems_find {decls : List OptDecl} {name : Str} : ∀ {l : List (Str × Str)} {st st' : Opts},
    coerceItems decls st l = .ok st' → (name ∈ st.overridden ∨ ∀ p ∈ l, name ≠ p.1) →
    st'.values.find name = st.values.find name
  | [], _, _, h, _ => by cases h; rfl
  | (n, v) :: l, st, st', h, hn => by
    rw [coerceItems] at h
    split at h
    · exact absurd h (by simp)
    · rename_i s1 h1
      rw [coerceItems_find h, coerceOption_find h1]
      · exact hn.imp id fun h => h (n, v) (by simp)
      · rw [coerceOption_overridden h1]
        exact hn.imp id fun h p hp => h p (by simp [hp])

theorem coerceItems_append {decls : List OptDecl} : ∀ (a b : List (Str × Str)) (st : Opts),
    coerceItems decls st (a ++ b) = (match coerceItems decls st a with
      | .error e => .error e
      | .ok st => coerceItems decls st b)
  | [], b, st => rfl
  | (n, v) :: a, b, st => by
    rw [List.cons_append, coerceItems, coerceItems]
    split
    · rfl
    · exact coerceItems_append a b _

theorem configureSection_overridden {decls : List OptDecl} {sec : Str × List (Str × Str)} {st st' : Opts}
    (h : configureSection decls st sec = .ok st') : st'.overridden = st.overridden := by
  unfold configureSection at h
  by_cases hp : c!"plugin_" <+: sec.1 <;> by_cases hc : c!"carbon-cache" <+: sec.1
    <;> simp only [hp, hc, if_true, if_false] at h
  · have := coerceItems_overridden h
    exact this
  · cases h; rfl
  · exact coerceItems_overridden h
  · cases h; rfl

theorem configureSection_find {decls : List OptDecl} {sec : Str × List (Str × Str)} {st st' : Opts} {name : Str}
    (h : configureSection decls st sec = .ok st') (hp : ¬ c!"plugin_" <+: name)
    (hn : name ∈ st.overridden ∨ (c!"carbon-cache" <+: sec.1 → ∀ p ∈ sec.2, name ≠ p.1)) :
    st'.values.find name = st.values.find name := by
  unfold configureSection at h
  have hput : c!"plugin_" <+: sec.1 → (st.values.put sec.1 (.items sec.2)).find name = st.values.find name :=
    fun h1 => Dict.find_put_ne _ _ (by rintro rfl; exact hp h1)
  by_cases hp' : c!"plugin_" <+: sec.1 <;> by_cases hc : c!"carbon-cache" <+: sec.1
    <;> simp only [hp', hc, if_true, if_false] at h
  · rw [coerceItems_find h (hn.imp id fun h => h hc)]
    exact hput hp'
  · cases h; exact hput hp'
  · exact coerceItems_find h (hn.imp id fun h => h hc)
  · cases h; rfl

theorem configureSections_overridden {decls : List OptDecl} : ∀ {cfg : Config} {st st' : Opts},
    configureSections decls st cfg = .ok st' → st'.overridden = st.overridden
  | [], _, _, h => by cases h; rfl
  | sec :: cfg, st, st', h => by
    rw [configureSections] at h
    split at h
    · exact absurd h (by simp)
    · rename_i s1 h1
      rw [configureSections_overridden h, configureSection_overridden h1]

theorem configureSections_find {decls : List OptDecl} {name : Str} : ∀ {cfg : Config} {st st' : Opts},
    configureSections decls st cfg = .ok st' → ¬ c!"plugin_" <+: name →
    (name ∈ st.overridden ∨ ∀ sec ∈ cfg, c!"carbon-cache" <+: sec.1 → ∀ p ∈ sec.2, name ≠ p.1) →
    st'.values.find name = st.values.find name
  | [], _, _, h, _, _ => by cases h; rfl
  | sec :: cfg, st, st', h, hp, hn => by
    rw [configureSections] at h
    split at h
    · exact absurd h (by simp)
    · rename_i s1 h1
      rw [configureSections_find h hp, configureSection_find h1 hp]
      · exact hn.imp id fun h => h _ (by simp)
      · rw [configureSection_overridden h1]
        exact hn.imp id fun h s hs => h s (by simp [hs])

theorem configureFile_find {decls : List OptDecl} {main name : Str} {cfg : Config} {st st' : Opts}
    (h : configureFile decls main st cfg = .ok st') (hp : ¬ c!"plugin_" <+: name) (hn : name ∈ st.overridden) :
    st'.values.find name = st.values.find name := by
  unfold configureFile at h
  split at h
  · exact absurd h (by simp)
  · split at h
    · exact absurd h (by simp)
    · rename_i s1 h1
      rw [configureSections_find h hp (Or.inl (by rw [coerceItems_overridden h1]; exact hn)),
        coerceItems_find h1 (Or.inl hn)]

theorem configureFile_last {decls : List OptDecl} {main name v : Str} {cfg : Config} {st st' : Opts}
    {d : OptDecl} {a b : List (Str × Str)}
    (h : configureFile decls main st cfg = .ok st') (hp : ¬ c!"plugin_" <+: name) (hn : name ∉ st.overridden)
    (hd : (decls.find? fun d => decide (d.long = name)) = some d)
    (hmain : Dict.find cfg main = some (a ++ (name, v) :: b)) (hb : ∀ p ∈ b, name ≠ p.1)
    (hc : ∀ sec ∈ cfg, c!"carbon-cache" <+: sec.1 → ∀ p ∈ sec.2, name ≠ p.1) :
    ∃ before after, dispatchOpt d before v = .ok after ∧ st'.values.find name = after.find name ∧
      ((∀ p ∈ a, name ≠ p.1) → before.find name = st.values.find name) := by
  unfold configureFile at h
  rw [hmain] at h
  simp only at h
  split at h
  · exact absurd h (by simp)
  · rename_i s1 h1
    rw [coerceItems_append] at h1
    split at h1
    · exact absurd h1 (by simp)
    · rename_i s2 h2
      rw [coerceItems] at h1
      split at h1
      · exact absurd h1 (by simp)
      · rename_i s3 h3
        have h2o := coerceItems_overridden h2
        have h3f := h3
        unfold coerceOption at h3
        rw [if_neg (by rw [h2o]; exact hn), hd] at h3
        simp only at h3
        split at h3
        · exact absurd h3 (by simp)
        · rename_i vs hvs
          cases h3
          refine ⟨_, _, hvs, ?_, fun ha => coerceItems_find h2 (Or.inr ha)⟩
          rw [configureSections_find h hp (Or.inr fun sec hs => hc sec ?_), coerceItems_find h1 (Or.inr hb)]
          exact (List.mem_insertionSort _).mp hs

theorem dispatchOpt_text {d : OptDecl} {b a : Dict OptVal} {v : Str} (hk : d.kind = .text)
    (h : dispatchOpt d b v = .ok a) : a.find d.long = some (.text v) := by
  unfold dispatchOpt at h
  rw [hk] at h
  cases h
  exact Dict.find_put_self _ _ _

theorem dispatchOpt_int {d : OptDecl} {b a : Dict OptVal} {v : Str} (hk : d.kind = .int)
    (h : dispatchOpt d b v = .ok a) : ∃ z, parseInt v = some z ∧ a.find d.long = some (.int z) := by
  unfold dispatchOpt at h
  rw [hk] at h
  simp only at h
  split at h
  · exact absurd h (by simp)
  · rename_i z hz
    cases h
    exact ⟨z, hz, Dict.find_put_self _ _ _⟩

theorem parseCmd_overridden {decls : List OptDecl} {st st' : Opts} {os : List CmdOpt}
    (h : parseCmd decls st os = .ok st') : st'.overridden = st.overridden ++ os.map CmdOpt.name := by
  unfold parseCmd at h
  split at h
  · exact absurd h (by simp)
  · cases h; rfl

theorem resolveOpt_short {decls : List OptDecl} {o : CmdOpt} {d : OptDecl} (ho : o.isLong = false)
    (h : resolveOpt decls o = some d) : d ∈ decls ∧ d.short = o.name := by
  unfold resolveOpt at h
  have h1 := List.find?_some h
  refine ⟨List.mem_of_find?_eq_some h, ?_⟩
  simpa [ho] using h1

theorem dispatchAll_resolved {decls : List OptDecl} : ∀ {os : List CmdOpt} {v v' : Dict OptVal},
    dispatchAll decls v os = .ok v' → ∀ o ∈ os, ∃ d, resolveOpt decls o = some d
  | [], _, _, _, _, ho => by simp at ho
  | o :: os, v, v', h, o', ho => by
    rw [dispatchAll] at h
    split at h
    · exact absurd h (by simp)
    · rename_i d hd
      split at h
      · exact absurd h (by simp)
      · rename_i v1 h1
        rcases List.mem_cons.mp ho with rfl | ho
        · exact ⟨d, hd⟩
        · exact dispatchAll_resolved h _ ho

theorem dispatchAll_find {decls : List OptDecl} {name : Str} : ∀ {os : List CmdOpt} {v v' : Dict OptVal},
    dispatchAll decls v os = .ok v' → (∀ o ∈ os, ∀ d, resolveOpt decls o = some d → d.long ≠ name) →
    v'.find name = v.find name
  | [], _, _, h, _ => by cases h; rfl
  | o :: os, v, v', h, hn => by
    rw [dispatchAll] at h
    split at h
    · exact absurd h (by simp)
    · rename_i d hd
      split at h
      · exact absurd h (by simp)
      · rename_i v1 h1
        rw [dispatchAll_find h fun o' ho => hn o' (by simp [ho])]
        exact dispatchOpt_find h1 (hn o (by simp) d hd).symm

theorem dispatchAll_last {decls : List OptDecl} {name : Str} {o : CmdOpt} {d : OptDecl} {b : List CmdOpt} :
    ∀ {a : List CmdOpt} {v v' : Dict OptVal}, dispatchAll decls v (a ++ o :: b) = .ok v' →
      resolveOpt decls o = some d → (∀ o ∈ b, ∀ d, resolveOpt decls o = some d → d.long ≠ name) →
      ∃ before after, dispatchOpt d before o.arg = .ok after ∧ v'.find name = after.find name
  | [], v, v', h, ho, hb => by
    rw [List.nil_append, dispatchAll, ho] at h
    simp only at h
    split at h
    · exact absurd h (by simp)
    · rename_i v1 h1
      exact ⟨v, v1, h1, dispatchAll_find h hb⟩
  | o' :: a, v, v', h, ho, hb => by
    rw [List.cons_append, dispatchAll] at h
    split at h
    · exact absurd h (by simp)
    · split at h
      · exact absurd h (by simp)
      · exact dispatchAll_last h ho hb

theorem parseCmd_values {decls : List OptDecl} {st st' : Opts} {os : List CmdOpt}
    (h : parseCmd decls st os = .ok st') : dispatchAll decls st.values os = .ok st'.values := by
  unfold parseCmd at h
  split at h
  · exact absurd h (by simp)
  · rename_i v hv
    cases h; exact hv

end Txstatsd
