import Verif.Lemmas.Options
import Verif.Spec.Options

/-!
# C71, C86: options
-/

set_option linter.unusedVariables false

namespace Txstatsd
open Spec

/-! ## C71: the command line and the configuration file -/

theorem find_long {decls : List OptDecl} (ht : ProperTable decls) {d : OptDecl} (hd : d ∈ decls) :
    (decls.find? fun d' => decide (d'.long = d.long)) = some d := by
  rcases h : decls.find? fun d' => decide (d'.long = d.long) with _ | d'
  · have := List.find?_eq_none.mp h d hd
    simp at this
  · rw [h, ht.1 d' (List.mem_of_find?_eq_some h) d hd (by simpa using List.find?_some h)]

theorem resolve_iff {decls : List OptDecl} (ht : ProperTable decls) {d : OptDecl} (hd : d ∈ decls) {o : CmdOpt}
    (h : o.name = if o.isLong then d.long else d.short) : resolveOpt decls o = some d := by
  rcases h' : resolveOpt decls o with _ | d'
  · have := List.find?_eq_none.mp h' d hd
    cases ho : o.isLong <;> simp [ho] at this h <;> exact absurd h.symm this
  · have hm := List.mem_of_find?_eq_some h'
    have := List.find?_some h'
    cases ho : o.isLong <;> simp [ho] at this h
    · rw [ht.2.1 d' hm d hd (this.trans h)]
    · rw [ht.1 d' hm d hd (this.trans h)]

theorem resolve_ne {decls : List OptDecl} (ht : ProperTable decls) {d : OptDecl} {o : CmdOpt} {d' : OptDecl}
    (hd : d ∈ decls) (hr : resolveOpt decls o = some d') (hl : o.name ≠ d.long) (hs : o.name ≠ d.short) :
    d'.long ≠ d.long := by
  intro he
  have hm := List.mem_of_find?_eq_some hr
  have hdd := ht.1 d' hm d hd he
  subst hdd
  have := List.find?_some hr
  cases ho : o.isLong <;> simp [ho] at this
  · exact hs this.symm
  · exact hl this.symm

theorem coerced_of_dispatch {d : OptDecl} {b a : Dict OptVal} {arg : Str} {v : OptVal} (hc : Coerced d.kind arg v)
    (h : dispatchOpt d b arg = .ok a) : a.find d.long = some v := by
  cases hk : d.kind <;> rw [hk] at hc
  · cases hc; exact dispatchOpt_text hk h
  · cases hc with
    | int hz =>
      obtain ⟨z', hz', h'⟩ := dispatchOpt_int hk h
      rw [hz] at hz'
      cases hz'
      exact h'
  · cases hc
  · cases hc

/-- C71 (long names): an option given by its long name keeps the value given last on the command line,
whatever the configuration file says. Missing for the full claim (`C71_refuted`): the same for options
given by their short names. -/
theorem C71_long_partial {decls : List OptDecl} (ht : ProperTable decls) {st st₁ st₂ : Opts} {os : List CmdOpt}
    {main : Str} {cfg : Config} {d : OptDecl} (hd : d ∈ decls) {arg : Str} {v : OptVal} (hv : Coerced d.kind arg v)
    (hg : GivenLast decls os d true arg) (h1 : parseCmd decls st os = .ok st₁)
    (h2 : configureFile decls main st₁ cfg = .ok st₂) : st₂.values.find d.long = some v := by
  obtain ⟨a, b, o, rfl, ho, harg, hname, hb⟩ := hg
  rw [configureFile_find h2 (ht.2.2 d hd).2.2 ?_]
  · obtain ⟨be, af, hda, hf⟩ := dispatchAll_last (parseCmd_values h1)
      (resolve_iff ht hd (by rw [ho]; exact hname))
      (fun o' ho' d' hd' => resolve_ne ht hd hd' (hb o' ho').1 (hb o' ho').2)
    rw [hf]
    exact coerced_of_dispatch hv (harg ▸ hda)
  · rw [parseCmd_overridden h1]
    simp at hname
    simp [hname]

/-- C71: an option given on the command line by its long name - any option, also those that collect several
values - is not touched by the configuration file. -/
theorem C71_long_kept_partial {decls : List OptDecl} (ht : ProperTable decls) {st st₁ st₂ : Opts} {os : List CmdOpt}
    {main : Str} {cfg : Config} {d : OptDecl} (hd : d ∈ decls) (hg : ∃ o ∈ os, o.name = d.long)
    (h1 : parseCmd decls st os = .ok st₁) (h2 : configureFile decls main st₁ cfg = .ok st₂) :
    st₂.values.find d.long = st₁.values.find d.long := by
  refine configureFile_find h2 (ht.2.2 d hd).2.2 ?_
  rw [parseCmd_overridden h1]
  obtain ⟨o, ho, hn⟩ := hg
  simp only [List.mem_append, List.mem_map]
  exact Or.inr ⟨o, ho, hn⟩

/-- C71: an option *not* given by its long name gets the value of the configuration file - the last in the
main section if no carbon-cache section mentions it - even if it was given by its short name. -/
theorem C71_file_wins {decls : List OptDecl} (ht : ProperTable decls) {st st₁ st₂ : Opts} {os : List CmdOpt}
    {main : Str} {cfg : Config} {d : OptDecl} (hd : d ∈ decls) (hst : st.overridden = [])
    (hg : ∀ o ∈ os, o.isLong = true → o.name ≠ d.long) {a b : List (Str × Str)} {val : Str} {v : OptVal}
    (hv : Coerced d.kind val v) (hmain : Dict.find cfg main = some (a ++ (d.long, val) :: b))
    (hb : ∀ p ∈ b, d.long ≠ p.1) (hc : ∀ sec ∈ cfg, c!"carbon-cache" <+: sec.1 → ∀ p ∈ sec.2, d.long ≠ p.1)
    (h1 : parseCmd decls st os = .ok st₁) (h2 : configureFile decls main st₁ cfg = .ok st₂) :
    st₂.values.find d.long = some v := by
  have hno : d.long ∉ st₁.overridden := by
    rw [parseCmd_overridden h1, hst]
    simp only [List.nil_append, List.mem_map, not_exists, not_and]
    intro o ho hn
    cases hol : o.isLong
    · obtain ⟨d', hd'⟩ := dispatchAll_resolved (parseCmd_values h1) o ho
      obtain ⟨hm, hs⟩ := resolveOpt_short hol hd'
      have h3 := (ht.2.2 d' hm).1
      rw [hs, hn] at h3
      exact (ht.2.2 d hd).2.1 h3
    · exact hg o ho hol hn
  obtain ⟨be, af, hda, hf, -⟩ := configureFile_last h2 (ht.2.2 d hd).2.2 hno (find_long ht hd) hmain hb hc
  rw [hf]
  exact coerced_of_dispatch hv hda

/-- C71: an item of the file that names no option changes nothing. -/
theorem C71_unknown {decls : List OptDecl} (st : Opts) (name val : Str) (h : ∀ d ∈ decls, d.long ≠ name) :
    coerceOption decls st name val = .ok st := by
  unfold coerceOption
  rw [List.find?_eq_none.mpr (by simpa using h)]
  split <;> rfl

/-- The options of the server are such a table. -/
theorem statsdDecls_proper : ProperTable statsdDecls := by
  unfold ProperTable
  decide +kernel

/-- C71, refuted: `-i 5000` on the command line and `flush-interval = 10000` in the file: the server takes
10000. -/
theorem C71_refuted : ¬ ∀ (os : List CmdOpt) (cfg : Config) (d : OptDecl) (isLong : Bool) (arg : Str) (v : OptVal)
    (st₁ st₂ : Opts), d ∈ statsdDecls → Coerced d.kind arg v → GivenLast statsdDecls os d isLong arg →
    parseCmd statsdDecls statsdOpts os = .ok st₁ → configureFile statsdDecls c!"statsd" st₁ cfg = .ok st₂ →
    st₂.values.find d.long = some v := by
  intro h
  have hd : (⟨c!"flush-interval", c!"i", .int⟩ : OptDecl) ∈ statsdDecls := by decide +kernel
  have h1 := (show (parseCmd statsdDecls statsdOpts [⟨false, c!"i", c!"5000"⟩]).isOk = true by decide +kernel)
  rcases h1e : parseCmd statsdDecls statsdOpts [⟨false, c!"i", c!"5000"⟩] with e | st₁
  · rw [h1e] at h1; cases h1
  rcases h2e : configureFile statsdDecls c!"statsd" st₁ [(c!"statsd", [(c!"flush-interval", c!"10000")])] with e | st₂
  · have : ∀ e, ((parseCmd statsdDecls statsdOpts [⟨false, c!"i", c!"5000"⟩]).toOption.map fun s =>
        configureFile statsdDecls c!"statsd" s [(c!"statsd", [(c!"flush-interval", c!"10000")])]) ≠ some (.error e) := by
      intro e; cases e <;> decide +kernel
    rw [h1e] at this
    exact absurd (congrArg some h2e) (this e)
  have h3 := h _ _ _ false c!"5000" (.int 5000) st₁ st₂ hd (.int (by decide +kernel))
    ⟨[], [], _, rfl, rfl, rfl, rfl, by simp⟩ h1e h2e
  have h4 := C71_file_wins statsdDecls_proper hd rfl (os := [⟨false, c!"i", c!"5000"⟩]) (by simp)
    (a := []) (b := []) (val := c!"10000") (v := .int 10000) (.int (by decide +kernel)) rfl (by simp) (by
      intro sec hs hp
      simp only [List.mem_singleton] at hs
      subst hs
      revert hp
      decide) h1e h2e
  rw [h3] at h4
  cases h4

/-- An instance of `C71_long_partial`: `--flush-interval 5000` against 10000 in the file. -/
example : (parseCmd statsdDecls statsdOpts [⟨true, c!"flush-interval", c!"5000"⟩]).toOption.bind (fun s =>
      (configureFile statsdDecls c!"statsd" s [(c!"statsd", [(c!"flush-interval", c!"10000"), (c!"prefix", c!"p")]),
        (c!"plugin_x", [(c!"a", c!"b")]), (c!"carbon-cache-a", [(c!"carbon-cache-host", c!"h1")])]).toOption.map fun s =>
          (s.values.find c!"flush-interval", s.values.find c!"prefix", s.values.find c!"carbon-cache-host"))
    = some (some (.int 5000), some (.text c!"p"), some (.texts [c!"h1"])) := by decide +kernel

/-! ## C86: every configured carbon cache is connected to -/

/-- C86: as many connections are made as the shortest of the three lists has entries. -/
theorem C86_count (hosts : List Str) (ports : List ℤ) (names : List Str) :
    (destinations hosts ports names).length
      = min (max 1 hosts.length) (min (max 1 ports.length) (max 1 names.length)) := by
  unfold destinations
  simp only [List.length_zip]
  congr 1
  · cases hosts <;> simp
  · congr 1
    · cases ports <;> simp
    · cases names <;> simp

/-- C86 (partial): if every host is given with its own port and name, each is connected to with them. Missing
for the full claim (`C86_refuted`): hosts beyond the number of ports or names given are dropped. -/
theorem C86_all_partial (dests : List (Str × ℤ × Str)) (h : dests ≠ []) :
    destinations (dests.map (·.1)) (dests.map (·.2.1)) (dests.map (·.2.2))
      = dests.map fun d => (d.1, d.2.1, some d.2.2) := by
  unfold destinations
  have h0 : ∀ {β : Type} (f : Str × ℤ × Str → β), dests.map f ≠ [] := fun f => by simpa using h
  simp only [if_neg (h0 _), List.map_map]
  clear h h0
  induction dests with
  | nil => rfl
  | cons d ds ih => simpa using ih

/-- C86: without any option there is one connection, to the default. -/
theorem C86_default : destinations [] [] [] = [(c!"127.0.0.1", 2004, none)] := by decide

/-- C86, refuted: of two hosts given without ports only the first is connected to. -/
theorem C86_refuted : ¬ ∀ (hosts : List Str) (ports : List ℤ) (names : List Str),
    ∀ h ∈ hosts, ∃ d ∈ destinations hosts ports names, d.1 = h := by
  intro h
  have := h [c!"a", c!"b"] [] [] c!"b" (by simp)
  revert this
  decide

example : destinations [c!"a", c!"b"] [1, 2] [c!"x", c!"y"] = [(c!"a", 1, some c!"x"), (c!"b", 2, some c!"y")] := by
  decide

end Txstatsd
