import Verif.Lemmas.Getopt
import Verif.Props.Options

/-!
# C165: from the arguments to the options
-/

set_option linter.unusedVariables false

namespace Txstatsd
open Spec

/-- C165: options in any of the ways to write them, with any values, followed by any operands, are read as they are meant, in order. -/
theorem C165_reads (lo : List Str) (so : Str) (ws : List Written) (hw : ∀ w ∈ ws, w.Legal lo so) (tail operands : List Str)
    (ht : Tail tail operands) : getopt lo so (ws.flatMap Written.args ++ tail) = .ok (ws.map Written.meant, operands) := by
  rw [getopt_written ws hw, getopt_tail ht, addOpts_ok, List.append_nil]

/-- C165: whatever the arguments are, only declared options are taken, and the operands are the last of the arguments. -/
theorem C165_declared (lo : List Str) (so : Str) (argv : List Str) (os : List CmdOpt) (operands : List Str)
    (h : getopt lo so argv = .ok (os, operands)) : (∀ o ∈ os, Declared lo so o) ∧ operands <:+ argv :=
  getopt_sound argv.length argv le_rfl os operands h

/-- An instance: a flag, an abbreviation, letters together, operands. -/
example : getopt statsdLongOpt statsdShortOpt [c!"--version", c!"--pre=x", c!"-i500", c!"a", c!"-b"] =
    .ok ([⟨true, c!"version", []⟩, ⟨true, c!"prefix", c!"x"⟩, ⟨false, c!"i", c!"500"⟩], [c!"a", c!"-b"]) := by decide +kernel

/-- C165: so the server takes the options as they are meant. -/
theorem C165_options (ws : List Written) (hw : ∀ w ∈ ws, w.Legal statsdLongOpt statsdShortOpt) (st : Opts) :
    parseArgv st (ws.flatMap Written.args) = parseCmd statsdDecls st (ws.map Written.meant) := by
  have h := C165_reads _ _ ws hw [] [] .none
  rw [List.append_nil] at h
  unfold parseArgv
  rw [h]
  simp only
  cases parseCmd statsdDecls st (ws.map Written.meant) with
  | error e => rfl
  | ok st => rfl

/-- C165: and it takes no operands. -/
theorem C165_operands (ws : List Written) (hw : ∀ w ∈ ws, w.Legal statsdLongOpt statsdShortOpt) (st : Opts) (tail operands : List Str)
    (ht : Tail tail operands) (hne : operands ≠ []) : ∃ e, parseArgv st (ws.flatMap Written.args ++ tail) = .error e := by
  unfold parseArgv
  rw [C165_reads _ _ ws hw tail operands ht]
  simp only
  cases parseCmd statsdDecls st (ws.map Written.meant) with
  | error e => exact ⟨e, rfl⟩
  | ok st => exact ⟨_, if_neg hne⟩

/-- C165: a long name that is the beginning of no option is refused, wherever it stands among the options. -/
theorem C165_unknown_long (lo : List Str) (so : Str) (ws : List Written) (hw : ∀ w ∈ ws, w.Legal lo so) (name : Str) (hn : name ≠ [])
    (he : '=' ∉ name) (h : ∀ o ∈ lo, ¬ name <+: o) (suffix : Str) (hs : suffix = [] ∨ ∃ v, suffix = c!"=" ++ v) (rest : List Str) :
    getopt lo so (ws.flatMap Written.args ++ (c!"--" ++ (name ++ suffix)) :: rest) = .error .otherError := by
  have hl : longHasArgs name lo = .error .otherError := by
    have hf : lo.filter (fun o => name.isPrefixOf o) = [] := by
      rw [List.filter_eq_nil_iff]
      intro o ho hp
      exact h o ho (List.isPrefixOf_iff_prefix.1 hp)
    unfold longHasArgs
    simp only [hf]
    rfl
  have hname : longName (name ++ suffix) = name := by
    rcases hs with rfl | ⟨v, rfl⟩
    · rw [List.append_nil]; exact (longName_plain he).1
    · rw [← List.append_assoc]; exact (longName_eq he).1
  rw [getopt_written ws hw, getopt_long (by simp [hn]), hname, hl]
  rfl

/-- C165: likewise a letter that is none of the options'. -/
theorem C165_unknown_short (lo : List Str) (so : Str) (ws : List Written) (hw : ∀ w ∈ ws, w.Legal lo so) (c : Char) (hc : c ≠ '-')
    (h : c ∉ so) (value : Str) (rest : List Str) :
    getopt lo so (ws.flatMap Written.args ++ ('-' :: c :: value) :: rest) = .error .otherError := by
  have hs : shortHasArg c so = .error .otherError := by
    clear hw
    induction so with
    | nil => rfl
    | cons x so ih =>
      rw [shortHasArg, if_neg fun hh => h (by rw [hh.1]; simp)]
      exact ih fun hh => h (by simp [hh])
  rw [getopt_written ws hw, getopt_short hc, doShorts, hs]
  rfl

/-- C165: an option whose value is missing at the end is refused. -/
theorem C165_missing (lo : List Str) (so : Str) (ws : List Written) (hw : ∀ w ∈ ws, w.Legal lo so) :
    (∀ name, TakesLong lo name → getopt lo so (ws.flatMap Written.args ++ [c!"--" ++ name]) = .error .otherError) ∧
    (∀ letter, TakesShort so letter → getopt lo so (ws.flatMap Written.args ++ [['-', letter]]) = .error .otherError) := by
  constructor
  · intro name hn
    obtain ⟨e1, e2⟩ := longName_plain hn.2.1
    rw [getopt_written ws hw, getopt_long hn.1, e1, e2, longHasArgs_full hn]
    rfl
  · intro letter hl
    rw [getopt_written ws hw, getopt_short hl.1, doShorts, shortHasArg_spec hl]
    rfl

/-- C165: every option of the server can be written by its full name and by its letter. -/
theorem C165_all (d : OptDecl) (hd : d ∈ statsdDecls) :
    TakesLong statsdLongOpt d.long ∧ ∃ letter, d.short = [letter] ∧ TakesShort statsdShortOpt letter := by
  have hl : ∀ d ∈ statsdDecls, d.long ≠ [] ∧ '=' ∉ d.long ∧ d.long ++ c!"=" ∈ statsdLongOpt ∧ d.long ∉ statsdLongOpt := by decide +kernel
  refine ⟨hl d hd, ?_⟩
  have hs : ∀ d ∈ statsdDecls, ∃ letter, d.short = [letter] ∧ letter ≠ '-' ∧ letter ≠ ':' ∧
      (statsdShortOpt.dropWhile (fun c => decide (c ≠ letter))).take 2 = [letter, ':'] := by
    intro d hd
    have : ∀ d ∈ statsdDecls, ∃ letter ∈ d.short, d.short = [letter] ∧ letter ≠ '-' ∧ letter ≠ ':' ∧
        (statsdShortOpt.dropWhile (fun c => decide (c ≠ letter))).take 2 = [letter, ':'] := by decide +kernel
    obtain ⟨letter, _, h⟩ := this d hd
    exact ⟨letter, h⟩
  obtain ⟨letter, h1, h2, h3, h4⟩ := hs d hd
  refine ⟨letter, h1, h2, h3, statsdShortOpt.takeWhile (fun c => decide (c ≠ letter)),
    (statsdShortOpt.dropWhile (fun c => decide (c ≠ letter))).drop 2, ?_, ?_⟩
  · have e : letter :: ':' :: (statsdShortOpt.dropWhile (fun c => decide (c ≠ letter))).drop 2 =
        statsdShortOpt.dropWhile (fun c => decide (c ≠ letter)) := by
      conv_rhs => rw [← List.take_append_drop 2 (statsdShortOpt.dropWhile (fun c => decide (c ≠ letter))), h4]
      rfl
    rw [e, List.takeWhile_append_dropWhile]
  · intro h
    have := List.mem_takeWhile_imp h
    simp at this

/-- C165 with C71: an option last given by its long name, or by an abbreviation of it, keeps that value, whatever the file says. -/
theorem C165_wins_partial (ws before after : List Written) (w : Written) (hws : ws = before ++ w :: after)
    (hw : ∀ w ∈ ws, w.Legal statsdLongOpt statsdShortOpt) (d : OptDecl) (hd : d ∈ statsdDecls) (hl : w.meant.isLong = true)
    (hn : w.meant.name = d.long) (hlast : ∀ w' ∈ after, w'.meant.name ≠ d.long ∧ w'.meant.name ≠ d.short) (v : OptVal)
    (hv : Coerced d.kind w.meant.arg v) (st₁ st₂ : Opts) (cfg : Config) (h1 : parseArgv statsdOpts (ws.flatMap Written.args) = .ok st₁)
    (h2 : configureFile statsdDecls c!"statsd" st₁ cfg = .ok st₂) : st₂.values.find d.long = some v := by
  rw [C165_options ws hw] at h1
  refine C71_long_partial statsdDecls_proper hd hv ⟨before.map Written.meant, after.map Written.meant, w.meant, ?_, hl, rfl, by simpa using hn,
    ?_⟩ h1 h2
  · rw [hws]; simp
  · intro o ho
    obtain ⟨w', hw', rfl⟩ := List.mem_map.1 ho
    exact hlast w' hw'

/-- C165 (partial): an abbreviation that fits one option only stands for it, if the option has no method of its own and the abbreviation
fits neither `help` nor `version`. Missing for the full claim (`C165_refuted`): the options with a method. -/
theorem C165_abbreviation_partial (d : OptDecl) (hd : d ∈ statsdDecls) (hk : d.kind = .text ∨ d.kind = .int) (hc : d.long ≠ c!"config")
    (pre : Str) (hp : pre ≠ []) (hpre : pre <+: d.long) (hu : ∀ d' ∈ statsdDecls, pre <+: d'.long → d' = d)
    (hh : ¬ pre <+: c!"help") (hv : ¬ pre <+: c!"version") : Abbreviates statsdLongOpt pre d.long := by
  have heq : ∀ d ∈ statsdDecls, '=' ∉ d.long := by decide +kernel
  have hne : '=' ∉ pre := fun h => heq d hd (hpre.subset h)
  have hpx : ∀ name : Str, pre <+: name ++ c!"=" ↔ pre <+: name := by
    intro name
    constructor
    · intro h
      rcases List.prefix_concat_iff.1 h with h | h
      · exact absurd (h ▸ by simp) hne
      · exact h
    · intro h; exact h.trans (List.prefix_append _ _)
  refine ⟨hp, hne, fun h => hne (h ▸ by simp), ?_⟩
  have hmeth : ∀ name ∈ [c!"carbon-cache-host", c!"carbon-cache-port", c!"carbon-cache-name", c!"config"],
      ∃ d' ∈ statsdDecls, d'.long = name ∧ (d'.kind ≠ .text ∧ d'.kind ≠ .int ∨ d'.long = c!"config") := by decide +kernel
  have hno : ∀ name ∈ [c!"carbon-cache-host", c!"carbon-cache-port", c!"carbon-cache-name", c!"config"], ¬ pre <+: name := by
    intro name hn hpn
    obtain ⟨d', hd', rfl, h⟩ := hmeth name hn
    have := hu d' hd' hpn
    subst this
    rcases h with h | h
    · rcases hk with hk | hk
      · exact h.1 hk
      · exact h.2 hk
    · exact hc h
  have hfilter : ∀ (l : List OptDecl), (∀ d' ∈ l, d' ∈ statsdDecls) → l.Nodup → d ∈ l →
      (l.map fun d => d.long ++ c!"=").filter (fun o => pre.isPrefixOf o) = [d.long ++ c!"="] := by
    intro l hl hnd hdl
    induction l with
    | nil => cases hdl
    | cons x l ih =>
      rw [List.nodup_cons] at hnd
      rw [List.map_cons, List.filter_cons]
      rcases List.mem_cons.1 hdl with rfl | hdl
      · rw [if_pos (List.isPrefixOf_iff_prefix.2 ((hpx _).2 hpre))]
        congr 1
        rw [List.filter_eq_nil_iff]
        intro o ho hpo
        obtain ⟨d', hd', rfl⟩ := List.mem_map.1 ho
        have := hu d' (hl d' (by simp [hd'])) ((hpx _).1 (List.isPrefixOf_iff_prefix.1 hpo))
        subst this
        exact hnd.1 hd'
      · rw [if_neg]
        · exact ih (fun d' h => hl d' (by simp [h])) hnd.2 hdl
        · intro hpo
          have := hu x (hl x (by simp)) ((hpx _).1 (List.isPrefixOf_iff_prefix.1 hpo))
          subst this
          exact hnd.1 hdl
  unfold statsdLongOpt
  rw [List.filter_append, hfilter statsdDecls (fun _ h => h) (by decide +kernel) hd]
  have : [c!"carbon-cache-host=", c!"carbon-cache-port=", c!"carbon-cache-name=", c!"config=", c!"help", c!"version"].filter
      (fun o => pre.isPrefixOf o) = [] := by
    rw [List.filter_eq_nil_iff]
    intro o ho hpo
    have hpo := List.isPrefixOf_iff_prefix.1 hpo
    simp only [List.mem_cons, List.not_mem_nil, or_false] at ho
    rcases ho with rfl | rfl | rfl | rfl | rfl | rfl
    · exact hno c!"carbon-cache-host" (by simp) ((hpx c!"carbon-cache-host").1 hpo)
    · exact hno c!"carbon-cache-port" (by simp) ((hpx c!"carbon-cache-port").1 hpo)
    · exact hno c!"carbon-cache-name" (by simp) ((hpx c!"carbon-cache-name").1 hpo)
    · exact hno c!"config" (by simp) ((hpx c!"config").1 hpo)
    · exact hh hpo
    · exact hv hpo
  rw [this]
  rfl

/-- C165, refuted: an abbreviation that fits one option only is not always understood: `--conf`, since `config` is gathered twice. -/
theorem C165_refuted : ¬ ∀ (d : OptDecl) (pre value : Str), d ∈ statsdDecls → pre ≠ [] → pre <+: d.long →
    (∀ d' ∈ statsdDecls, pre <+: d'.long → d' = d) → ¬ pre <+: c!"help" → ¬ pre <+: c!"version" →
    getopt statsdLongOpt statsdShortOpt [c!"--" ++ pre ++ c!"=" ++ value] = .ok ([⟨true, d.long, value⟩], []) := by
  intro h
  have := h ⟨c!"config", c!"c", .text⟩ c!"conf" c!"f" (by decide +kernel) (by decide) (by decide) (by decide +kernel) (by decide) (by decide)
  revert this
  decide +kernel

/-- Several ways at once; the values may look like options. -/
example : ∀ w ∈ [Written.longEq c!"prefix" c!"a=b", .shortSame 'i' c!"5000", .abbrNext c!"flush" c!"flush-interval" c!"-9"],
    w.Legal statsdLongOpt statsdShortOpt := by
  intro w hw
  simp only [List.mem_cons, List.not_mem_nil, or_false] at hw
  rcases hw with rfl | rfl | rfl
  · exact (C165_all ⟨c!"prefix", c!"x", .text⟩ (by decide +kernel)).1
  · obtain ⟨letter, h1, h2⟩ := (C165_all ⟨c!"flush-interval", c!"i", .int⟩ (by decide +kernel)).2
    simp at h1
    subst h1
    exact ⟨h2, by simp⟩
  · exact C165_abbreviation_partial ⟨c!"flush-interval", c!"i", .int⟩ (by decide +kernel) (.inr rfl) (by decide) c!"flush" (by decide)
      (by decide) (by decide +kernel) (by decide) (by decide)

example : getopt statsdLongOpt statsdShortOpt
      [c!"--prefix=a=b", c!"-i5000", c!"--flush", c!"-9", c!"-p", c!"2004", c!"--carbon-cache-host", c!"h", c!"--", c!"--x"] =
    .ok ([⟨true, c!"prefix", c!"a=b"⟩, ⟨false, c!"i", c!"5000"⟩, ⟨true, c!"flush-interval", c!"-9"⟩, ⟨false, c!"p", c!"2004"⟩,
      ⟨true, c!"carbon-cache-host", c!"h"⟩], [c!"--x"]) := by decide +kernel

example : (parseArgv statsdOpts [c!"--flush=5000", c!"-x", c!"p"]).toOption.bind (fun st => st.values.find c!"flush-interval") =
    some (.int 5000) := by decide +kernel

end Txstatsd
