import Verif.Lemmas.Ini
import Verif.Props.Getopt
import Verif.Model.Router

set_option linter.unusedSectionVars false
set_option linter.unusedSimpArgs false
set_option linter.unusedVariables false

/-!
# C166: from the text of the configuration file to the options
-/

namespace Txstatsd
open Spec

theorem readConfig_eq {ls : List Str} {secs : List (Str × List (Str × List Str))} (h : FileLines ls secs) (hne : ls ≠ []) :
    readConfig (joinWith c!"\n" ls) = .ok (((secs.foldl addSection []).keys.filter fun s => s ≠ defaultSect).map fun s =>
      (s, Ini.items ⟨secs.foldl addSection [], none, none, false⟩ s)) := by
  obtain ⟨c, o, hr, -⟩ := run_file h ⟨[], none, none, false⟩
  unfold readConfig
  rw [show c!"\n" = ['\n'] from rfl, splitOn_join hne (file_noNewline h), hr]
  rfl

/-- C166: a file with sections and options as one may write them - with either separator, any spacing, capitals in the names, values of
several lines, comments and blank lines - is read as these sections and options, the lines of each value joined. -/
theorem C166_reads (ls : List Str) (secs : List (Str × List (Str × List Str))) (h : FileLines ls secs) (hne : ls ≠ [])
    (hs : (secs.map Prod.fst).Nodup) (hd : c!"DEFAULT" ∉ secs.map Prod.fst) (he : ∀ s ∈ secs, (s.2.map Prod.fst).Nodup) :
    readConfig (joinWith c!"\n" ls) = .ok (secs.map fun s => (s.1, s.2.map fun p => (p.1, joinWith c!"\n" p.2))) := by
  rw [readConfig_eq h hne, foldl_section_fresh secs he [] (by simpa using hs), List.nil_append]
  have hk : (Dict.keys secs).filter (fun s => s ≠ defaultSect) = secs.map Prod.fst := by
    show (secs.map Prod.fst).filter (fun s => s ≠ defaultSect) = secs.map Prod.fst
    rw [List.filter_eq_self]
    intro s hm
    apply decide_eq_true
    rintro rfl
    exact hd hm
  rw [hk, List.map_map]
  congr 1
  apply List.map_congr_left
  intro s hm
  have hf : Dict.find secs s.1 = some s.2 := Dict.find_of_mem (by exact hs) (by simpa using hm)
  have hfd : Dict.find secs defaultSect = none := (Dict.find_eq_none _ _).2 hd
  simp only [Function.comp_apply, Ini.items, hf, hfd, Option.getD_some, Option.getD_none]
  rw [foldl_put_fresh s.2 [] (by simpa using he s hm), List.nil_append, List.filter_eq_self.2]
  intro p hp
  simpa using file_names h s hm p hp

/-- C166: also if sections and options are repeated, and with defaults: each section of the file is there, and an option has the value
given last in the sections of that name, or else the one given last in the sections `DEFAULT`. -/
theorem C166_last (ls : List Str) (secs : List (Str × List (Str × List Str))) (h : FileLines ls secs) (hne : ls ≠ []) :
    ∃ cfg, readConfig (joinWith c!"\n" ls) = .ok cfg ∧
      (∀ s, s ∈ Dict.keys cfg ↔ s ∈ secs.map Prod.fst ∧ s ≠ c!"DEFAULT") ∧
      ∀ s items, Dict.find cfg s = some items → ∀ n, n ≠ c!"__name__" →
        Dict.find items n = ((givenLast (optionsIn secs s) n).or (givenLast (optionsIn secs c!"DEFAULT") n)).map (joinWith c!"\n") := by
  refine ⟨_, readConfig_eq h hne, ?_, ?_⟩
  · intro s
    unfold Dict.keys
    rw [List.map_map]
    simp only [Function.comp_def, List.map_id', List.mem_filter]
    have := tables_keys secs [] s
    unfold Dict.keys at this
    rw [this]
    simp only [List.map_nil, List.not_mem_nil, false_or, decide_eq_true_eq]
    rfl
  · intro s items hi n hn
    rw [keys_find] at hi
    split at hi
    · cases hi
      unfold Ini.items
      rw [map_find, filter_find (fun k => k ≠ c!"__name__") _ _ (by simpa using hn), givenLast_find, tables_find, tables_find,
        givenLast_wf (foldl_put_wf _ _ (by exact List.nodup_nil)), givenLast_find, givenLast_find]
      simp [Dict.find, defaultSect]
    · cases hi

/-- C166: a file in which something else than a comment or a section header comes first cannot be read. -/
theorem C166_headless (ns rest : List Str) (l : Str) (hns : ∀ x ∈ ns, Noise x) (hl : '\n' ∉ l) (hrest : ∀ x ∈ rest, '\n' ∉ x)
    (h1 : ¬ Noise l) (h2 : ∀ name, ¬ Header l name) : readConfig (joinWith c!"\n" (ns ++ l :: rest)) = .error .otherError := by
  unfold readConfig
  rw [show c!"\n" = ['\n'] from rfl, splitOn_join (by simp) (by
    intro x hx
    rcases List.mem_append.1 hx with hx | hx
    · exact (hns x hx).1
    · rcases List.mem_cons.1 hx with rfl | hx
      exacts [hl, hrest x hx]), ini_run_append, run_noise hns]
  simp only
  have : Ini.run ⟨[], none, none, false⟩ (l :: rest) = .error .otherError := by
    unfold Ini.run
    rw [step_other hl h1 h2 (Or.inr (Or.inl rfl))]
  rw [this]

/-- C166: nor can one with a line in a section that is no comment, begins without white space, begins no section and has no separator,
wherever it is. -/
theorem C166_garbage (ls rest : List Str) (secs : List (Str × List (Str × List Str))) (h : FileLines ls secs) (hne : secs ≠ []) (l : Str)
    (hl : '\n' ∉ l) (hrest : ∀ x ∈ rest, '\n' ∉ x) (h1 : ¬ Noise l) (h2 : ∀ name, ¬ Header l name)
    (h3 : ∀ c, l.head? = some c → ¬ White c) (h4 : ':' ∉ l ∧ '=' ∉ l) :
    readConfig (joinWith c!"\n" (ls ++ l :: rest)) = .error .otherError := by
  obtain ⟨c, o, hr, hc⟩ := run_file h ⟨[], none, none, false⟩
  obtain ⟨s, rfl⟩ := Option.isSome_iff_exists.1 (hc (Or.inr hne))
  have hstep : Ini.step ⟨secs.foldl addSection [], some s, o, false⟩ l = .ok ⟨secs.foldl addSection [], some s, o, true⟩ := by
    rw [step_other hl h1 h2 (Or.inl (by
      cases hh : l.head? with
      | none => rfl
      | some c => simp [(isSpace_false_iff c).2 (h3 c hh)]))]
    simp only
    rw [optionLine_none h4]
  unfold readConfig
  rw [show c!"\n" = ['\n'] from rfl, splitOn_join (by simp) (by
    intro x hx
    rcases List.mem_append.1 hx with hx | hx
    · exact file_noNewline h x hx
    · rcases List.mem_cons.1 hx with rfl | hx
      exacts [hl, hrest x hx]), ini_run_append, hr]
  simp only
  have : Ini.run ⟨secs.foldl addSection [], some s, o, false⟩ (l :: rest) = Ini.run ⟨secs.foldl addSection [], some s, o, true⟩ rest := by
    conv_lhs => unfold Ini.run
    rw [hstep]
  rw [this]
  rcases hb : Ini.run ⟨secs.foldl addSection [], some s, o, true⟩ rest with e | st
  · simp only
    rw [run_error hb]
  · simp only
    rw [if_pos (run_bad rest rfl hb)]

/-- C166: nor one with an indented line that is no comment, when no option of its section came before it: it continues nothing, not even
the last option of the section before. -/
theorem C166_indented (ls ns rest : List Str) (secs : List (Str × List (Str × List Str))) (h : FileLines ls secs) (hd name l : Str)
    (hh : Header hd name) (hns : ∀ x ∈ ns, Noise x) (hl : '\n' ∉ l) (hrest : ∀ x ∈ rest, '\n' ∉ x) (h1 : ¬ Noise l) (c : Char)
    (hc : l.head? = some c) (hw : White c) : readConfig (joinWith c!"\n" (ls ++ hd :: (ns ++ l :: rest))) = .error .otherError := by
  obtain ⟨cur, o, hr, -⟩ := run_file h ⟨[], none, none, false⟩
  have h2 : ∀ name, ¬ Header l name := by
    rintro name ⟨-, -, -, r, rfl⟩
    obtain rfl : '[' = c := by simpa using hc
    exact absurd hw (by decide)
  obtain ⟨st, hst, hcur, hopt⟩ : ∃ st : Ini, (Ini.mk (secs.foldl addSection []) cur o false).enter name = st ∧ st.cur = some name ∧ st.opt = none :=
    ⟨_, rfl, rfl, rfl⟩
  have hopn : optionLine l = none := by
    unfold optionLine
    rw [hc]
    simp [(isSpace_iff c).2 hw]
  have hstep : st.step l = .ok { st with bad := true } := by
    rw [step_other hl h1 h2 (Or.inr (Or.inr hopt)), hcur]
    simp only
    rw [hopn]
  unfold readConfig
  rw [show c!"\n" = ['\n'] from rfl, splitOn_join (by simp) (by
    intro x hx
    rcases List.mem_append.1 hx with hx | hx
    · exact file_noNewline h x hx
    · rcases List.mem_cons.1 hx with rfl | hx
      · exact hh.1
      · rcases List.mem_append.1 hx with hx | hx
        · exact (hns x hx).1
        · rcases List.mem_cons.1 hx with rfl | hx
          exacts [hl, hrest x hx]), ini_run_append, hr]
  simp only
  have : Ini.run ⟨secs.foldl addSection [], cur, o, false⟩ (hd :: (ns ++ l :: rest)) = Ini.run { st with bad := true } rest := by
    conv_lhs => unfold Ini.run
    rw [step_header hh]
    simp only
    rw [hst, ini_run_append, run_noise hns]
    simp only
    conv_lhs => unfold Ini.run
    rw [hstep]
  rw [this]
  rcases hb : Ini.run { st with bad := true } rest with e | st'
  · simp only
    rw [run_error hb]
  · simp only
    rw [if_pos (run_bad rest rfl hb)]

/-- The option of the section before is not continued. -/
example : readConfig c!"[statsd]\nprefix: a\n[plugin_x]\n b\n" = .error .otherError := by
  refine C166_indented [c!"[statsd]", c!"prefix: a"] [] [c!""] [(c!"statsd", [(c!"prefix", [c!"a"])])] ?_ c!"[plugin_x]" c!"plugin_x" c!" b"
    ⟨by decide, by decide, by decide, [], rfl⟩ (by simp) (by decide) (by decide) ?_ ' ' rfl (by decide)
  · refine .sect (ls := [c!"prefix: a"]) (ls' := []) ⟨by decide, by decide, by decide, [], rfl⟩ (.option (ls := []) ?_ .nil .nil) .nil
    refine ⟨by decide, c!"prefix", [], ':', c!" ", c!"a", c!"a", by decide, by decide, ?_, by decide, by decide, by decide, Or.inl rfl, ?_, by decide,
      by decide, by decide, .plain ?_ (by decide) ⟨[], [], by decide, by decide, by decide, by decide, by decide⟩, rfl⟩
    · unfold White
      decide
    · intro x hx
      obtain rfl : 'a' = x := by simpa using hx
      decide
    · rintro x ⟨⟨y, hy⟩, -⟩
      exact absurd (show ';' ∈ c!"a" by rw [hy]; simp) (by decide)
  · rintro ⟨-, hw | hw | hw | ⟨r, rest, he, hr, -⟩⟩
    · exact absurd (hw 'b' (by decide)) (by decide)
    · cases hw
    · cases hw
    · cases r with
      | nil => cases hr
      | cons x r =>
        obtain ⟨rfl, -⟩ : ' ' = x ∧ _ := by simpa using he
        exact absurd hr (by simp)

/-- C166: options are not taken from a file that cannot be read so: the program does not start. -/
theorem C166_rejected (files : Str → Option Str) (argv : List Str) (st : Opts) (hp : parseArgv statsdOpts argv = .ok st) (path text : Str)
    (hc : st.values.find c!"config" = some (.text path)) (hf : files path = some text) (e : PyErr) (hr : readConfig text = .error e) :
    startOptions files argv = .error e := by
  unfold startOptions postOptions
  rw [hp]
  simp only [hc, hf, hr]

example : startOptions (fun _ => some c!"prefix: a") [c!"--config=f"] = .error .otherError :=
  C166_rejected (fun _ => some c!"prefix: a") [c!"--config=f"] ⟨statsdOpts.values.put c!"config" (.text c!"f"), [c!"config"]⟩ (by decide +kernel)
    c!"f" c!"prefix: a" (by decide +kernel) rfl _ (by decide +kernel)

/-- C166: routing rules may be written one to a line: they are the lines of the value. -/
theorem C166_routing {R : Type} (rx : Regexes R) (service : Bool) (l name v : Str) (ls vs : List Str) (hl : Assigns l name v)
    (hc : ContLines ls vs) : buildRules rx service (joinWith c!"\n" (v :: vs)) = buildLines rx service (v :: vs) := by
  unfold buildRules
  rw [show c!"\n" = ['\n'] from rfl, splitOn_join (by simp)]
  intro x hx
  rcases List.mem_cons.1 hx with rfl | hx
  · exact assigns_noNewline hl
  · exact conts_noNewline hc x hx

/-- C166: the server takes the options as the arguments and the file give them. -/
theorem C166_start (files : Str → Option Str) (ws : List Written) (hw : ∀ w ∈ ws, w.Legal statsdLongOpt statsdShortOpt) (st : Opts)
    (hp : parseCmd statsdDecls statsdOpts (ws.map Written.meant) = .ok st) (path : Str) (hc : st.values.find c!"config" = some (.text path))
    (ls : List Str) (secs : List (Str × List (Str × List Str))) (hf : files path = some (joinWith c!"\n" ls)) (h : FileLines ls secs)
    (hne : ls ≠ []) (hs : (secs.map Prod.fst).Nodup) (hd : c!"DEFAULT" ∉ secs.map Prod.fst) (he : ∀ s ∈ secs, (s.2.map Prod.fst).Nodup) :
    startOptions files (ws.flatMap Written.args) = configureFile statsdDecls c!"statsd" st
      (secs.map fun s => (s.1, s.2.map fun p => (p.1, joinWith c!"\n" p.2))) := by
  unfold startOptions
  rw [C165_options ws hw, hp]
  simp only [postOptions, hc, hf, C166_reads ls secs h hne hs hd he]

/-- C166: without an option `config` the file is not looked for; if it cannot be opened the server does not start. -/
theorem C166_absent (files : Str → Option Str) (argv : List Str) (st : Opts) (hp : parseArgv statsdOpts argv = .ok st) :
    (st.values.find c!"config" = some .none → startOptions files argv = .ok st) ∧
    ∀ path, st.values.find c!"config" = some (.text path) → files path = none → ∃ e, startOptions files argv = .error e := by
  unfold startOptions postOptions
  rw [hp]
  constructor
  · intro h
    simp only [h]
  · intro path h hf
    simp only [h, hf]
    exact ⟨_, rfl⟩

/-- C166: an option of one value that the arguments do not give by its long name has the value the file gives in the section `statsd`,
its lines joined, unless a section for a carbon cache has it too. -/
theorem C166_file_wins (files : Str → Option Str) (ws : List Written) (hw : ∀ w ∈ ws, w.Legal statsdLongOpt statsdShortOpt) (st st' : Opts)
    (hp : parseCmd statsdDecls statsdOpts (ws.map Written.meant) = .ok st) (path : Str) (hc : st.values.find c!"config" = some (.text path))
    (ls : List Str) (secs : List (Str × List (Str × List Str))) (hf : files path = some (joinWith c!"\n" ls)) (h : FileLines ls secs)
    (hne : ls ≠ []) (hs : (secs.map Prod.fst).Nodup) (hd : c!"DEFAULT" ∉ secs.map Prod.fst) (he : ∀ s ∈ secs, (s.2.map Prod.fst).Nodup)
    (hstart : startOptions files (ws.flatMap Written.args) = .ok st') (d : OptDecl) (hdecl : d ∈ statsdDecls)
    (hno : ∀ w ∈ ws, w.meant.isLong = true → w.meant.name ≠ d.long) (es : List (Str × List Str)) (hm : (c!"statsd", es) ∈ secs)
    (vs : List Str) (hv : (d.long, vs) ∈ es) (v : OptVal) (hco : Coerced d.kind (joinWith c!"\n" vs) v)
    (hcc : ∀ s ∈ secs, c!"carbon-cache" <+: s.1 → ∀ p ∈ s.2, d.long ≠ p.1) : st'.values.find d.long = some v := by
  rw [C166_start files ws hw st hp path hc ls secs hf h hne hs hd he] at hstart
  obtain ⟨a, b, rfl⟩ := List.append_of_mem hv
  have hnd := he _ hm
  simp only [List.map_append, List.map_cons, List.nodup_append, List.nodup_cons] at hnd
  refine C71_file_wins statsdDecls_proper hdecl rfl (os := ws.map Written.meant) ?_ (a := a.map fun p => (p.1, joinWith c!"\n" p.2))
    (b := b.map fun p => (p.1, joinWith c!"\n" p.2)) (val := joinWith c!"\n" vs) hco ?_ ?_ ?_ hp hstart
  · intro o ho
    obtain ⟨w, hw', rfl⟩ := List.mem_map.1 ho
    exact hno w hw'
  · have := map_find (fun es : List (Str × List Str) => es.map fun p => (p.1, joinWith c!"\n" p.2)) secs c!"statsd"
    rw [this, Dict.find_of_mem (by exact hs) hm]
    simp
  · intro p hp'
    obtain ⟨q, hq, rfl⟩ := List.mem_map.1 hp'
    intro heq
    exact hnd.2.1.1 (List.mem_map.2 ⟨q, hq, heq.symm⟩)
  · intro sec hsec hpre p hp'
    obtain ⟨s, hs', rfl⟩ := List.mem_map.1 hsec
    obtain ⟨q, hq, rfl⟩ := List.mem_map.1 hp'
    exact hcc s hs' hpre q hq

/-- C166, what holds: a value of one line, without white space around it, is read as it was written exactly if it has no `;` that
follows white space and is the first, and is not `""`. Missing for the full claim (`C166_refuted`): the other values. -/
theorem C166_plain_partial (d : OptDecl) (hd : d ∈ statsdDecls) (v : Str) (hn : '\n' ∉ v) (hv : Stripped v v) :
    readConfig (joinWith c!"\n" [c!"[statsd]", d.long ++ c!" = " ++ v]) = .ok [(c!"statsd", [(d.long, v)])] ↔
      (∀ x, ¬ Comment v x) ∧ v ≠ c!"\"\"" := by
  have hread : ∀ u, Meaning v u → readConfig (joinWith c!"\n" [c!"[statsd]", d.long ++ c!" = " ++ v]) =
      .ok [(c!"statsd", [(d.long, unquoted u)])] := by
    intro u hu
    have ha := assigns_decl hd hn hv hu
    have := C166_reads [c!"[statsd]", d.long ++ c!" = " ++ v] [(c!"statsd", [(d.long, [unquoted u])])]
      (FileLines.sect (name := c!"statsd") (ls := [d.long ++ c!" = " ++ v]) (ls' := []) ⟨by decide, by decide, by decide, [], rfl⟩
        (EntryLines.option (ls := []) (ls' := []) ha .nil .nil) .nil) (by simp) (by simp) (by simp) (by simp)
    rw [this]
    rfl
  constructor
  · intro h
    constructor
    · rintro x hx
      rw [hread (strip x) (.cut hx (strip_spec x))] at h
      simp only [Except.ok.injEq, List.cons.injEq, Prod.mk.injEq, and_true, true_and] at h
      obtain ⟨⟨y, rfl⟩, -, -⟩ := hx
      have h1 : (unquoted (strip x)).length ≤ x.length := by
        obtain ⟨a, b, he, -⟩ := strip_spec x
        have : x.length = (a ++ strip x ++ b).length := congrArg List.length he
        simp only [List.length_append] at this
        unfold unquoted
        split
        · simp
        · omega
      rw [h] at h1
      simp at h1
    · rintro rfl
      rw [hread _ (.plain (by
        rintro x ⟨⟨y, hy⟩, -⟩
        have : ';' ∈ (c!"\"\"" : Str) := by rw [hy]; simp
        exact absurd this (by decide)) (by simp) hv)] at h
      simp [unquoted] at h
  · rintro ⟨h1, h2⟩
    rw [hread v (.plain h1 (by
      intro hh
      cases hl : v.getLast? with
      | none => rw [List.getLast?_eq_none_iff] at hl; subst hl; simp at hh
      | some c =>
        obtain ⟨a, b, -, -, -, -, h⟩ := hv
        exact ⟨c, rfl, h c hl⟩) hv)]
    unfold unquoted
    rw [if_neg h2]

/-- C166, refuted: not every value is read as it is written: `monitor-message = a ;b` is `a`. -/
theorem C166_refuted : ¬ ∀ (d : OptDecl) (v : Str), d ∈ statsdDecls → '\n' ∉ v → Stripped v v →
    readConfig (joinWith c!"\n" [c!"[statsd]", d.long ++ c!" = " ++ v]) = .ok [(c!"statsd", [(d.long, v)])] := by
  intro h
  have := h ⟨c!"monitor-message", c!"m", .text⟩ c!"a ;b" (by decide +kernel) (by decide)
    ⟨[], [], rfl, by simp, by simp, by decide, by decide⟩
  revert this
  decide +kernel

/-- The beginning of the example configuration of the repository, and a value of several lines. -/
def exampleLines : List Str :=
  [c!"[statsd]", c!"# The host where carbon cache is listening.", c!"Carbon-Cache-Host: localhost", c!"listen-port: 8125", c!"", c!"prefix:",
   c!"routing = any => drop ; not yet", c!"  metric_type c => drop", c!"[plugin_sample]", c!"sample-key: sample-value", c!""]

/-- Its sections. -/
def exampleSections : List (Str × List (Str × List Str)) :=
  [(c!"statsd", [(c!"carbon-cache-host", [c!"localhost"]), (c!"listen-port", [c!"8125"]), (c!"prefix", [c!""]),
    (c!"routing", [c!"any => drop", c!"metric_type c => drop"])]), (c!"plugin_sample", [(c!"sample-key", [c!"sample-value"])])]

theorem exampleLines_file : FileLines exampleLines exampleSections := by
  have noise : ∀ l : Str, l.head? = some '#' → '\n' ∉ l → Noise l := fun l h hn => ⟨hn, Or.inr (Or.inl h)⟩
  have blank : Noise [] := ⟨by simp, Or.inl (by simp)⟩
  have colon : ∀ n v : Str, n ≠ [] → (∀ x ∈ n, ¬ White x ∧ x ≠ ':' ∧ x ≠ '=') → (∀ x, n.head? = some x → x ≠ '#' ∧ x ≠ ';' ∧ x ≠ '[') →
      '\n' ∉ n ++ c!": " ++ v → n.map Char.toLower ≠ c!"rem" → n.map Char.toLower ≠ c!"__name__" → ';' ∉ v → v ≠ c!"\"\"" → Stripped v v →
      Assigns (n ++ c!": " ++ v) (n.map Char.toLower) v := by
    intro n v h1 h2 h3 h4 h5 h6 h7 h8 h9
    refine ⟨h4, n, [], ':', c!" ", v, v, by simp, h1, h2, h3, by simp, by decide, Or.inl rfl, ?_, rfl, fun h => absurd h h5, h6,
      .plain ?_ ?_ h9, by simp [unquoted, h8]⟩
    · obtain ⟨-, -, -, -, -, h, -⟩ := h9
      exact h
    · rintro x ⟨⟨y, rfl⟩, -⟩
      exact h7 (by simp)
    · intro hh
      exact absurd (List.mem_of_mem_head? hh) h7
  have r1 : Assigns c!"Carbon-Cache-Host: localhost" c!"carbon-cache-host" c!"localhost" :=
    colon c!"Carbon-Cache-Host" c!"localhost" (by decide) (by decide) (by simp) (by decide) (by decide) (by decide) (by decide) (by decide)
      ⟨[], [], rfl, by simp, by simp, by decide, by decide⟩
  have r2 : Assigns c!"listen-port: 8125" c!"listen-port" c!"8125" :=
    colon c!"listen-port" c!"8125" (by decide) (by decide) (by simp) (by decide) (by decide) (by decide) (by decide) (by decide)
      ⟨[], [], rfl, by simp, by simp, by decide, by decide⟩
  have r3 : Assigns c!"prefix:" c!"prefix" c!"" :=
    ⟨by decide, c!"prefix", [], ':', [], [], [], rfl, by decide, by decide, by simp, by simp, by simp, Or.inl rfl, by simp, by decide,
      by simp, by decide, .plain (by rintro x ⟨⟨y, hy⟩, -⟩; simp at hy) (by simp) ⟨[], [], rfl, by simp, by simp, by simp, by simp⟩, rfl⟩
  have r4 : Assigns c!"routing = any => drop ; not yet" c!"routing" c!"any => drop" :=
    ⟨by decide, c!"routing", c!" ", '=', c!" ", c!"any => drop ; not yet", c!"any => drop", rfl, by decide, by decide, by simp, by decide,
      by decide, Or.inr rfl, (by intro x hx; cases hx; decide), by decide, by decide, by decide,
      .cut (x := c!"any => drop ") ⟨⟨c!" not yet", rfl⟩, by decide, ' ', by decide, by decide⟩
        ⟨[], c!" ", rfl, by simp, by decide, by decide, by decide⟩, by decide⟩
  have r5 : Assigns c!"sample-key: sample-value" c!"sample-key" c!"sample-value" :=
    colon c!"sample-key" c!"sample-value" (by decide) (by decide) (by simp) (by decide) (by decide) (by decide) (by decide) (by decide)
      ⟨[], [], rfl, by simp, by simp, by decide, by decide⟩
  have c1 : Continues c!"  metric_type c => drop" c!"metric_type c => drop" :=
    ⟨by decide, ⟨c!"  ", [], rfl, by decide, by simp, by decide, by decide⟩, by decide, ' ', by decide, by decide⟩
  exact .sect (ls := exampleLines.tail.take 7) (ls' := exampleLines.drop 8) ⟨by decide, by decide, by decide, [], rfl⟩
    (.noise (noise _ rfl (by decide)) (.option (ls := []) r1 .nil (.option (ls := []) r2 .nil (.noise blank (.option (ls := []) r3 .nil
      (.option (ls := [c!"  metric_type c => drop"]) r4 (.cont c1 .nil) .nil))))))
    (.sect (ls := exampleLines.drop 9) (ls' := []) ⟨by decide, by decide, by decide, [], rfl⟩
      (.option (ls := []) r5 .nil (.noise blank .nil)) .nil)

/-- An instance of `C166_reads`. -/
example : readConfig (joinWith c!"\n" exampleLines) = .ok [(c!"statsd", [(c!"carbon-cache-host", c!"localhost"), (c!"listen-port", c!"8125"),
    (c!"prefix", c!""), (c!"routing", c!"any => drop\nmetric_type c => drop")]), (c!"plugin_sample", [(c!"sample-key", c!"sample-value")])] :=
  C166_reads exampleLines exampleSections exampleLines_file (by decide) (by decide) (by decide) (by decide)

/-- An instance of `C166_last`. -/
example := C166_last exampleLines exampleSections exampleLines_file (by decide)

/-- An instance of `C166_headless`: an option before the first section. -/
example : readConfig c!"# a\nprefix = x\n" = .error .otherError := by decide +kernel

/-- An instance of `C166_garbage`: a word alone. -/
example : readConfig c!"[statsd]\nprefix\nreport = net\n" = .error .otherError := by
  refine C166_garbage [c!"[statsd]"] [c!"report = net", []] [(c!"statsd", [])] (.sect (ls := []) ⟨by decide, by decide, by decide, [], rfl⟩ .nil .nil)
    (by simp) c!"prefix" (by decide) (by decide) ?_ ?_ (by decide) (by decide)
  · rintro ⟨-, h | h | h | ⟨r, rest, h, hr, -⟩⟩
    · exact absurd (h 'p' (by decide)) (by decide)
    · exact absurd h (by decide)
    · exact absurd h (by decide)
    · have : r.head? = some 'p' := by
        cases r with
        | nil => simp at hr
        | cons c r => simp only [List.cons_append, List.cons.injEq] at h; rw [← h.1]; rfl
      cases r with
      | nil => simp at this
      | cons c r =>
        simp only [List.head?_cons, Option.some.injEq] at this
        subst this
        revert hr
        simp [List.map_cons]
  · rintro name ⟨-, -, -, rest, h⟩
    simp at h

/-- An instance of `C166_start` and `C166_file_wins`: `-c f -x p`, and the file above. -/
example : ((startOptions (fun p => if p = c!"f" then some (joinWith c!"\n" exampleLines) else none) [c!"-c", c!"f", c!"-x", c!"p"]).toOption.map
    fun st => (st.values.find c!"listen-port", st.values.find c!"prefix", st.values.find c!"carbon-cache-host"))
    = some (some (.int 8125), some (.text []), some (.texts [c!"localhost"])) := by decide +kernel

/-- An instance of `C166_absent`. -/
example : (startOptions (fun _ => none) [c!"--config=f"]).toOption = none ∧ (startOptions (fun _ => none) [c!"--prefix=f"]).toOption ≠ none := by
  decide +kernel

end Txstatsd
