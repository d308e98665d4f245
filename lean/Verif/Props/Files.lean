import Verif.Lemmas.Files

/-!
# C142: reports from files
-/

set_option linter.unusedSectionVars false
set_option linter.unusedVariables false

namespace Txstatsd
open Spec

/-- C142: a text is cut into exactly its lines. -/
theorem C142_lines (text : Str) (ls : List Str) : splitLines text = ls ↔ TextLines text ls := textLines_iff.symm

example : TextLines ['a', '\r', '\n', '\r', 'b', '\n'] [['a'], [], ['b']] := by rw [← C142_lines]; decide

section
variable [Rounding]

/-- The generators as one report sees them. -/
def SysGens.view (g : SysGens) : SysReport → Option CounterGen
  | .netdev => some g.net
  | .cpu => some g.cpu
  | _ => none

theorem call_view (g h : SysGens) (m : Moment) (k : SysReport) (e : g.view k = h.view k) :
    (g.call m k).2 = (h.call m k).2 ∧ (g.call m k).1.view k = (h.call m k).1.view k := by
  cases k with
  | meminfo => exact ⟨rfl, rfl⟩
  | loadavg => exact ⟨rfl, rfl⟩
  | netdev =>
    have : g.net = h.net := by simpa [SysGens.view] using e
    simp [SysGens.call, SysGens.view, this]
  | cpu =>
    have : g.cpu = h.cpu := by simpa [SysGens.view] using e
    simp [SysGens.call, SysGens.view, this]

theorem call_other (g : SysGens) (m : Moment) (k k' : SysReport) (h : k ≠ k') : (g.call m k').1.view k = g.view k := by
  cases k <;> cases k' <;> first | rfl | exact absurd rfl h

/-- C142: the reports do not disturb each other: what one of them returns over any sequence of calls is what it would return alone. -/
theorem C142_alone (k : SysReport) (calls : List (Moment × SysReport)) :
    (({} : SysGens).run calls).filter (fun o => o.1 = k) = ({} : SysGens).run (calls.filter fun c => c.2 = k) := by
  have key : ∀ (calls : List (Moment × SysReport)) (g h : SysGens), g.view k = h.view k →
      (g.run calls).filter (fun o => o.1 = k) = h.run (calls.filter fun c => c.2 = k) := by
    intro calls
    induction calls with
    | nil => intro g h _; rfl
    | cons c calls ih =>
      intro g h e
      obtain ⟨m, k'⟩ := c
      by_cases hk : k' = k
      · subst hk
        obtain ⟨e1, e2⟩ := call_view g h m k' e
        rw [SysGens.run, List.filter_cons_of_pos (by simp), List.filter_cons_of_pos (by simp), SysGens.run, e1, ih _ _ e2]
      · rw [SysGens.run, List.filter_cons_of_neg (by simpa using hk), List.filter_cons_of_neg (by simpa using hk)]
        exact ih _ _ (by rw [call_other g m k k' (fun h => hk h.symm), e])
  exact key calls {} {} rfl

/-- The outcome of the call at a place of a run. -/
theorem run_at (calls : List (Moment × SysReport)) (g : SysGens) (i : ℕ) (m : Moment) (k : SysReport) (h : calls[i]? = some (m, k)) :
    ∃ g', (g.run calls)[i]? = some (k, (SysGens.call g' m k).2) := by
  induction calls generalizing g i with
  | nil => simp at h
  | cons c calls ih =>
    cases i with
    | zero =>
      obtain rfl : c = (m, k) := by simpa using h
      exact ⟨g, rfl⟩
    | succ i => exact ih (g.call c.1 c.2).1 i (by simpa using h)

/-- C142 (partial): whatever was called and failed before, the report about the memory gives what the file says at that moment. Missing
for the full claim (`C142_recovery_refuted`): the reports behind a generator. -/
theorem C142_memory_partial (calls : List (Moment × SysReport)) (i : ℕ) (m : Moment) (text : Str) (hc : calls[i]? = some (m, .meminfo))
    (hf : m.files c!"/proc/meminfo" = some text) (hl : ∀ l ∈ splitOn '\n' text, OtherLine l ∨ ∃ label v, MemLine l label v) :
    ∃ r, (({} : SysGens).run calls)[i]? = some (.meminfo, .ok r) ∧
      (∀ label v, r.find (c!"sys.mem." ++ label) = some v ↔ ∃ z : ℤ, v = .int z ∧ LastWith (fun l v => MemLine l label v) (splitOn '\n' text) z) ∧
      ∀ k ∈ r.keys, ∃ label ∈ memLabels, k = c!"sys.mem." ++ label := by
  obtain ⟨g, hg⟩ := run_at calls {} i m .meminfo hc
  obtain ⟨d, h1, h2, h3⟩ := C73_meminfo c!"sys.mem" text hl
  refine ⟨d.map fun p => (p.1, Num.int p.2), ?_, fun label v => ?_, fun k hk => ?_⟩
  · rw [hg]
    simp [SysGens.call, reportFile, loadFile, hf, h1, asNums]
  · have : Dict.find (d.map fun p => (p.1, Num.int p.2)) (c!"sys.mem." ++ label) = (d.find (c!"sys.mem." ++ label)).map Num.int :=
      Dict.find_map d (fun _ v => Num.int v) _
    rw [this]
    have h := h2 label
    constructor
    · intro hv
      rw [Option.map_eq_some_iff] at hv
      obtain ⟨z, hz, rfl⟩ := hv
      exact ⟨z, rfl, (h z).1 hz⟩
    · rintro ⟨z, rfl, hz⟩
      have h0 : d.find (c!"sys.mem." ++ label) = some z := (h z).2 hz
      rw [h0]; rfl
  · have := asNums_keys (f := Num.int) (d := d)
    exact h3 k (this ▸ hk)

/-- C142 (partial): likewise the load averages. -/
theorem C142_load_partial (calls : List (Moment × SysReport)) (i : ℕ) (m : Moment) (text a b c : Str) (rest : List Str) (x y z : PyFloat)
    (hc : calls[i]? = some (m, .loadavg)) (hf : m.files c!"/proc/loadavg" = some text)
    (hs : Separated (fun c => isSpace c = true) text (a :: b :: c :: rest))
    (hx : parseFloat a = some x) (hy : parseFloat b = some y) (hz : parseFloat c = some z) :
    ∃ r, (({} : SysGens).run calls)[i]? = some (.loadavg, .ok r) ∧ r.find c!"sys.loadavg.oneminute" = some (.flt x) ∧
      r.find c!"sys.loadavg.fiveminutes" = some (.flt y) ∧ r.find c!"sys.loadavg.fifthteenminutes" = some (.flt z) := by
  obtain ⟨g, hg⟩ := run_at calls {} i m .loadavg hc
  obtain ⟨d, h1, h2, h3, h4, -⟩ := C89_loadavg c!"sys.loadavg" text a b c rest x y z hs hx hy hz
  have hm : ∀ k, Dict.find (d.map fun p => (p.1, Num.flt p.2)) k = (d.find k).map Num.flt := Dict.find_map d fun _ v => Num.flt v
  refine ⟨d.map fun p => (p.1, Num.flt p.2), ?_, ?_, ?_, ?_⟩
  · rw [hg]
    simp [SysGens.call, reportFile, loadFile, hf, h1, asNums]
  · rw [hm]; exact congrArg (Option.map Num.flt) h2
  · rw [hm]; exact congrArg (Option.map Num.flt) h3
  · rw [hm]; exact congrArg (Option.map Num.flt) h4

/-- C142: a file that cannot be read makes its report fail, then and only then. -/
theorem C142_missing (calls : List (Moment × SysReport)) (i : ℕ) (m : Moment) (k : SysReport) (name : Str)
    (hk : (k, name) ∈ [(SysReport.meminfo, c!"/proc/meminfo"), (SysReport.loadavg, c!"/proc/loadavg")])
    (hc : calls[i]? = some (m, k)) (hf : m.files name = none) : (({} : SysGens).run calls)[i]? = some (k, .error .otherError) := by
  obtain ⟨g, hg⟩ := run_at calls {} i m k hc
  rw [hg]
  simp only [List.mem_cons, Prod.mk.injEq, List.not_mem_nil, or_false] at hk
  rcases hk with ⟨rfl, rfl⟩ | ⟨rfl, rfl⟩ <;> simp [SysGens.call, reportFile, loadFile, hf, asNums]

/-- The readings of the traffic report. -/
def netReading (m : Moment) : Except PyErr (Dict Num) :=
  asNums Num.int (reportFile c!"/proc/net/dev" (fun s => parseNetdev c!"sys.net" (splitLines s)) m.files)

theorem run_net (ms : List Moment) (g : SysGens) :
    g.run (ms.map fun m => (m, .netdev)) = (g.net.run (ms.map netReading)).map fun o => (SysReport.netdev, o) := by
  induction ms generalizing g with
  | nil => rfl
  | cons m ms ih =>
    show (_, _) :: SysGens.run _ (ms.map fun m => (m, .netdev)) = _
    rw [ih]
    rfl

/-- C142: over any number of readings of `/proc/net/dev`, between which no device appears, what is reported for a device adds up to the
difference between the last and the first count in the file. -/
theorem C142_traffic (m0 : Moment) (ms : List Moment) (text : Moment → Str) (dev suffix column : Str) (v0 v : ℤ)
    (ht : ∀ m ∈ m0 :: ms, m.files c!"/proc/net/dev" = some (text m) ∧ ∃ columns lines, NetText (text m) columns lines)
    (hd : List.IsChain (fun a b => ∀ d, HasDevice (text b) d → HasDevice (text a) d) (m0 :: ms))
    (hn : NetName suffix column) (h0 : NetCount (text m0) dev column v0)
    (hv : NetCount (text ((m0 :: ms).getLast (by simp))) dev column v) :
    ∃ outs : List (Dict Num), ({} : SysGens).run ((m0 :: ms).map fun m => (m, .netdev)) =
        (.netdev, .ok []) :: outs.map (fun o => (SysReport.netdev, .ok o)) ∧
      (outs.map fun o => intAt o (c!"sys.net." ++ dev ++ suffix)).sum = v - v0 := by
  -- what each moment reads
  have hread : ∀ m ∈ m0 :: ms, ∃ res : Dict ℤ, netReading m = .ok (res.map fun p => (p.1, Num.int p.2)) ∧ res.Wf ∧
      (∀ dev s c v, NetName s c → (res.find (c!"sys.net" ++ c!"." ++ dev ++ s) = some v ↔ NetCount (text m) dev c v)) ∧
      (∀ k ∈ res.keys, ∃ dev s c, NetName s c ∧ k = c!"sys.net" ++ c!"." ++ dev ++ s ∧ HasDevice (text m) dev) ∧
      (∀ dev s c, NetName s c → HasDevice (text m) dev → ∃ v, res.find (c!"sys.net" ++ c!"." ++ dev ++ s) = some v) := by
    intro m hm
    obtain ⟨hf, columns, lines, hnt⟩ := ht m hm
    obtain ⟨res, h1, h2, h3, h4, h5⟩ := netText_parse hnt c!"sys.net"
    refine ⟨res, ?_, h2, fun dev s c v hs => ?_, fun k hk => ?_, fun dev s c hs hdv => ?_⟩
    · simp [netReading, reportFile, loadFile, hf, h1, asNums]
    · rw [h3 dev s c v hs]
      constructor
      · rintro ⟨nums, g1, g2⟩; exact ⟨columns, lines, nums, hnt, g1, g2⟩
      · rintro ⟨c', l', nums, g0, g1, g2⟩
        obtain ⟨rfl, rfl⟩ := netText_unique g0 hnt
        exact ⟨nums, g1, g2⟩
    · obtain ⟨d, s, c, g1, g2, g3⟩ := h4 k hk
      exact ⟨d, s, c, g1, g2, columns, lines, hnt, g3⟩
    · obtain ⟨c', l', g0, g1⟩ := hdv
      obtain ⟨rfl, rfl⟩ := netText_unique g0 hnt
      exact h5 dev s c hs g1
  classical
  choose! res hres using hread
  let rd : Moment → Dict Num := fun m => (res m).map fun p => (p.1, Num.int p.2)
  have hfind : ∀ m k, (rd m).find k = ((res m).find k).map Num.int := fun m k => Dict.find_map (res m) (fun _ v => Num.int v) k
  have hkeys : ∀ m, (rd m).keys = (res m).keys := fun m => asNums_keys
  have hchain : List.IsChain (fun a b : Dict Num => ∀ k ∈ b.keys, k ∈ a.keys) ((m0 :: ms).map rd) := by
    rw [List.isChain_map]
    have hmem : ∀ (l : List Moment), (∀ m ∈ l, m ∈ m0 :: ms) →
        List.IsChain (fun a b => ∀ d, HasDevice (text b) d → HasDevice (text a) d) l →
        List.IsChain (fun a b => ∀ k ∈ (rd b).keys, k ∈ (rd a).keys) l := by
      intro l
      induction l with
      | nil => intro _ _; exact .nil
      | cons a l ih =>
        intro hl hc
        cases l with
        | nil => exact .singleton _
        | cons b l =>
          rw [List.isChain_cons_cons] at hc ⊢
          refine ⟨fun k hk => ?_, ih (fun m hm => hl m (by simp [hm])) hc.2⟩
          rw [hkeys] at hk ⊢
          obtain ⟨d, s, c, g1, rfl, g3⟩ := (hres b (hl b (by simp))).2.2.2.1 k hk
          obtain ⟨v, hv⟩ := (hres a (hl a (by simp))).2.2.2.2 d s c g1 (hc.1 d g3)
          rw [← Dict.find_isSome_iff, hv]; rfl
    exact hmem _ (fun m hm => hm) hd
  have hlast : HasDevice (text ((m0 :: ms).getLast (by simp))) dev := by
    obtain ⟨columns, lines, nums, g1, ⟨p, l, q, rfl, g2, g3⟩, g4⟩ := hv
    exact ⟨columns, _, g1, l, by simp, nums, g2⟩
  have hall : ∀ m ∈ m0 :: ms, HasDevice (text m) dev := by
    have : ∀ (l : List Moment) (hne : l ≠ []), List.IsChain (fun a b => ∀ d, HasDevice (text b) d → HasDevice (text a) d) l →
        HasDevice (text (l.getLast hne)) dev → ∀ m ∈ l, HasDevice (text m) dev := by
      intro l
      induction l with
      | nil => intro hne; exact absurd rfl hne
      | cons a l ih =>
        intro hne hc hl m hm
        cases l with
        | nil => obtain rfl : m = a := by simpa using hm
                 exact hl
        | cons b l =>
          rw [List.isChain_cons_cons] at hc
          have hrest := ih (by simp) hc.2 (by simpa using hl)
          rcases List.mem_cons.1 hm with rfl | hm
          · exact hc.1 dev (hrest b (by simp))
          · exact hrest m hm
    exact this _ (by simp) hd hlast
  have hz : ∀ r ∈ (m0 :: ms).map rd, Dict.Wf r ∧ ∃ z, Dict.find r (c!"sys.net" ++ c!"." ++ dev ++ suffix) = some (.int z) := by
    intro r hr
    obtain ⟨m, hm, rfl⟩ := List.mem_map.1 hr
    refine ⟨?_, ?_⟩
    · have := (hres m hm).2.1
      unfold Dict.Wf at this ⊢
      rw [hkeys]; exact this
    · obtain ⟨z, hz⟩ := (hres m hm).2.2.2.2 dev suffix column hn (hall m hm)
      exact ⟨z, by rw [hfind, hz]; rfl⟩
  obtain ⟨outs, ho, hsum⟩ := C72_sum (k := c!"sys.net" ++ c!"." ++ dev ++ suffix) (ms.map rd) (rd m0) hchain hz
  refine ⟨outs, ?_, ?_⟩
  · rw [run_net]
    have : (m0 :: ms).map netReading = ((rd m0) :: ms.map rd).map Except.ok := by
      show _ = ((m0 :: ms).map rd).map Except.ok
      rw [List.map_map]
      exact List.map_congr_left fun m hm => (hres m hm).1
    rw [this, ho]
    simp
  · have hat : ∀ m ∈ m0 :: ms, ∀ z, NetCount (text m) dev column z → intAt (rd m) (c!"sys.net" ++ c!"." ++ dev ++ suffix) = z := by
      intro m hm z hz
      unfold intAt
      rw [hfind, ((hres m hm).2.2.1 dev suffix column z hn).2 hz]
      rfl
    have hl : (rd m0 :: ms.map rd).getLast (by simp) = rd ((m0 :: ms).getLast (by simp)) := by
      show ((m0 :: ms).map rd).getLast (by simp) = _
      rw [List.getLast_map]
    rw [hl, hat _ (List.getLast_mem _) v hv, hat m0 (by simp) v0 h0] at hsum
    exact hsum

/-- C142: after its first failure the traffic report never gives anything again, whatever the file says. -/
theorem C142_stuck (g : SysGens) (m : Moment) (e : PyErr) (h : (g.call m .netdev).2 = .error e) (later : List Moment) :
    (g.call m .netdev).1.run (later.map fun m => (m, .netdev)) = later.map fun _ => (SysReport.netdev, .error .stopIteration) := by
  rw [run_net]
  have hd : (g.call m .netdev).1.net.dead = true := by
    simp only [SysGens.call, CounterGen.next] at h ⊢
    split at h
    · rename_i hd; simp [hd]
    · rename_i hd
      simp only [hd]
      split at h
      · rfl
      · split at h
        · cases h
        · split at h
          · rfl
          · cases h
  rw [run_dead _ hd, List.map_map, List.map_map]
  rfl

/-- C142: the standard reports share no name: no two of them ever report the same metric, whatever they read. -/
theorem C142_names (a b : Kind) (k : Str) (ha : ReportsName a k) (hb : ReportsName b k) : a = b := by
  -- how the names of each begin
  let starts : Kind → List Str := fun a => match a with
    | .process => [c!"proc.cpu.percent", c!"proc.memory.", c!"proc.threads"]
    | .cpuCounters => [c!"proc.cpu.user", c!"proc.cpu.system"]
    | .io => [c!"proc.io."]
    | .connections => [c!"proc.net."]
    | .meminfo => [c!"sys.mem."]
    | .loadavg => [c!"sys.loadavg."]
    | .netdev => [c!"sys.net."]
    | .cpu => [c!"sys.cpu."]
    | .threadpool => [c!"threadpool."]
    | .reactor => [c!"reactor."]
  have key : ∀ a k, ReportsName a k → ∃ p ∈ starts a, p <+: k := by
    intro a k h
    cases h with
    | process m cpu pc th r k h hk =>
      unfold getMemoryAndCpu at h
      split at h
      · cases h
        have : k ∈ [c!"proc.cpu.percent", c!"proc.memory.percent", c!"proc.memory.vsize", c!"proc.memory.rss", c!"proc.threads"] := by
          cases th with
          | none =>
            have hk' : k ∈ [c!"proc.cpu.percent", c!"proc.memory.percent", c!"proc.memory.vsize", c!"proc.memory.rss"] := hk
            simp only [List.mem_cons, List.not_mem_nil, or_false] at hk' ⊢
            tauto
          | some n =>
            have hk' := (Dict.mem_keys_put _ _ _ _).1 hk
            have hk' : k = c!"proc.threads" ∨ k ∈ [c!"proc.cpu.percent", c!"proc.memory.percent", c!"proc.memory.vsize", c!"proc.memory.rss"] := hk'
            simp only [List.mem_cons, List.not_mem_nil, or_false] at hk' ⊢
            tauto
        simp only [List.mem_cons, List.not_mem_nil, or_false] at this
        rcases this with rfl | rfl | rfl | rfl | rfl <;> decide
      · cases h
    | cpuCounters g ts r k h hk =>
      obtain ⟨d, hd, hk⟩ := next_keys g _ r h k hk
      unfold getCpuCounters at hd
      split at hd
      · cases hd
        have hk' : k ∈ [c!"proc.cpu.user", c!"proc.cpu.system"] := hk
        simp only [List.mem_cons, List.not_mem_nil, or_false] at hk'
        rcases hk' with rfl | rfl <;> decide
      · cases hd
    | io g ts r k h hk =>
      obtain ⟨d, hd, hk⟩ := next_keys g _ r h k hk
      unfold getIoCounters at hd
      split at hd
      · cases hd; cases hk
      · cases hd
        have hk' : k ∈ [c!"proc.io.read.count", c!"proc.io.write.count", c!"proc.io.read.bytes", c!"proc.io.write.bytes"] := hk
        simp only [List.mem_cons, List.not_mem_nil, or_false] at hk'
        rcases hk' with rfl | rfl | rfl | rfl <;> decide
      · cases hd
    | connections cs k hk =>
      refine ⟨_, List.mem_singleton.2 rfl, ?_⟩
      unfold getNetStats at hk
      split at hk
      · cases hk
      · rcases netStat_keys _ _ _ _ hk with h | h
        · cases h
        · exact h
    | meminfo g m r k h hk =>
      refine ⟨_, List.mem_singleton.2 rfl, ?_⟩
      obtain ⟨d, hd, rfl⟩ := asNums_ok h
      obtain ⟨t, -, ht⟩ := reportFile_ok hd
      rw [asNums_keys] at hk
      rcases memLoop_keys _ _ _ _ ht k hk with h | h
      · cases h
      · exact h
    | loadavg g m r k h hk =>
      refine ⟨_, List.mem_singleton.2 rfl, ?_⟩
      obtain ⟨d, hd, rfl⟩ := asNums_ok h
      obtain ⟨t, -, ht⟩ := reportFile_ok hd
      rw [asNums_keys] at hk
      unfold parseLoadavg at ht
      split at ht
      · cases ht
      · cases ht
        have := dictZip_keys _ _ _ hk
        simp only [List.mem_cons, List.not_mem_nil, or_false] at this
        rcases this with rfl | rfl | rfl <;> decide
    | netdev g m r k h hk =>
      refine ⟨_, List.mem_singleton.2 rfl, ?_⟩
      obtain ⟨d, hd, hk⟩ := next_keys g.net _ r h k hk
      obtain ⟨d', hd', rfl⟩ := asNums_ok hd
      obtain ⟨t, -, ht⟩ := reportFile_ok hd'
      rw [asNums_keys] at hk
      obtain ⟨l, -, dev, nums, s, c, -, -, rfl⟩ := (parseNetdev_ok ht).2 k hk
      exact ⟨dev ++ s, by simp⟩
    | cpu g m r k h hk =>
      refine ⟨_, List.mem_singleton.2 rfl, ?_⟩
      obtain ⟨d, hd, hk⟩ := next_keys g.cpu _ r h k hk
      cases hd
      rcases putModes_keys _ _ _ _ hk with h | h
      · cases h
      · exact h
    | threadpool a b c d k hk =>
      have hk' : k ∈ [c!"threadpool.working", c!"threadpool.queue", c!"threadpool.waiters", c!"threadpool.threads"] := hk
      simp only [List.mem_cons, List.not_mem_nil, or_false] at hk'
      rcases hk' with rfl | rfl | rfl | rfl <;> decide
    | reactor a b k hk =>
      have hk' : k ∈ [c!"reactor.readers", c!"reactor.writers"] := hk
      simp only [List.mem_cons, List.not_mem_nil, or_false] at hk'
      rcases hk' with rfl | rfl <;> decide
  obtain ⟨p, hp, hpk⟩ := key a k ha
  obtain ⟨q, hq, hqk⟩ := key b k hb
  have : ∀ a b : Kind, ∀ p ∈ starts a, ∀ q ∈ starts b, (p <+: q ∨ q <+: p) → a = b := by
    intro a b
    cases a <;> cases b <;> decide
  exact this a b p hp q hq (List.prefix_or_prefix_of_prefix hpk hqk)

/-- C142: a thread pool and a reactor are reported under their four and two names. -/
theorem C142_pools (pre : Str) (working queue waiters threads readers writers : ℕ) (k : Str) (v : Num) :
    ((threadpoolStats pre working queue waiters threads).find k = some v ↔
      ∃ name n, (name, n) ∈ [(c!"working", working), (c!"queue", queue), (c!"waiters", waiters), (c!"threads", threads)] ∧
        k = pre ++ c!"." ++ name ∧ v = .int n) ∧
    ((reactorStats pre readers writers).find k = some v ↔
      ∃ name n, (name, n) ∈ [(c!"readers", readers), (c!"writers", writers)] ∧ k = pre ++ c!"." ++ name ∧ v = .int n) := by
  have hne : ∀ a b : Str, a ≠ b → pre ++ a ≠ pre ++ b := fun a b h h' => h (List.append_cancel_left h')
  constructor
  · rw [← Dict.mem_iff_find]
    · unfold threadpoolStats
      simp only [List.mem_cons, List.not_mem_nil, or_false, Prod.mk.injEq]
      constructor
      · rintro (⟨rfl, rfl⟩ | ⟨rfl, rfl⟩ | ⟨rfl, rfl⟩ | ⟨rfl, rfl⟩)
        · exact ⟨_, _, Or.inl ⟨rfl, rfl⟩, by simp, rfl⟩
        · exact ⟨_, _, Or.inr (Or.inl ⟨rfl, rfl⟩), by simp, rfl⟩
        · exact ⟨_, _, Or.inr (Or.inr (Or.inl ⟨rfl, rfl⟩)), by simp, rfl⟩
        · exact ⟨_, _, Or.inr (Or.inr (Or.inr ⟨rfl, rfl⟩)), by simp, rfl⟩
      · rintro ⟨name, n, (⟨rfl, rfl⟩ | ⟨rfl, rfl⟩ | ⟨rfl, rfl⟩ | ⟨rfl, rfl⟩), rfl, rfl⟩ <;> simp
    · simp [Dict.Wf, Dict.keys, threadpoolStats]
  · rw [← Dict.mem_iff_find]
    · unfold reactorStats
      simp only [List.mem_cons, List.not_mem_nil, or_false, Prod.mk.injEq]
      constructor
      · rintro (⟨rfl, rfl⟩ | ⟨rfl, rfl⟩)
        · exact ⟨_, _, Or.inl ⟨rfl, rfl⟩, by simp, rfl⟩
        · exact ⟨_, _, Or.inr ⟨rfl, rfl⟩, by simp, rfl⟩
      · rintro ⟨name, n, (⟨rfl, rfl⟩ | ⟨rfl, rfl⟩), rfl, rfl⟩ <;> simp
    · simp [Dict.Wf, Dict.keys, reactorStats]

end

/-! ## Recovery -/

section
attribute [local instance] ratRounding

/-- A file like `/proc/net/dev` with these lines. -/
def exNet (lines : List Str) : Files := fun name =>
  if name = c!"/proc/net/dev" then
    some (c!"Inter-|   Receive  |  Transmit\n face |bytes packets|bytes packets\n" ++ (lines.map fun l => l ++ c!"\n").flatten)
  else none

theorem exNet_text (lines : List Str)
    (hs : splitLines ((exNet lines c!"/proc/net/dev").getD []) = c!"Inter-|   Receive  |  Transmit" :: c!" face |bytes packets|bytes packets" :: lines)
    (hl : ∀ l ∈ lines, ∃ dev nums, DeviceLine l dev nums ∧ 4 ≤ nums.length) :
    NetText ((exNet lines c!"/proc/net/dev").getD []) [c!"recv_bytes", c!"recv_packets", c!"send_bytes", c!"send_packets"] lines := by
  refine ⟨c!"Inter-|   Receive  |  Transmit", c!" face ", c!"bytes packets", c!"bytes packets", [c!"bytes", c!"packets"],
    [c!"bytes", c!"packets"], ?_, by decide, by decide, by decide, ?_, ?_, by decide, by decide, by decide, by decide, by decide,
    by decide, by decide, ?_⟩
  · rw [← C142_lines]; exact hs
  · rw [separated_iff]; decide +kernel
  · rw [separated_iff]; decide +kernel
  · exact fun l h => Or.inr (hl l h)

/-- C142, refuted: a report should give something whenever its file is in order. The traffic report does not: a device that appears
ends it for good. -/
theorem C142_recovery_refuted : ¬ ∀ (calls : List (Moment × SysReport)) (i : ℕ) (m : Moment) (text : Str) (columns lines : List Str),
    calls[i]? = some (m, .netdev) → m.files c!"/proc/net/dev" = some text → NetText text columns lines →
    ∃ r, (({} : SysGens).run calls)[i]? = some (.netdev, .ok r) := by
  intro h
  let m1 : Moment := ⟨exNet [c!"lo: 1 2 3 4"], []⟩
  let m2 : Moment := ⟨exNet [c!"lo: 1 2 3 4", c!"usb: 1 1 1 1"], []⟩
  have := h [(m1, .netdev), (m2, .netdev), (m2, .netdev)] 2 m2 _ [c!"recv_bytes", c!"recv_packets", c!"send_bytes", c!"send_packets"]
    [c!"lo: 1 2 3 4", c!"usb: 1 1 1 1"] rfl rfl ?_
  · obtain ⟨r, hr⟩ := this
    have e : (({} : SysGens).run [(m1, .netdev), (m2, .netdev), (m2, .netdev)])[2]? = some (.netdev, .error .stopIteration) := by rfl
    rw [e] at hr
    cases hr
  · refine exNet_text [c!"lo: 1 2 3 4", c!"usb: 1 1 1 1"] (by decide +kernel) ?_
    intro l hl
    simp only [List.mem_cons, List.not_mem_nil, or_false] at hl
    rcases hl with rfl | rfl
    · exact ⟨c!"lo", [1, 2, 3, 4], ⟨c!"lo", c!" 1 2 3 4", [c!"1", c!"2", c!"3", c!"4"], rfl, by decide, by decide,
          strip_spec c!"lo", separated_iff.2 (by decide +kernel), intsOf_iff.1 (by decide +kernel)⟩, by decide⟩
    · exact ⟨c!"usb", [1, 1, 1, 1], ⟨c!"usb", c!" 1 1 1 1", [c!"1", c!"1", c!"1", c!"1"], rfl, by decide, by decide,
          strip_spec c!"usb", separated_iff.2 (by decide +kernel), intsOf_iff.1 (by decide +kernel)⟩, by decide⟩

/-- The hypotheses of `C142_traffic` on two readings. -/
example : ∃ outs : List (Dict Num), ({} : SysGens).run ([⟨exNet [c!"lo: 1 2 3 4"], []⟩, ⟨exNet [c!"lo: 5 3 10 5"], []⟩].map fun m =>
      (m, .netdev)) = (.netdev, .ok []) :: outs.map (fun o => (SysReport.netdev, .ok o)) ∧
    (outs.map fun o => intAt o (c!"sys.net." ++ c!"lo" ++ c!".bytes.received")).sum = 5 - 1 := by
  have d1 : DeviceLine c!"lo: 1 2 3 4" c!"lo" [1, 2, 3, 4] := ⟨c!"lo", c!" 1 2 3 4", [c!"1", c!"2", c!"3", c!"4"], rfl, by decide, by decide,
    strip_spec c!"lo", separated_iff.2 (by decide +kernel), intsOf_iff.1 (by decide +kernel)⟩
  have d2 : DeviceLine c!"lo: 5 3 10 5" c!"lo" [5, 3, 10, 5] := ⟨c!"lo", c!" 5 3 10 5", [c!"5", c!"3", c!"10", c!"5"], rfl, by decide, by decide,
    strip_spec c!"lo", separated_iff.2 (by decide +kernel), intsOf_iff.1 (by decide +kernel)⟩
  have t1 := exNet_text [c!"lo: 1 2 3 4"] (by decide +kernel) (by simpa using ⟨_, _, d1, by decide⟩)
  have t2 := exNet_text [c!"lo: 5 3 10 5"] (by decide +kernel) (by simpa using ⟨_, _, d2, by decide⟩)
  refine C142_traffic ⟨exNet [c!"lo: 1 2 3 4"], []⟩ [⟨exNet [c!"lo: 5 3 10 5"], []⟩] (fun m => (m.files c!"/proc/net/dev").getD [])
    c!"lo" c!".bytes.received" c!"recv_bytes" 1 5 ?_ ?_ .recvBytes ?_ ?_
  · intro m hm
    simp only [List.mem_cons, List.not_mem_nil, or_false] at hm
    rcases hm with rfl | rfl
    · exact ⟨rfl, _, _, t1⟩
    · exact ⟨rfl, _, _, t2⟩
  · rw [List.isChain_cons_cons]
    refine ⟨fun d ⟨c, ls, h, l, hl, nums, hd⟩ => ?_, .singleton _⟩
    obtain ⟨rfl, rfl⟩ := netText_unique h t2
    obtain rfl : l = c!"lo: 5 3 10 5" := by simpa using hl
    obtain ⟨rfl, -⟩ := deviceLine_unique hd d2
    exact ⟨_, _, t1, _, by simp, _, d1⟩
  · exact ⟨_, _, _, t1, ⟨[], _, [], rfl, d1, by simp⟩, 0, rfl, rfl⟩
  · exact ⟨_, _, _, t2, ⟨[], _, [], rfl, d2, by simp⟩, 0, rfl, rfl⟩

example : ({} : SysGens).run [(⟨exNet [c!"lo: 1 2 3 4"], []⟩, .netdev), (⟨exNet [c!"lo: 5 3 10 5"], []⟩, .netdev),
      (⟨fun _ => none, []⟩, .netdev), (⟨exNet [c!"lo: 6 3 10 5"], []⟩, .netdev)]
    = [(.netdev, .ok []), (.netdev, .ok [(c!"sys.net.lo.bytes.received", .int 4), (c!"sys.net.lo.bytes.sent", .int 7),
        (c!"sys.net.lo.packets.received", .int 1), (c!"sys.net.lo.packets.sent", .int 1)]),
      (.netdev, .error .otherError), (.netdev, .error .stopIteration)] := by rfl

example : ({} : SysGens).run [(⟨fun _ => none, []⟩, .meminfo), (⟨fun _ => some c!"MemFree: 2 kB\n", []⟩, .meminfo)]
    = [(.meminfo, .error .otherError), (.meminfo, .ok [(c!"sys.mem.MemFree", .int 2048)])] := by rfl

end
end Txstatsd
