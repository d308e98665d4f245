import Verif.Lemmas.ProcessReport
import Verif.Props.System

/-!
# C100, C101: the reports of process.py
-/

set_option linter.unusedVariables false

namespace Txstatsd
open Spec

/-! ## C100 -/

/-- C100, the expectation: `memory.rss` is the resident set size and `memory.vsize` the virtual memory size. False of the code, which
unpacks what `psutil` returns in the other order. -/
theorem C100_memory_refuted : ¬ ∀ (pre : Str) (rss vms cpu percent : Num) (threads : Option Num),
    ∃ r, getMemoryAndCpu pre (memoryInfo rss vms) cpu percent threads = .ok r ∧
      r.find (pre ++ c!".memory.rss") = some rss ∧ r.find (pre ++ c!".memory.vsize") = some vms := by
  intro h
  obtain ⟨r, h1, h2, -⟩ := h c!"proc" (.int 1) (.int 2) (.int 0) (.int 0) none
  simp only [getMemoryAndCpu, memoryInfo, Except.ok.injEq] at h1
  subst h1
  revert h2
  decide

/-- C100: the two are always exchanged. -/
theorem C100_memory_swapped (pre : Str) (rss vms cpu percent : Num) (threads : Option Num) :
    ∃ r, getMemoryAndCpu pre (memoryInfo rss vms) cpu percent threads = .ok r ∧
      r.find (pre ++ c!".memory.rss") = some vms ∧ r.find (pre ++ c!".memory.vsize") = some rss := by
  cases threads <;>
    (refine ⟨_, rfl, ?_, ?_⟩ <;> simp [Dict.find, Dict.put])

/-- C100, the part that holds: the other four metrics are what their names say, and there are no more; the number of threads is missing
iff `psutil` does not tell. -/
theorem C100_process_partial (pre : Str) (a b cpu percent : Num) (threads : Option Num) :
    ∃ r, getMemoryAndCpu pre [a, b] cpu percent threads = .ok r ∧ r.find (pre ++ c!".cpu.percent") = some cpu ∧
      r.find (pre ++ c!".memory.percent") = some percent ∧ r.find (pre ++ c!".threads") = threads ∧
      ∀ k ∈ r.keys, k ∈ [c!".cpu.percent", c!".memory.percent", c!".memory.rss", c!".memory.vsize", c!".threads"].map (pre ++ ·) := by
  cases threads <;>
    (refine ⟨_, rfl, ?_, ?_, ?_, ?_⟩ <;> simp [Dict.find, Dict.put, Dict.keys])

/-- C100: the CPU times and the input/output counts of the process are under their names; without `io_counters` there is nothing. -/
theorem C100_counters_partial (pre : Str) (user system a b c d : Num) :
    (∃ r, getCpuCounters pre [user, system] = .ok r ∧ r.find (pre ++ c!".cpu.user") = some user ∧
      r.find (pre ++ c!".cpu.system") = some system ∧ r.length = 2) ∧
    (∃ r, getIoCounters pre (some [a, b, c, d]) = .ok r ∧ r.find (pre ++ c!".read.count") = some a ∧
      r.find (pre ++ c!".write.count") = some b ∧ r.find (pre ++ c!".read.bytes") = some c ∧
      r.find (pre ++ c!".write.bytes") = some d ∧ r.length = 4) ∧ getIoCounters pre none = .ok [] := by
  refine ⟨⟨_, rfl, ?_, ?_, rfl⟩, ⟨_, rfl, ?_, ?_, ?_, ?_, rfl⟩, rfl⟩ <;> simp [Dict.find]

/-- C100: a `psutil` whose tuples have more fields makes the reports fail. -/
theorem C100_more_fields (pre : Str) (a b c d e cpu percent : Num) (threads : Option Num) (more : List Num) :
    getMemoryAndCpu pre (a :: b :: c :: more) cpu percent threads = .error .valueError ∧
    getCpuCounters pre (a :: b :: c :: more) = .error .valueError ∧
    getIoCounters pre (some (a :: b :: c :: d :: e :: more)) = .error .valueError := ⟨rfl, rfl, rfl⟩

/-- C100: the times of all CPUs together are reported under their modes. -/
theorem C100_cpu_partial (pre : Str) (times : List (Str × Num)) (hn : (times.map Prod.fst).Nodup) (k : Str) (v : Num) :
    (systemStats pre times).find k = some v ↔ ∃ mode, (mode, v) ∈ times ∧ k = pre ++ c!".cpu." ++ mode := by
  unfold systemStats
  rw [putModes_eq, foldl_put_iff]
  · simp only [List.mem_map, Prod.exists, Prod.mk.injEq]
    constructor
    · rintro ⟨mode, v', h, rfl, rfl⟩; exact ⟨mode, h, rfl⟩
    · rintro ⟨mode, h, rfl⟩; exact ⟨mode, v, h, rfl, rfl⟩
  · intro k v v' h h'
    simp only [List.mem_map, Prod.exists, Prod.mk.injEq] at h h'
    obtain ⟨m, _, h1, rfl, rfl⟩ := h
    obtain ⟨m', _, h2, h3, rfl⟩ := h'
    obtain rfl := List.append_cancel_left h3
    exact Option.some.inj (((Dict.mem_iff_find hn _ _).1 h1).symm.trans ((Dict.mem_iff_find hn _ _).1 h2))

/-- C100: and those of each CPU under its number, of at least three digits, and mode: for any number of CPUs and any modes, no two
values share a name. -/
theorem C100_percpu_partial (pre : Str) (cpus : List (List (Str × Num))) (hn : ∀ t ∈ cpus, (t.map Prod.fst).Nodup) (k : Str) (v : Num) :
    (systemStatsPerCpu pre cpus).find k = some v ↔
      ∃ (i : ℕ) (t : List (Str × Num)) (mode : Str), cpus[i]? = some t ∧ (mode, v) ∈ t ∧
        k = pre ++ c!".cpu." ++ cpuLabel i ++ c!"." ++ mode := systemStatsPerCpu_spec pre cpus hn k v

example : systemStatsPerCpu c!"sys" [[(c!"user", .int 1), (c!"idle", .int 2)], [(c!"user", .int 3)]]
    = [(c!"sys.cpu.000.user", .int 1), (c!"sys.cpu.000.idle", .int 2), (c!"sys.cpu.001.user", .int 3)] := by decide +kernel
example : ∀ t ∈ [[(c!"user", Num.int 1), (c!"idle", .int 2)], [(c!"user", .int 3)]], (t.map Prod.fst).Nodup := by decide
example : cpuLabel 7 = c!"007" ∧ cpuLabel 1234 = c!"1234" := by decide +kernel

/-! ## C101 -/

section
variable [Rounding]

/-- C101: a counter report that runs twice on the same reading reports the true difference first and then, whatever happened
before, zero for every integer counter. -/
theorem C101_repeated (last d : Dict Num) (hd : d.Wf) (hk : ∀ k ∈ d.keys, k ∈ last.keys) :
    ∃ g r r', (({ last := some last } : CounterGen).next (.ok d)) = (g, .ok r) ∧ (g.next (.ok d)).2 = .ok r' ∧
      ∀ k z old, d.find k = some (.int z) → last.find k = some (.int old) →
        r.find k = some (.int (z - old)) ∧ r'.find k = some (.int 0) := by
  obtain ⟨r, h1, h2⟩ := C72_difference last d hd hk
  obtain ⟨r', h3, h4⟩ := C72_difference d d hd (fun k h => h)
  refine ⟨_, r, r', h1, by rw [h3], fun k z old hz ho => ⟨?_, ?_⟩⟩
  · rw [h2, hz, ho]; rfl
  · rw [h4, hz]; simp [Num.sub]

/-- C101 (partial): run once per reading, it reports the increase since the previous run. (`C72_sum`: over any number of runs.) -/
theorem C101_once_partial (last d : Dict Num) (hd : d.Wf) (hk : ∀ k ∈ d.keys, k ∈ last.keys) (k : Str) (z old : ℤ)
    (hz : d.find k = some (.int z)) (ho : last.find k = some (.int old)) :
    ∃ r, (({ last := some last } : CounterGen).next (.ok d)).2 = .ok r ∧ r.find k = some (.int (z - old)) := by
  obtain ⟨g, r, r', h1, -, h3⟩ := C101_repeated last d hd hk
  exact ⟨r, by rw [h1], (h3 k z old hz ho).1⟩

end

section
attribute [local instance] ratRounding

/-- The report that stands after a minute in which the report function ran `n` times: that of the last run. -/
def standing (last reading : Dict Num) (n : ℕ) : Option (Dict Num) :=
  match (({ last := some last } : CounterGen).run (List.replicate n (.ok reading))).getLast? with
  | some (.ok r) => some r
  | _ => none

/-- C101, the expectation: a counter report scheduled any number of times (its group is listed more than once in the option `report`)
leaves, each minute, the increase over that minute. False: the occurrences share one generator, and the last one reports zero. -/
theorem C101_refuted : ¬ ∀ (last reading : Dict Num) (n : ℕ) (k : Str) (old z : ℤ), 0 < n → last.find k = some (.int old) →
    reading.find k = some (.int z) → ((standing last reading n).bind fun r => r.find k) = some (.int (z - old)) := by
  intro h
  have := h [(c!"k", .int 1)] [(c!"k", .int 5)] 2 c!"k" 1 5 (by decide) (by decide) (by decide)
  revert this
  decide +kernel

example : standing [(c!"k", .int 1)] [(c!"k", .int 5)] 1 = some [(c!"k", .int 4)] := by decide +kernel

end
end Txstatsd
