import Verif.Spec.ProcessReport
import Verif.Lemmas.System
set_option linter.unusedSectionVars false
set_option linter.unusedSimpArgs false
set_option linter.unusedVariables false

namespace Txstatsd
open Spec

theorem natStr_length_one {i : ℕ} (h : i < 10) : (natStr i).length = 1 := by
  rw [natStr, if_pos h]; rfl

theorem natStr_length_succ {i : ℕ} (h : ¬ i < 10) : (natStr i).length = (natStr (i / 10)).length + 1 := by
  rw [natStr, if_neg h]; simp

theorem pad3_eq (i : ℕ) : pad3 i = cpuLabel i := by
  unfold pad3 cpuLabel
  split_ifs with h1 h2
  · rw [natStr_length_one h1]; rfl
  · rw [natStr_length_succ h1, natStr_length_one (by omega)]; rfl
  · rw [natStr_length_succ h1, natStr_length_succ (by omega)]
    have : (natStr (i / 10 / 10)).length ≠ 0 := by
      rw [Ne, List.length_eq_zero_iff]; exact natStr_ne_nil _
    rw [show 3 - ((natStr (i / 10 / 10)).length + 1 + 1) = 0 from by omega]
    rfl

theorem digitsVal_zero (s : Str) : digitsVal ('0' :: s) = digitsVal s := by
  rw [show '0' :: s = ['0'] ++ s from rfl, digitsVal_append]
  have : digitsVal ['0'] = 0 := by decide
  rw [this]; simp

theorem digitsVal_cpuLabel (i : ℕ) : digitsVal (cpuLabel i) = i := by
  unfold cpuLabel
  split_ifs
  · rw [show c!"00" ++ natStr i = '0' :: '0' :: natStr i from rfl, digitsVal_zero, digitsVal_zero, digitsVal_natStr]
  · rw [show c!"0" ++ natStr i = '0' :: natStr i from rfl, digitsVal_zero, digitsVal_natStr]
  · exact digitsVal_natStr i

theorem cpuLabel_inj {i j : ℕ} (h : cpuLabel i = cpuLabel j) : i = j := by
  rw [← digitsVal_cpuLabel i, h, digitsVal_cpuLabel]

theorem cpuLabel_nodot (i : ℕ) : '.' ∉ cpuLabel i := by
  have h1 : '.' ∉ natStr i := fun h => by
    have := natStr_digits i _ h
    revert this; decide
  unfold cpuLabel
  split_ifs <;> simp [h1]

theorem cut_dot {a a' b b' : Str} (ha : '.' ∉ a) (ha' : '.' ∉ a') (h : a ++ '.' :: b = a' ++ '.' :: b') : a = a' ∧ b = b' := by
  induction a generalizing a' with
  | nil =>
    cases a' with
    | nil => simp at h; exact ⟨rfl, h⟩
    | cons y ys => simp at h; exact absurd h.1 (by rintro rfl; simp at ha')
  | cons x xs ih =>
    cases a' with
    | nil => simp at h; exact absurd h.1 (by rintro rfl; simp at ha)
    | cons y ys =>
      simp only [List.cons_append, List.cons.injEq] at h
      simp only [List.mem_cons, not_or] at ha ha'
      obtain ⟨h1, h2⟩ := ih ha.2 ha'.2 h.2
      exact ⟨by rw [h.1, h1], h2⟩

/-- The assignments made for the CPUs, in order. -/
def cpuPuts (pre : Str) (cpus : List (List (Str × Num) × ℕ)) : List (Str × Num) :=
  cpus.flatMap fun p => p.1.map fun m => (pre ++ c!".cpu." ++ pad3 p.2 ++ c!"." ++ m.1, m.2)

theorem putModes_eq (pre : Str) (r : Dict Num) (times : List (Str × Num)) :
    putModes pre r times = (times.map fun m => (pre ++ m.1, m.2)).foldl (fun d p => Dict.put d p.1 p.2) r := by
  unfold putModes
  rw [List.foldl_map]

theorem perCpu_eq (pre : Str) (cpus : List (List (Str × Num) × ℕ)) (r : Dict Num) :
    cpus.foldl (fun r p => putModes (pre ++ c!".cpu." ++ pad3 p.2 ++ c!".") r p.1) r =
      (cpuPuts pre cpus).foldl (fun d p => Dict.put d p.1 p.2) r := by
  induction cpus generalizing r with
  | nil => rfl
  | cons p cpus ih =>
    rw [List.foldl_cons, ih, putModes_eq]
    simp [cpuPuts, List.foldl_append]

theorem foldl_put_mem {V : Type} {l : List (Str × V)} {k : Str} {v : V}
    (h : (l.foldl (fun d p => Dict.put d p.1 p.2) ([] : Dict V)).find k = some v) : (k, v) ∈ l := by
  rw [foldl_put_find] at h
  split at h
  · rename_i p hp
    have hm := List.mem_of_getLast? hp
    rw [List.mem_filter] at hm
    cases h
    have : p.1 = k := by simpa using hm.2
    rw [← this]; exact hm.1
  · simp at h

/-- With unambiguous assignments, the dict holds exactly them. -/
theorem foldl_put_iff {V : Type} {l : List (Str × V)} (hu : ∀ k v v', (k, v) ∈ l → (k, v') ∈ l → v = v') (k : Str) (v : V) :
    (l.foldl (fun d p => Dict.put d p.1 p.2) ([] : Dict V)).find k = some v ↔ (k, v) ∈ l := by
  refine ⟨foldl_put_mem, fun h => ?_⟩
  rw [foldl_put_find]
  have hmem : (k, v) ∈ l.filter fun p => p.1 = k := by simp [h]
  cases hg : (l.filter fun p => p.1 = k).getLast? with
  | none =>
    rw [List.getLast?_eq_none_iff] at hg
    rw [hg] at hmem
    simp at hmem
  | some p =>
    have hm := List.mem_of_getLast? hg
    rw [List.mem_filter] at hm
    have hk : p.1 = k := by simpa using hm.2
    simp only [Option.some.injEq]
    refine hu k _ _ ?_ h
    rw [← hk]; exact hm.1

theorem systemStatsPerCpu_spec (pre : Str) (cpus : List (List (Str × Num))) (hn : ∀ t ∈ cpus, (t.map Prod.fst).Nodup) (k : Str) (v : Num) :
    (systemStatsPerCpu pre cpus).find k = some v ↔
      ∃ (i : ℕ) (t : List (Str × Num)) (mode : Str), cpus[i]? = some t ∧ (mode, v) ∈ t ∧ k = pre ++ c!".cpu." ++ cpuLabel i ++ c!"." ++ mode := by
  have hmem : ∀ k v, (k, v) ∈ cpuPuts pre cpus.zipIdx ↔
      ∃ (i : ℕ) (t : List (Str × Num)) (mode : Str), cpus[i]? = some t ∧ (mode, v) ∈ t ∧ k = pre ++ c!".cpu." ++ cpuLabel i ++ c!"." ++ mode := by
    intro k v
    simp only [cpuPuts, List.mem_flatMap, List.mem_map, Prod.exists, Prod.mk.injEq, pad3_eq, List.mem_zipIdx_iff_getElem?]
    constructor
    · rintro ⟨t, i, h1, mode, v', h2, rfl, rfl⟩
      exact ⟨i, t, mode, h1, h2, rfl⟩
    · rintro ⟨i, t, mode, h1, h2, rfl⟩
      exact ⟨t, i, h1, mode, v, h2, rfl, rfl⟩
  unfold systemStatsPerCpu
  rw [perCpu_eq, foldl_put_iff ?_, hmem]
  intro k v v' h h'
  rw [hmem] at h h'
  obtain ⟨i, t, mode, h1, h2, rfl⟩ := h
  obtain ⟨j, t', mode', h3, h4, h5⟩ := h'
  simp only [List.append_assoc, List.append_cancel_left_eq, List.cons_append, List.nil_append] at h5
  have h5 : cpuLabel i ++ '.' :: mode = cpuLabel j ++ '.' :: mode' := by simpa using h5
  obtain ⟨h6, rfl⟩ := cut_dot (cpuLabel_nodot i) (cpuLabel_nodot j) h5
  obtain rfl := cpuLabel_inj h6
  rw [h1] at h3
  cases h3
  have hd := hn t (List.mem_of_getElem? h1)
  exact (Dict.mem_iff_find hd mode v).1 h2 |>.symm.trans ((Dict.mem_iff_find hd mode v').1 h4) |> Option.some.inj

end Txstatsd
