import Verif.Lemmas.Prelude
import Verif.Model.Base

set_option linter.unusedSectionVars false
set_option linter.unusedSimpArgs false
set_option linter.unusedVariables false

namespace Txstatsd
namespace Dict
variable {V : Type}

/-- The keys of a Python dict are distinct. -/
def Wf (d : Dict V) : Prop := d.keys.Nodup

@[simp] theorem find_nil (k : Str) : Dict.find ([] : Dict V) k = none := rfl
@[simp] theorem keys_nil : Dict.keys ([] : Dict V) = [] := rfl
@[simp] theorem keys_cons (p : Str × V) (d : Dict V) : Dict.keys (p :: d) = p.1 :: Dict.keys d := rfl
theorem wf_nil : Wf ([] : Dict V) := List.nodup_nil

@[simp] theorem find_put_self (d : Dict V) (k : Str) (v : V) : (d.put k v).find k = some v := by
  induction d with
  | nil => simp [put, find]
  | cons p rest ih =>
    obtain ⟨k', v'⟩ := p
    rw [put]; split_ifs with h
    · simp [find, h]
    · simp [find, h, ih]

theorem find_put_ne (d : Dict V) {k k' : Str} (v : V) (h : k' ≠ k) : (d.put k v).find k' = d.find k' := by
  induction d with
  | nil => simp [put, find, h.symm]
  | cons p rest ih =>
    obtain ⟨k₁, v₁⟩ := p
    rw [put]; split_ifs with h1
    · subst h1; simp [find, h.symm]
    · by_cases h2 : k₁ = k'
      · simp [find, h2]
      · simp [find, h2, ih]

theorem find_put (d : Dict V) (k k' : Str) (v : V) :
    (d.put k v).find k' = if k' = k then some v else d.find k' := by
  split_ifs with h
  · subst h; simp
  · exact find_put_ne d v h

theorem find_isSome_iff (d : Dict V) (k : Str) : (d.find k).isSome = true ↔ k ∈ d.keys := by
  induction d with
  | nil => simp
  | cons p rest ih =>
    obtain ⟨k', v'⟩ := p
    by_cases h : k' = k
    · simp [find, h]
    · simp only [find, h, if_false, keys_cons, List.mem_cons, ih]
      constructor
      · exact Or.inr
      · rintro (e | e)
        · exact absurd e.symm h
        · exact e

theorem has_iff (d : Dict V) (k : Str) : d.has k = true ↔ k ∈ d.keys := find_isSome_iff d k

theorem find_eq_none (d : Dict V) (k : Str) : d.find k = none ↔ k ∉ d.keys := by
  rw [← find_isSome_iff]; cases d.find k <;> simp

theorem mem_of_find {d : Dict V} {k : Str} {v : V} (h : d.find k = some v) : (k, v) ∈ d := by
  induction d with
  | nil => simp at h
  | cons p rest ih =>
    obtain ⟨k', v'⟩ := p
    rw [find] at h
    split_ifs at h with h1
    · simp only [Option.some.injEq] at h; subst h; subst h1; simp
    · exact List.mem_cons_of_mem _ (ih h)

theorem mem_keys_of_mem {d : Dict V} {k : Str} {v : V} (h : (k, v) ∈ d) : k ∈ d.keys :=
  List.mem_map.2 ⟨(k, v), h, rfl⟩

theorem find_of_mem {d : Dict V} (hd : Wf d) {k : Str} {v : V} (h : (k, v) ∈ d) : d.find k = some v := by
  induction d with
  | nil => simp at h
  | cons p rest ih =>
    obtain ⟨k', v'⟩ := p
    simp only [Wf, keys_cons, List.nodup_cons] at hd
    rcases List.mem_cons.1 h with e | h
    · simp only [Prod.mk.injEq] at e; simp [find, e.1, e.2]
    · have : k' ≠ k := by rintro rfl; exact hd.1 (mem_keys_of_mem h)
      simp [find, this, ih hd.2 h]

theorem mem_iff_find {d : Dict V} (hd : Wf d) (k : Str) (v : V) : (k, v) ∈ d ↔ d.find k = some v :=
  ⟨find_of_mem hd, mem_of_find⟩

theorem keys_put (d : Dict V) (k : Str) (v : V) :
    (d.put k v).keys = if k ∈ d.keys then d.keys else d.keys ++ [k] := by
  induction d with
  | nil => simp [put, keys]
  | cons p rest ih =>
    obtain ⟨k', v'⟩ := p
    rw [put]
    by_cases h : k' = k
    · simp [h]
    · have : (k = k') = False := by simp [Ne.symm h]
      rw [if_neg h, keys_cons, ih]
      by_cases h2 : k ∈ Dict.keys rest
      · simp [h2]
      · simp [h2, this]

theorem mem_keys_put (d : Dict V) (k k' : Str) (v : V) :
    k' ∈ (d.put k v).keys ↔ k' = k ∨ k' ∈ d.keys := by
  rw [← find_isSome_iff, find_put]
  split_ifs with h
  · simp [h]
  · rw [find_isSome_iff]; simp [h]

theorem wf_put {d : Dict V} (hd : Wf d) (k : Str) (v : V) : Wf (d.put k v) := by
  unfold Wf at *
  rw [keys_put]
  split_ifs with h
  · exact hd
  · rw [List.nodup_append]; refine ⟨hd, by simp, ?_⟩
    intro a ha b hb; simp at hb; subst hb; rintro rfl; exact h ha

theorem length_put (d : Dict V) (k : Str) (v : V) :
    (d.put k v).length = if k ∈ d.keys then d.length else d.length + 1 := by
  have h := congrArg List.length (keys_put d k v)
  split_ifs at h ⊢ with hk <;> simpa [keys] using h

theorem length_put_le (d : Dict V) (k : Str) (v : V) : d.length ≤ (d.put k v).length := by
  rw [length_put]; split_ifs <;> omega

/-- Updating the key that sits after a prefix without it. -/
theorem put_append {pre rest : Dict V} {k : Str} (v v' : V) (h : k ∉ pre.keys) :
    Dict.put (pre ++ (k, v) :: rest) k v' = pre ++ (k, v') :: rest := by
  induction pre with
  | nil => simp [put]
  | cons p ps ih =>
    obtain ⟨k', w⟩ := p
    simp only [keys_cons, List.mem_cons, not_or] at h
    rw [List.cons_append, put, if_neg (Ne.symm h.1), ih h.2, List.cons_append]

theorem put_same {d : Dict V} {k : Str} {v : V} (h : d.find k = some v) : d.put k v = d := by
  induction d with
  | nil => simp at h
  | cons p rest ih =>
    obtain ⟨k', v'⟩ := p
    rw [find] at h
    split_ifs at h with h1
    · simp only [Option.some.injEq] at h; subst h; simp [put, h1]
    · simp [put, h1, ih h]

@[simp] theorem keys_append (a b : Dict V) : Dict.keys (a ++ b) = a.keys ++ b.keys := by simp [keys]

theorem keys_map (d : Dict V) {U : Type} (f : Str → V → U) :
    Dict.keys (d.map fun p => (p.1, f p.1 p.2)) = d.keys := by simp [keys, Function.comp_def]

theorem find_map (d : Dict V) {U : Type} (f : Str → V → U) (k : Str) :
    Dict.find (d.map fun p => (p.1, f p.1 p.2)) k = (d.find k).map (f k) := by
  induction d with
  | nil => rfl
  | cons p rest ih =>
    obtain ⟨k', v⟩ := p
    by_cases h : k' = k
    · subst h; simp [find]
    · simp [find, h, ih]

/-- Selecting the entry of one key. -/
theorem filter_key {d : Dict V} (hd : Wf d) (k : Str) :
    d.filter (fun p => decide (p.1 = k)) = ((d.find k).map fun v => (k, v)).toList := by
  induction d with
  | nil => rfl
  | cons p rest ih =>
    obtain ⟨k', v⟩ := p
    simp only [Wf, keys_cons, List.nodup_cons] at hd
    by_cases h : k' = k
    · subst h
      have : rest.filter (fun p => decide (p.1 = k')) = [] := by
        rw [ih hd.2, (find_eq_none rest k').2 hd.1]; rfl
      simp [find, this]
    · simp [find, h, ih hd.2]

end Dict
end Txstatsd
