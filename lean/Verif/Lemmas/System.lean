import Verif.Spec.System
import Verif.Lemmas.RouterText
import Verif.Lemmas.Dict

/-! Lemmas about the system reports. -/

set_option linter.unusedSimpArgs false
set_option linter.unusedVariables false
set_option linter.unusedSectionVars false

namespace Txstatsd
open Spec

/-! ## Words -/

theorem splitWhere_ne_nil (sep : Char → Bool) (s : Str) : splitWhere sep s ≠ [] := by
  cases s with
  | nil => simp [splitWhere]
  | cons c s =>
    rw [splitWhere]
    split
    · simp
    · split <;> simp

theorem fieldsOf_sep {sep : Char → Bool} {pre : Str} (h : ∀ c ∈ pre, sep c = true) (s : Str) :
    fieldsOf sep (pre ++ s) = fieldsOf sep s := by
  induction pre with
  | nil => rfl
  | cons c pre ih =>
    rw [List.cons_append]
    unfold fieldsOf
    rw [splitWhere, if_pos (h c (by simp)), List.filter_cons_of_neg (by simp)]
    exact ih fun c hc => h c (by simp [hc])

theorem splitWhere_word {sep : Char → Bool} {w : Str} (hw : ∀ c ∈ w, sep c = false) (s : Str) :
    splitWhere sep (w ++ s) = (w ++ (splitWhere sep s).headD []) :: (splitWhere sep s).tail := by
  induction w with
  | nil =>
    rcases h : splitWhere sep s with _ | ⟨a, b⟩
    · exact absurd h (splitWhere_ne_nil _ _)
    · simp [h]
  | cons c w ih =>
    rw [List.cons_append, splitWhere, if_neg (by simp [hw c (by simp)]), ih fun c hc => hw c (by simp [hc])]
    simp

theorem fieldsOf_nil (sep : Char → Bool) : fieldsOf sep [] = [] := by simp [fieldsOf, splitWhere]

theorem fieldsOf_word {sep : Char → Bool} {w rest : Str} (hne : w ≠ []) (hw : ∀ c ∈ w, sep c = false)
    (hr : ∀ c, rest.head? = some c → sep c = true) : fieldsOf sep (w ++ rest) = w :: fieldsOf sep rest := by
  unfold fieldsOf
  rw [splitWhere_word hw]
  cases rest with
  | nil => simp [splitWhere, hne]
  | cons c r =>
    rw [splitWhere, if_pos (hr c rfl)]
    simp [hne]

theorem fieldsOf_of_separated {sep : Char → Bool} {s : Str} {ws : List Str}
    (h : Separated (fun c => sep c = true) s ws) : fieldsOf sep s = ws := by
  induction h with
  | blank s h =>
    have := fieldsOf_sep h []
    rw [List.append_nil, fieldsOf_nil] at this
    exact this
  | word pre w rest ws hp hne hw hr _ ih =>
    rw [List.append_assoc, fieldsOf_sep hp, fieldsOf_word hne (fun c hc => by simpa using hw c hc) hr, ih]

theorem separated_exists (sep : Char → Bool) (s : Str) : ∃ ws, Separated (fun c => sep c = true) s ws := by
  generalize hn : s.length = n
  induction n using Nat.strong_induction_on generalizing s with
  | _ n ih =>
    have e1 := List.takeWhile_append_dropWhile (p := sep) (l := s)
    set pre := s.takeWhile sep
    set t := s.dropWhile sep with ht
    have hpre : ∀ c ∈ pre, sep c = true := fun c hc => List.mem_takeWhile_imp hc
    by_cases h0 : t = []
    · refine ⟨[], .blank _ ?_⟩
      rw [← e1, h0, List.append_nil]
      exact hpre
    · have e2 := List.takeWhile_append_dropWhile (p := fun c => !sep c) (l := t)
      set w := t.takeWhile fun c => !sep c with hw
      set rest := t.dropWhile fun c => !sep c with hrest
      have hwne : w ≠ [] := by
        rcases ht' : t with _ | ⟨c, t'⟩
        · exact absurd ht' h0
        · have hc : sep c = false := by
            have := List.head_dropWhile_not sep (l := s) (by rw [← ht]; exact h0)
            simp only [← ht, ht'] at this
            simpa using this
          rw [hw, ht']
          simp [hc]
      have hlen : rest.length < n := by
        have h1 : s.length = pre.length + (w.length + rest.length) := by
          rw [← e1, ← e2]; simp
        have : 0 < w.length := List.length_pos_iff.mpr hwne
        omega
      obtain ⟨ws, hws⟩ := ih _ hlen rest rfl
      refine ⟨w :: ws, ?_⟩
      have := Separated.word (sep := fun c => sep c = true) pre w rest ws hpre hwne (fun c hc => by
        have h2 := List.mem_takeWhile_imp hc
        simpa using h2) (fun c hc => by
        rcases hr' : rest with _ | ⟨c', r⟩
        · rw [hr'] at hc; simp at hc
        · have h3 := List.head_dropWhile_not (fun c => !sep c) (l := t) (by rw [← hrest, hr']; simp)
          simp only [← hrest, hr'] at h3
          rw [hr'] at hc
          simp at hc h3
          rw [← hc]
          exact h3) hws
      rwa [List.append_assoc, e2, e1] at this

theorem separated_iff {sep : Char → Bool} {s : Str} {ws : List Str} :
    Separated (fun c => sep c = true) s ws ↔ fieldsOf sep s = ws := by
  refine ⟨fieldsOf_of_separated, fun h => ?_⟩
  obtain ⟨ws', h'⟩ := separated_exists sep s
  rw [← h, fieldsOf_of_separated h']
  exact h'

theorem separated_space {s : Str} {ws : List Str} :
    Separated (· = ' ') s ws ↔ fieldsOf (· == ' ') s = ws := by
  rw [← separated_iff]
  simp

/-! ## /proc/meminfo -/

theorem meminfoKeys_eq : meminfoKeys = memLabels.map (· ++ c!":") := by decide

theorem factor_unique {ws : List Str} {f f' : ℤ} (h : Factor ws f) (h' : Factor ws f') : f = f' := by
  cases h with
  | kilo => cases h' with
    | kilo => rfl
    | none _ h => simp at h
  | mega => cases h' with
    | mega => rfl
    | none _ h => simp at h
  | none _ h => cases h' with
    | kilo => simp at h
    | mega => simp at h
    | none => rfl

theorem memMultiple_ok {ws : List Str} {f : ℤ} : memMultiple ws = .ok f ↔ Factor ws f := by
  constructor
  · intro h
    unfold memMultiple at h
    split at h
    · split at h
      · cases h
      · rename_i m hm
        cases h
        unfold multiplier at hm
        split at hm
        · rename_i h1; subst h1; cases hm; exact .kilo _ _
        · split at hm
          · rename_i h1; subst h1; cases hm; exact .mega _ _
          · cases hm
    · rename_i hne
      cases h
      refine .none _ fun h => ?_
      obtain ⟨a, b, c, rfl⟩ := List.length_eq_three.mp h
      exact hne _ _ _ rfl
  · intro h
    cases h with
    | kilo => rfl
    | mega => rfl
    | none _ h =>
      unfold memMultiple
      split
      · simp at h
      · rfl

theorem memAmount_ok {k : Str} {rest : List Str} {z : ℤ} :
    memAmount (k :: rest) = .ok z ↔ ∃ n rest', rest = n :: rest' ∧ Port n z := by
  cases rest with
  | nil => simp [memAmount]
  | cons n rest =>
    rw [memAmount]
    constructor
    · intro h
      split at h
      · cases h
      · rename_i z' hz
        cases h
        exact ⟨n, rest, rfl, parseInt_iff.mp hz⟩
    · rintro ⟨n', rest', h, hp⟩
      cases h
      rw [parseInt_iff.mpr hp]

theorem memEntry_some {line label : Str} {amount : ℤ} :
    memEntry line = .ok (some (label, amount)) ↔ MemLine line label amount := by
  constructor
  · intro h
    unfold memEntry at h
    split at h
    · cases h
    · split at h
      · cases h
      · rename_i key rest hf
        split at h
        · cases h
        · rename_i hk
          rw [not_not] at hk
          rw [meminfoKeys_eq] at hk
          obtain ⟨lab, hl, rfl⟩ := List.mem_map.mp hk
          split at h
          · cases h
          · rename_i m hm
            split at h
            · cases h
            · rename_i z hz
              have hlab : (lab ++ c!":").dropLast = lab := List.dropLast_concat
              rw [hlab] at h
              cases h
              obtain ⟨n, rest', rfl, hp⟩ := memAmount_ok.mp hz
              exact ⟨hl, n, rest', z, m, separated_space.mpr hf, memMultiple_ok.mp hm, hp, rfl⟩
  · rintro ⟨hl, n, rest, z, f, hs, hf, hp, rfl⟩
    have hne : line ≠ [] := by
      rintro rfl
      have := separated_space.mp hs
      rw [fieldsOf_nil] at this
      cases this
    unfold memEntry
    rw [if_neg hne, separated_space.mp hs]
    simp only
    rw [if_neg (by rw [not_not, meminfoKeys_eq]; exact List.mem_map.mpr ⟨label, hl, rfl⟩),
      memMultiple_ok.mpr hf]
    simp only
    rw [memAmount_ok.mpr ⟨n, rest, rfl, hp⟩]
    simp only
    rw [show (label ++ c!":").dropLast = label from List.dropLast_concat]

theorem memEntry_none {line : Str} : memEntry line = .ok none ↔ OtherLine line := by
  constructor
  · intro h
    unfold memEntry at h
    split at h
    · rename_i h0; exact Or.inl h0
    · split at h
      · cases h
      · rename_i key rest hf
        split at h
        · rename_i hk
          refine Or.inr ⟨key, rest, separated_space.mpr hf, ?_⟩
          rintro label hl rfl
          exact hk (by rw [meminfoKeys_eq]; exact List.mem_map.mpr ⟨label, hl, rfl⟩)
        · split at h
          · cases h
          · split at h <;> cases h
  · rintro (rfl | ⟨k, rest, hs, hk⟩)
    · rfl
    · unfold memEntry
      split
      · rfl
      · rw [separated_space.mp hs]
        simp only
        rw [if_pos]
        rw [meminfoKeys_eq]
        intro h
        obtain ⟨label, hl, rfl⟩ := List.mem_map.mp h
        exact hk label hl rfl

theorem lastWith_cons_of_not {α β : Type} {P : α → β → Prop} {l : α} {ls : List α} {v : β}
    (h : ∀ v, ¬ P l v) : LastWith P (l :: ls) v ↔ LastWith P ls v := by
  constructor
  · rintro ⟨a, x, b, he, hp, hb⟩
    cases a with
    | nil =>
      rw [List.nil_append] at he
      cases he
      exact absurd hp (h v)
    | cons y a =>
      rw [List.cons_append] at he
      cases he
      exact ⟨a, x, b, rfl, hp, hb⟩
  · rintro ⟨a, x, b, rfl, hp, hb⟩
    exact ⟨l :: a, x, b, rfl, hp, hb⟩

theorem lastWith_cons {α β : Type} {P : α → β → Prop} {l : α} {ls : List α} {v : β} :
    LastWith P (l :: ls) v ↔ LastWith P ls v ∨ P l v ∧ ∀ l' ∈ ls, ∀ v', ¬ P l' v' := by
  constructor
  · rintro ⟨a, x, b, he, hp, hb⟩
    cases a with
    | nil =>
      rw [List.nil_append] at he
      cases he
      exact Or.inr ⟨hp, hb⟩
    | cons y a =>
      rw [List.cons_append] at he
      cases he
      exact Or.inl ⟨a, x, b, rfl, hp, hb⟩
  · rintro (⟨a, x, b, rfl, hp, hb⟩ | ⟨hp, hb⟩)
    · exact ⟨l :: a, x, b, rfl, hp, hb⟩
    · exact ⟨[], l, ls, rfl, hp, hb⟩

theorem lastWith_exists {α β : Type} {P : α → β → Prop} : ∀ {ls : List α} {l : α} {v : β}, l ∈ ls → P l v →
    ∃ v, LastWith P ls v
  | x :: ls, l, v, hl, hp => by
    by_cases h : ∃ l' ∈ ls, ∃ v', P l' v'
    · obtain ⟨l', hl', v', hp'⟩ := h
      obtain ⟨w, hw⟩ := lastWith_exists hl' hp'
      exact ⟨w, lastWith_cons.mpr (Or.inl hw)⟩
    · push_neg at h
      rcases List.mem_cons.mp hl with rfl | hl
      · exact ⟨v, lastWith_cons.mpr (Or.inr ⟨hp, h⟩)⟩
      · exact absurd hp (h l hl v)

theorem memLoop_spec (pre : Str) : ∀ (lines : List Str) (r : Dict ℤ),
    (∀ l ∈ lines, OtherLine l ∨ ∃ label v, MemLine l label v) →
    ∃ r', memLoop pre r lines = .ok r' ∧
      (∀ label v, r'.find (pre ++ c!"." ++ label) = some v ↔
        LastWith (fun l v => MemLine l label v) lines v ∨
          r.find (pre ++ c!"." ++ label) = some v ∧ ∀ l ∈ lines, ∀ v, ¬ MemLine l label v) ∧
      ∀ k, k ∈ r'.keys → k ∈ r.keys ∨ ∃ label ∈ memLabels, k = pre ++ c!"." ++ label
  | [], r, _ => ⟨r, rfl, fun label v => by simp [LastWith], fun k hk => Or.inl hk⟩
  | l :: ls, r, h => by
    rcases h l (by simp) with ho | ⟨lab, amount, hm⟩
    · have he := memEntry_none.mpr ho
      have hno : ∀ label v, ¬ MemLine l label v := by
        intro label v hm
        rw [memEntry_some.mpr hm] at he
        cases he
      obtain ⟨r', h1, h2, h3⟩ := memLoop_spec pre ls r fun l hl => h l (by simp [hl])
      refine ⟨r', by rw [memLoop, he]; exact h1, fun label v => ?_, h3⟩
      rw [h2, lastWith_cons_of_not (P := fun l v => MemLine l label v) (hno label)]
      simp [hno]
    · have he := memEntry_some.mpr hm
      have hun : ∀ label v, MemLine l label v → label = lab ∧ v = amount := by
        intro label v hm'
        rw [memEntry_some.mpr hm'] at he
        cases he
        exact ⟨rfl, rfl⟩
      obtain ⟨r', h1, h2, h3⟩ := memLoop_spec pre ls (r.put (pre ++ c!"." ++ lab) amount)
        fun l hl => h l (by simp [hl])
      refine ⟨r', by rw [memLoop, he]; exact h1, fun label v => ?_, fun k hk => ?_⟩
      · rw [h2, lastWith_cons, Dict.find_put]
        by_cases hl : label = lab
        · subst hl
          rw [if_pos rfl]
          constructor
          · rintro (h | ⟨h, h'⟩)
            · exact Or.inl (Or.inl h)
            · cases h
              exact Or.inl (Or.inr ⟨hm, h'⟩)
          · rintro ((h | ⟨h, h'⟩) | ⟨h, h'⟩)
            · exact Or.inl h
            · exact Or.inr ⟨by rw [(hun _ _ h).2], h'⟩
            · exact absurd hm (h' l (by simp) _)
        · have hne : pre ++ c!"." ++ label ≠ pre ++ c!"." ++ lab := fun h => hl (List.append_cancel_left h)
          rw [if_neg hne]
          have hno : ∀ v, ¬ MemLine l label v := fun v h => hl (hun _ _ h).1
          simp [hno]
      · rcases h3 k hk with h | h
        · rcases (Dict.mem_keys_put _ _ _ _).mp h with h | h
          · exact Or.inr ⟨lab, hm.1, h⟩
          · exact Or.inl h
        · exact Or.inr h

theorem memLoop_ok (pre : Str) : ∀ (lines : List Str) {r r' : Dict ℤ}, memLoop pre r lines = .ok r' →
    ∀ l ∈ lines, OtherLine l ∨ ∃ label v, MemLine l label v
  | [], _, _, _, _, hl => by simp at hl
  | x :: ls, r, r', h, l, hl => by
    rw [memLoop] at h
    split at h
    · cases h
    · rename_i he
      rcases List.mem_cons.mp hl with rfl | hl
      · exact Or.inl (memEntry_none.mp he)
      · exact memLoop_ok pre ls h l hl
    · rename_i lab am he
      rcases List.mem_cons.mp hl with rfl | hl
      · exact Or.inr ⟨lab, am, memEntry_some.mp he⟩
      · exact memLoop_ok pre ls h l hl

/-! ## /proc/loadavg, /proc/net/dev -/

theorem foldl_put_find {V : Type} : ∀ (l : List (Str × V)) (d : Dict V) (k : Str),
    (l.foldl (fun d p => Dict.put d p.1 p.2) d).find k
      = match (l.filter fun p => p.1 = k).getLast? with
        | some p => some p.2
        | none => d.find k
  | [], d, k => by simp
  | p :: l, d, k => by
    rw [List.foldl_cons, foldl_put_find l]
    by_cases h : p.1 = k
    · rw [List.filter_cons_of_pos (by simpa using h)]
      rcases hl : (l.filter fun p => p.1 = k).getLast? with _ | q
      · rw [List.getLast?_eq_none_iff] at hl
        rw [hl]
        subst h
        simp [Dict.find_put_self]
      · have : (p :: l.filter fun p => p.1 = k).getLast? = some q := by
          rw [List.getLast?_cons, hl]; rfl
        rw [this, hl]
    · rw [List.filter_cons_of_neg (by simpa using h)]
      split
      · rfl
      · exact Dict.find_put_ne _ _ (fun h' => h h'.symm)

theorem foldl_put_nodup {V : Type} {l : List (Str × V)} (hl : (l.map Prod.fst).Nodup) {k : Str} {v : V}
    (d : Dict V) (h : (k, v) ∈ l) : (l.foldl (fun d p => Dict.put d p.1 p.2) d).find k = some v := by
  induction l generalizing d with
  | nil => simp at h
  | cons p l ih =>
    rw [List.map_cons, List.nodup_cons] at hl
    rw [List.foldl_cons]
    rcases List.mem_cons.mp h with rfl | h
    · have : ∀ (l : List (Str × V)) (d : Dict V), k ∉ l.map Prod.fst →
          (l.foldl (fun d p => Dict.put d p.1 p.2) d).find k = d.find k := by
        intro l
        induction l with
        | nil => intro d _; rfl
        | cons q l ih =>
          intro d hk
          rw [List.map_cons, List.mem_cons, not_or] at hk
          rw [List.foldl_cons, ih _ hk.2]
          exact Dict.find_put_ne _ _ hk.1
      rw [this l _ hl.1]
      exact Dict.find_put_self _ _ _
    · exact ih hl.2 _ h

theorem foldl_put_absent {V : Type} (l : List (Str × V)) (d : Dict V) {k : Str} (hk : k ∉ l.map Prod.fst) :
    (l.foldl (fun d p => Dict.put d p.1 p.2) d).find k = d.find k := by
  induction l generalizing d with
  | nil => rfl
  | cons q l ih =>
    rw [List.map_cons, List.mem_cons, not_or] at hk
    rw [List.foldl_cons, ih _ hk.2]
    exact Dict.find_put_ne _ _ hk.1

theorem zip_fst_sublist {α β : Type} : ∀ (a : List α) (b : List β), ((a.zip b).map Prod.fst).Sublist a
  | [], b => by simp
  | x :: a, [] => by simp
  | x :: a, y :: b => by
    rw [List.zip_cons_cons, List.map_cons]
    exact (zip_fst_sublist a b).cons₂ x

theorem dictZip_find {V : Type} {keys : List Str} {vals : List V} (hk : keys.Nodup) {i : ℕ} {k : Str} {v : V}
    (h1 : keys[i]? = some k) (h2 : vals[i]? = some v) : (dictZip keys vals).find k = some v := by
  unfold dictZip
  refine foldl_put_nodup ?_ [] ?_
  · exact (zip_fst_sublist keys vals).nodup hk
  · refine List.mem_of_getElem? (i := i) ?_
    rw [List.getElem?_zip_eq_some]
    exact ⟨h1, h2⟩

theorem dictZip_inv {V : Type} {keys : List Str} {vals : List V} {k : Str} {v : V} (hk : keys.Nodup)
    (h : (dictZip keys vals).find k = some v) : ∃ i : ℕ, keys[i]? = some k ∧ vals[i]? = some v := by
  unfold dictZip at h
  rw [foldl_put_find] at h
  split at h
  · rename_i p hp
    have hm := List.mem_of_getLast? hp
    rw [List.mem_filter] at hm
    obtain ⟨i, hi⟩ := List.mem_iff_getElem?.mp hm.1
    obtain ⟨h1, h2⟩ := List.getElem?_zip_eq_some.mp hi
    cases h
    have hpk : p.1 = k := by simpa using hm.2
    exact ⟨i, hpk ▸ h1, h2⟩
  · simp at h

theorem intsOf_iff : ∀ {ws : List Str} {zs : List ℤ}, intsOf ws = .ok zs ↔ List.Forall₂ Port ws zs
  | [], zs => by
    rw [intsOf]
    constructor
    · rintro h; cases h; exact .nil
    · rintro h; cases h; rfl
  | w :: ws, zs => by
    rw [intsOf]
    constructor
    · intro h
      split at h
      · cases h
      · rename_i x hx
        split at h
        · cases h
        · rename_i xs hxs
          cases h
          exact .cons (parseInt_iff.mp hx) (intsOf_iff.mp hxs)
    · rintro h
      cases h with
      | cons h1 h2 =>
        rw [parseInt_iff.mpr h1]
        simp only
        rw [intsOf_iff.mpr h2]

theorem splitOn_colon_two {a b : Str} (ha : ':' ∉ a) (hb : ':' ∉ b) : splitOn ':' (a ++ ':' :: b) = [a, b] := by
  rw [splitOn_append ha, splitOn_of_not_mem hb]

theorem getKey_ok {V : Type} {d : Dict V} {k : Str} {v : V} (h : d.find k = some v) : getKey d k = .ok v := by
  unfold getKey; rw [h]

/-- The name of a device's entry. -/
abbrev netKey (pre dev suffix : Str) : Str := pre ++ c!"." ++ dev ++ suffix

theorem netKey_inj {pre dev dev' s s' c c' : Str} (h : NetName s c) (h' : NetName s' c')
    (he : netKey pre dev s = netKey pre dev' s') : dev = dev' ∧ s = s' ∧ c = c' := by
  have h1 : dev ++ s = dev' ++ s' := by
    have : (pre ++ c!".") ++ (dev ++ s) = (pre ++ c!".") ++ (dev' ++ s') := by simpa [netKey] using he
    exact List.append_cancel_left this
  have h2 := congrArg List.reverse h1
  rw [List.reverse_append, List.reverse_append] at h2
  cases h <;> cases h' <;> simp at h2 <;> simp_all

theorem netLine_device {pre : Str} {columns : List Str} {r : Dict ℤ} {line dev : Str} {nums : List ℤ}
    (hl : DeviceLine line dev nums) (hn : columns.Nodup) (hlen : columns.length ≤ nums.length)
    (hc : ∀ s c, NetName s c → c ∈ columns) :
    ∃ r', netLine pre columns r line = .ok r' ∧
      (∀ s c v, NetName s c → InColumn columns nums c v → r'.find (netKey pre dev s) = some v) ∧
      (∀ s c, NetName s c → ∃ v, InColumn columns nums c v) ∧
      (∀ k, (∀ s c, NetName s c → k ≠ netKey pre dev s) → r'.find k = r.find k) := by
  obtain ⟨a, b, ws, rfl, ha, hb, hst, hsep, hp⟩ := hl
  have hcol : ∀ s c, NetName s c → ∃ v, InColumn columns nums c v := by
    intro s c hsc
    obtain ⟨i, hi⟩ := List.mem_iff_getElem?.mp (hc s c hsc)
    have hil : i < columns.length := (List.getElem?_eq_some_iff.mp hi).1
    exact ⟨nums[i], i, hi, List.getElem?_eq_getElem (by omega)⟩
  have hfind : ∀ s c v, NetName s c → InColumn columns nums c v → (dictZip columns nums).find c = some v := by
    rintro s c v - ⟨i, h1, h2⟩
    exact dictZip_find hn h1 h2
  obtain ⟨v1, hv1⟩ := hcol _ _ .recvBytes
  obtain ⟨v2, hv2⟩ := hcol _ _ .sendBytes
  obtain ⟨v3, hv3⟩ := hcol _ _ .recvPackets
  obtain ⟨v4, hv4⟩ := hcol _ _ .sendPackets
  have hent : netEntries pre (strip a) (dictZip columns nums)
      = .ok [(netKey pre dev c!".bytes.received", v1), (netKey pre dev c!".bytes.sent", v2),
        (netKey pre dev c!".packets.received", v3), (netKey pre dev c!".packets.sent", v4)] := by
    unfold netEntries
    rw [strip_of_stripped hst, getKey_ok (hfind _ _ _ .recvBytes hv1), getKey_ok (hfind _ _ _ .sendBytes hv2),
      getKey_ok (hfind _ _ _ .recvPackets hv3), getKey_ok (hfind _ _ _ .sendPackets hv4)]
    rfl
  refine ⟨[(netKey pre dev c!".bytes.received", v1), (netKey pre dev c!".bytes.sent", v2),
      (netKey pre dev c!".packets.received", v3), (netKey pre dev c!".packets.sent", v4)].foldl
        (fun d p => Dict.put d p.1 p.2) r, ?_, ?_, hcol, ?_⟩
  · unfold netLine
    rw [splitOn_colon_two ha hb]
    simp only
    rw [fieldsOf_of_separated hsep, intsOf_iff.mpr hp]
    simp only
    rw [hent]
  · intro s c v hs hv
    refine foldl_put_nodup ?_ r ?_
    · simp only [List.map_cons, List.map_nil, List.nodup_cons, List.mem_cons, List.not_mem_nil, or_false, not_or,
        not_false_eq_true, List.nodup_nil, and_true]
      refine ⟨⟨fun h => ?_, fun h => ?_, fun h => ?_⟩, ⟨fun h => ?_, fun h => ?_⟩, fun h => ?_⟩
      · have := (netKey_inj .recvBytes .sendBytes h).2.1; revert this; decide
      · have := (netKey_inj .recvBytes .recvPackets h).2.1; revert this; decide
      · have := (netKey_inj .recvBytes .sendPackets h).2.1; revert this; decide
      · have := (netKey_inj .sendBytes .recvPackets h).2.1; revert this; decide
      · have := (netKey_inj .sendBytes .sendPackets h).2.1; revert this; decide
      · have := (netKey_inj .recvPackets .sendPackets h).2.1; revert this; decide
    · have hu : ∀ c v v', InColumn columns nums c v → (dictZip columns nums).find c = some v' → v = v' := by
        rintro c v v' ⟨i, h1, h2⟩ h3
        rw [dictZip_find hn h1 h2] at h3
        exact Option.some.inj h3
      cases hs
      · rw [hu _ _ _ hv (hfind _ _ _ .recvBytes hv1)]; simp
      · rw [hu _ _ _ hv (hfind _ _ _ .sendBytes hv2)]; simp
      · rw [hu _ _ _ hv (hfind _ _ _ .recvPackets hv3)]; simp
      · rw [hu _ _ _ hv (hfind _ _ _ .sendPackets hv4)]; simp
  · intro k hk
    refine foldl_put_absent _ _ ?_
    simp only [List.map_cons, List.map_nil, List.mem_cons, List.not_mem_nil, or_false, not_or]
    exact ⟨hk _ _ .recvBytes, hk _ _ .sendBytes, hk _ _ .recvPackets, hk _ _ .sendPackets⟩

theorem netLine_skip {pre : Str} {columns : List Str} {r : Dict ℤ} {line : Str} (h : ':' ∉ line) :
    netLine pre columns r line = .ok r := by
  unfold netLine
  rw [splitOn_of_not_mem h]

theorem deviceLine_unique {line dev dev' : Str} {nums nums' : List ℤ} (h : DeviceLine line dev nums)
    (h' : DeviceLine line dev' nums') : dev = dev' ∧ nums = nums' := by
  obtain ⟨a, b, ws, rfl, ha, hb, hst, hsep, hp⟩ := h
  obtain ⟨a', b', ws', he, ha', hb', hst', hsep', hp'⟩ := h'
  have h1 := splitOn_colon_two ha hb
  rw [he, splitOn_colon_two ha' hb'] at h1
  cases h1
  refine ⟨by rw [← strip_of_stripped hst, ← strip_of_stripped hst'], ?_⟩
  have h2 := intsOf_iff.mpr hp
  have h3 := intsOf_iff.mpr hp'
  rw [← fieldsOf_of_separated hsep] at h2
  rw [← fieldsOf_of_separated hsep', h2] at h3
  cases h3
  rfl

theorem deviceLine_colon {line dev : Str} {nums : List ℤ} (h : DeviceLine line dev nums) : ':' ∈ line := by
  obtain ⟨a, b, ws, rfl, -⟩ := h
  simp

theorem netLoop_spec (pre : Str) {columns : List Str} (hn : columns.Nodup) (hc : ∀ s c, NetName s c → c ∈ columns) :
    ∀ (lines : List Str) (r : Dict ℤ),
    (∀ l ∈ lines, ':' ∉ l ∨ ∃ dev nums, DeviceLine l dev nums ∧ columns.length ≤ nums.length) →
    ∃ r', netLoop pre columns r lines = .ok r' ∧
      ∀ dev s c v, NetName s c → (r'.find (netKey pre dev s) = some v ↔
        (∃ nums, LastWith (fun l nums => DeviceLine l dev nums) lines nums ∧ InColumn columns nums c v) ∨
          r.find (netKey pre dev s) = some v ∧ ∀ l ∈ lines, ∀ nums, ¬ DeviceLine l dev nums)
  | [], r, _ => ⟨r, rfl, fun dev s c v _ => by simp [LastWith]⟩
  | l :: ls, r, h => by
    rcases h l (by simp) with ho | ⟨d, nums, hd, hlen⟩
    · obtain ⟨r', h1, h2⟩ := netLoop_spec pre hn hc ls r fun l hl => h l (by simp [hl])
      refine ⟨r', by rw [netLoop, netLine_skip ho]; exact h1, fun dev s c v hs => ?_⟩
      have hno : ∀ nums, ¬ DeviceLine l dev nums := fun nums h => ho (deviceLine_colon h)
      rw [h2 dev s c v hs]
      simp only [lastWith_cons_of_not (P := fun l nums => DeviceLine l dev nums) hno]
      simp [hno]
    · obtain ⟨r1, g1, g2, g3, g4⟩ := netLine_device (pre := pre) (r := r) hd hn hlen hc
      obtain ⟨r', h1, h2⟩ := netLoop_spec pre hn hc ls r1 fun l hl => h l (by simp [hl])
      refine ⟨r', by rw [netLoop, g1]; exact h1, fun dev s c v hs => ?_⟩
      rw [h2 dev s c v hs]
      by_cases hdev : dev = d
      · subst hdev
        constructor
        · rintro (⟨n, hl, hi⟩ | ⟨hf, hno⟩)
          · exact Or.inl ⟨n, lastWith_cons.mpr (Or.inl hl), hi⟩
          · obtain ⟨w, hw⟩ := g3 s c hs
            rw [g2 s c w hs hw] at hf
            cases hf
            exact Or.inl ⟨nums, lastWith_cons.mpr (Or.inr ⟨hd, hno⟩), hw⟩
        · rintro (⟨n, hl, hi⟩ | ⟨hf, hno⟩)
          · rcases lastWith_cons.mp hl with hl | ⟨hl, hno⟩
            · exact Or.inl ⟨n, hl, hi⟩
            · rw [(deviceLine_unique hl hd).2] at hi
              exact Or.inr ⟨g2 s c v hs hi, hno⟩
          · exact absurd hd (hno l (by simp) nums)
      · have hno : ∀ nums, ¬ DeviceLine l dev nums := fun n h => hdev (deviceLine_unique h hd).1
        rw [g4 _ fun s' c' hs' he => hdev (netKey_inj hs hs' he).1]
        simp only [lastWith_cons_of_not (P := fun l nums => DeviceLine l dev nums) hno]
        simp [hno]

theorem netColumns_spec {a r t : Str} {rs ts : List Str} (ha : '|' ∉ a) (hr : '|' ∉ r) (ht : '|' ∉ t)
    (hrs : Separated (fun c => isSpace c = true) r rs) (hts : Separated (fun c => isSpace c = true) t ts) :
    netColumns (a ++ '|' :: (r ++ '|' :: t)) = .ok (rs.map (c!"recv_" ++ ·) ++ ts.map (c!"send_" ++ ·)) := by
  unfold netColumns
  rw [splitOn_append ha, splitOn_append hr, splitOn_of_not_mem ht]
  simp only
  rw [fieldsOf_of_separated hrs, fieldsOf_of_separated hts]

theorem splitOn_length (c : Char) (s : Str) : (splitOn c s).length = s.count c + 1 := by
  induction s with
  | nil => rfl
  | cons x xs ih =>
    rw [splitOn]
    split_ifs with hx
    · subst hx; simp [ih]
    · have hne := splitOn_ne_nil c xs
      rw [List.count_cons_of_ne hx]
      cases h : splitOn c xs with
      | nil => exact absurd h hne
      | cons y ys => rw [h] at ih; simpa using ih

theorem intsOf_error : ∀ {ws : List Str} {w : Str}, w ∈ ws → (∀ z, ¬ Port w z) → intsOf ws = .error .valueError
  | x :: ws, w, hw, hn => by
    rw [intsOf]
    cases hx : parseInt x with
    | none => rfl
    | some z =>
      have hne : w ≠ x := by rintro rfl; exact hn z (parseInt_iff.mp hx)
      have hm : w ∈ ws := by simpa [hne] using hw
      simp [intsOf_error hm hn]

theorem dictZip_none {V : Type} {keys : List Str} {vals : List V} {k : Str} :
    (dictZip keys vals).find k = none ↔ ∀ v, ¬ ∃ i : ℕ, keys[i]? = some k ∧ vals[i]? = some v := by
  unfold dictZip
  rw [foldl_put_find]
  constructor
  · intro h v hi
    obtain ⟨i, h1, h2⟩ := hi
    have hm : (k, v) ∈ (keys.zip vals).filter fun p => p.1 = k := by
      rw [List.mem_filter]
      refine ⟨List.mem_iff_getElem?.2 ⟨i, ?_⟩, by simp⟩
      rw [List.getElem?_zip_eq_some]
      exact ⟨h1, h2⟩
    cases hl : ((keys.zip vals).filter fun p => p.1 = k).getLast? with
    | none => rw [List.getLast?_eq_none_iff] at hl; rw [hl] at hm; simp at hm
    | some p => rw [hl] at h; simp at h
  · intro h
    have : (keys.zip vals).filter (fun p => p.1 = k) = [] := by
      rw [List.filter_eq_nil_iff]
      rintro ⟨k', v⟩ hp hk
      simp only [decide_eq_true_eq] at hk
      subst hk
      obtain ⟨i, hi⟩ := List.mem_iff_getElem?.1 hp
      exact h v ⟨i, List.getElem?_zip_eq_some.1 hi⟩
    rw [this]
    rfl

theorem netEntries_cases (pre dev : Str) (columns : List Str) (nums : List ℤ) :
    ((∀ s c, NetName s c → ∃ v, InColumn columns nums c v) ∧ ∃ es, netEntries pre dev (dictZip columns nums) = .ok es) ∨
      ((∃ s c, NetName s c ∧ ∀ v, ¬ InColumn columns nums c v) ∧ netEntries pre dev (dictZip columns nums) = .error .keyError) := by
  have key : ∀ c, (∃ v, InColumn columns nums c v ∧ getKey (dictZip columns nums) c = .ok v) ∨
      ((∀ v, ¬ InColumn columns nums c v) ∧ getKey (dictZip columns nums) c = .error .keyError) := by
    intro c
    cases h : (dictZip columns nums).find c with
    | none => exact Or.inr ⟨dictZip_none.1 h, by simp [getKey, h]⟩
    | some v =>
      by_cases hex : ∃ v, InColumn columns nums c v
      · have hin : InColumn columns nums c v := by
          unfold dictZip at h
          rw [foldl_put_find] at h
          split at h
          · rename_i p hp
            have := List.mem_of_getLast? hp
            rw [List.mem_filter] at this
            obtain ⟨h1, h2⟩ := this
            obtain ⟨i, hi⟩ := List.mem_iff_getElem?.1 h1
            obtain ⟨h3, h4⟩ := List.getElem?_zip_eq_some.1 hi
            simp only [decide_eq_true_eq] at h2
            cases h
            exact ⟨i, by rw [h3, h2], h4⟩
          · simp [Dict.find] at h
        exact Or.inl ⟨v, hin, by simp [getKey, h]⟩
      · have := dictZip_none.2 (not_exists.1 hex)
        rw [h] at this; cases this
  unfold netEntries
  rcases key c!"recv_bytes" with ⟨v1, i1, h1⟩ | ⟨i1, h1⟩
  · rcases key c!"send_bytes" with ⟨v2, i2, h2⟩ | ⟨i2, h2⟩
    · rcases key c!"recv_packets" with ⟨v3, i3, h3⟩ | ⟨i3, h3⟩
      · rcases key c!"send_packets" with ⟨v4, i4, h4⟩ | ⟨i4, h4⟩
        · left
          refine ⟨?_, _, by rw [h1, h2, h3, h4]; rfl⟩
          intro s c hs
          cases hs
          exacts [⟨_, i1⟩, ⟨_, i2⟩, ⟨_, i3⟩, ⟨_, i4⟩]
        · exact Or.inr ⟨⟨_, _, .sendPackets, i4⟩, by rw [h1, h2, h3, h4]; rfl⟩
      · exact Or.inr ⟨⟨_, _, .recvPackets, i3⟩, by rw [h1, h2, h3]; rfl⟩
    · exact Or.inr ⟨⟨_, _, .sendBytes, i2⟩, by rw [h1, h2]; rfl⟩
  · exact Or.inr ⟨⟨_, _, .recvBytes, i1⟩, by rw [h1]; rfl⟩

theorem netLine_readable {pre : Str} {columns : List Str} {line : Str} (h : ReadableLine columns line) (r : Dict ℤ) :
    ∃ r', netLine pre columns r line = .ok r' := by
  rcases h with h | ⟨dev, nums, ⟨a, b, ws, rfl, ha, hb, hst, hsep, hp⟩, hc⟩
  · exact ⟨r, netLine_skip h⟩
  · unfold netLine
    rw [splitOn_colon_two ha hb]
    simp only
    rw [fieldsOf_of_separated hsep, intsOf_iff.mpr hp]
    simp only
    rcases netEntries_cases pre (strip a) columns nums with ⟨-, es, he⟩ | ⟨⟨s, c, hs, hn⟩, -⟩
    · rw [he]; exact ⟨_, rfl⟩
    · obtain ⟨v, hv⟩ := hc s c hs
      exact absurd hv (hn v)

theorem netLine_fault {pre : Str} {columns : List Str} {line : Str} {e : PyErr} (h : NetFault columns line e) (r : Dict ℤ) :
    netLine pre columns r line = .error e := by
  cases h with
  | colons _ h =>
    have hl := splitOn_length ':' line
    unfold netLine
    rcases hs : splitOn ':' line with _ | ⟨x, _ | ⟨y, _ | ⟨z, l⟩⟩⟩
    · exact absurd hs (splitOn_ne_nil _ _)
    · rw [hs] at hl; simp at hl; omega
    · rw [hs] at hl; simp at hl; omega
    · rfl
  | number a b w ws ha hb hs hw hn =>
    unfold netLine
    rw [splitOn_colon_two ha hb]
    simp only
    rw [fieldsOf_of_separated hs, intsOf_error hw hn]
  | column _ dev nums s c hd hs hn =>
    obtain ⟨a, b, ws, rfl, ha, hb, hst, hsep, hp⟩ := hd
    unfold netLine
    rw [splitOn_colon_two ha hb]
    simp only
    rw [fieldsOf_of_separated hsep, intsOf_iff.mpr hp]
    simp only
    rcases netEntries_cases pre (strip a) columns nums with ⟨hc, -⟩ | ⟨-, he⟩
    · obtain ⟨v, hv⟩ := hc s c hs
      exact absurd hv (hn v)
    · rw [he]

theorem netLine_sorts (columns : List Str) (line : Str) : ReadableLine columns line ∨ ∃ e, NetFault columns line e := by
  have hl := splitOn_length ':' line
  have hj := join_splitOn ':' line
  have hp := splitOn_parts ':' line
  rcases hs : splitOn ':' line with _ | ⟨x, _ | ⟨y, _ | ⟨z, l⟩⟩⟩
  · exact absurd hs (splitOn_ne_nil _ _)
  · rw [hs] at hl
    simp at hl
    exact Or.inl (Or.inl (List.count_eq_zero.1 hl))
  · rw [hs] at hj hp
    have hj : line = x ++ ':' :: y := by rw [← hj]; simp [joinWith]
    have hx := hp x (by simp)
    have hy := hp y (by simp)
    subst hj
    by_cases hn : ∃ w ∈ fieldsOf isSpace y, ∀ z, ¬ Port w z
    · obtain ⟨w, hw, hz⟩ := hn
      exact Or.inr ⟨_, .number x y w _ hx hy (separated_iff.2 rfl) hw hz⟩
    · have : ∃ zs, List.Forall₂ Port (fieldsOf isSpace y) zs := by
        have hall : ∀ w ∈ fieldsOf isSpace y, ∃ z, Port w z := by
          intro w hw
          by_contra hc
          exact hn ⟨w, hw, not_exists.1 hc⟩
        generalize fieldsOf isSpace y = ws at hall
        induction ws with
        | nil => exact ⟨[], .nil⟩
        | cons w ws ih =>
          obtain ⟨z, hz⟩ := hall w (by simp)
          obtain ⟨zs, hzs⟩ := ih fun w hw => hall w (by simp [hw])
          exact ⟨z :: zs, .cons hz hzs⟩
      obtain ⟨zs, hzs⟩ := this
      have hd : DeviceLine (x ++ ':' :: y) (strip x) zs := ⟨x, y, _, rfl, hx, hy, strip_spec x, separated_iff.2 rfl, hzs⟩
      by_cases hc : ∀ s c, NetName s c → ∃ v, InColumn columns zs c v
      · exact Or.inl (Or.inr ⟨_, _, hd, hc⟩)
      · push Not at hc
        obtain ⟨s, c, h1, h2⟩ := hc
        exact Or.inr ⟨_, .column _ _ _ s c hd h1 h2⟩
  · rw [hs] at hl
    simp only [List.length_cons] at hl
    exact Or.inr ⟨_, .colons _ (by omega)⟩

theorem netLoop_error {pre : Str} {columns : List Str} {e : PyErr} : ∀ {lines : List Str} (r : Dict ℤ),
    netLoop pre columns r lines = .error e ↔
      ∃ a l b, lines = a ++ l :: b ∧ (∀ l ∈ a, ReadableLine columns l) ∧ NetFault columns l e
  | [], r => by simp [netLoop]
  | x :: lines, r => by
    rw [netLoop]
    rcases netLine_sorts columns x with hx | ⟨e', hx⟩
    · obtain ⟨r', hr⟩ := netLine_readable (pre := pre) hx r
      rw [hr]
      simp only
      rw [netLoop_error]
      constructor
      · rintro ⟨a, l, b, rfl, h1, h2⟩
        exact ⟨x :: a, l, b, rfl, fun y hy => by rcases List.mem_cons.1 hy with rfl | hy; exacts [hx, h1 y hy], h2⟩
      · rintro ⟨a, l, b, he, h1, h2⟩
        cases a with
        | nil =>
          cases he
          rw [netLine_fault h2] at hr
          cases hr
        | cons y a =>
          cases he
          exact ⟨a, l, b, rfl, fun z hz => h1 z (by simp [hz]), h2⟩
    · rw [netLine_fault hx]
      constructor
      · intro h
        cases h
        exact ⟨[], x, lines, rfl, by simp, hx⟩
      · rintro ⟨a, l, b, he, h1, h2⟩
        cases a with
        | nil =>
          cases he
          have h3 := netLine_fault (pre := pre) h2 r
          rw [netLine_fault hx] at h3
          exact h3
        | cons y a =>
          cases he
          obtain ⟨r', hr⟩ := netLine_readable (pre := pre) (h1 x (by simp)) r
          rw [netLine_fault hx] at hr
          cases hr

theorem netColumns_cases (header : Str) :
    (∃ columns, HeaderLine header columns ∧ netColumns header = .ok columns) ∨
      (header.count '|' ≠ 2 ∧ netColumns header = .error .valueError) := by
  have hl := splitOn_length '|' header
  have hj := join_splitOn '|' header
  have hp := splitOn_parts '|' header
  by_cases hc : header.count '|' = 2
  · rw [hc] at hl
    left
    rcases hs : splitOn '|' header with _ | ⟨x, _ | ⟨y, _ | ⟨z, _ | ⟨w, l⟩⟩⟩⟩ <;> rw [hs] at hl <;> simp at hl
    rw [hs] at hj hp
    have hj : header = x ++ '|' :: (y ++ '|' :: z) := by rw [← hj]; simp [joinWith]
    have hx := hp x (by simp)
    have hy := hp y (by simp)
    have hz := hp z (by simp)
    subst hj
    refine ⟨_, ⟨x, y, z, _, _, rfl, hx, hy, hz, separated_iff.2 rfl, separated_iff.2 rfl, rfl⟩, ?_⟩
    exact netColumns_spec hx hy hz (separated_iff.2 rfl) (separated_iff.2 rfl)
  · refine Or.inr ⟨hc, ?_⟩
    unfold netColumns
    rcases hs : splitOn '|' header with _ | ⟨x, _ | ⟨y, _ | ⟨z, _ | ⟨w, l⟩⟩⟩⟩ <;> rw [hs] at hl <;> simp at hl ⊢
    omega

theorem headerLine_count {header : Str} {columns : List Str} (h : HeaderLine header columns) :
    header.count '|' = 2 ∧ netColumns header = .ok columns := by
  obtain ⟨a, r, t, rs, ts, rfl, ha, hr, ht, h1, h2, rfl⟩ := h
  refine ⟨?_, netColumns_spec ha hr ht h1 h2⟩
  simp [List.count_eq_zero.2 ha, List.count_eq_zero.2 hr, List.count_eq_zero.2 ht]

/-! ## Connections -/

theorem netStats_find (pre : Str) (conns : List (Bool × Str)) (r : Dict ℕ) (x : Str) :
    (conns.foldl (netStat pre) r).find (pre ++ c!".status." ++ x)
      = (let n := (conns.filter fun c => c.1 = true ∧ c.2.map lowerChar = x).length
         if n = 0 then r.find (pre ++ c!".status." ++ x)
         else some ((r.find (pre ++ c!".status." ++ x)).getD 0 + n)) := by
  induction conns generalizing r with
  | nil => simp
  | cons c cs ih =>
    rw [List.foldl_cons, ih]
    have hput : (netStat pre r c).find (pre ++ c!".status." ++ x)
        = if c.1 = true ∧ c.2.map lowerChar = x then some ((r.find (pre ++ c!".status." ++ x)).getD 0 + 1)
          else r.find (pre ++ c!".status." ++ x) := by
      unfold netStat
      cases hc : c.1
      · simp
      · simp only [if_true, true_and]
        by_cases hx : c.2.map lowerChar = x
        · subst hx
          rw [if_pos rfl]
          split
          · rename_i h
            rw [Dict.find_put_self, h]; rfl
          · rename_i n h
            rw [Dict.find_put_self, h]; rfl
        · rw [if_neg hx]
          have hne : pre ++ c!".status." ++ x ≠ pre ++ c!".status." ++ c.2.map lowerChar :=
            fun h => hx (List.append_cancel_left h).symm
          split <;> exact Dict.find_put_ne _ _ hne
    by_cases h : c.1 = true ∧ c.2.map lowerChar = x
    · rw [List.filter_cons_of_pos (by simpa using h)]
      rw [if_pos h] at hput
      simp only [hput, List.length_cons]
      split
      · rename_i h0
        rw [if_neg (Nat.succ_ne_zero _), h0]
      · rw [if_neg (Nat.succ_ne_zero _), Option.getD_some]
        congr 1
        omega
    · rw [List.filter_cons_of_neg (by simpa using h)]
      rw [if_neg h] at hput
      simp only [hput]

/-! ## Differences -/

section
variable [Rounding]

theorem diffs_spec (last : Dict Num) : ∀ (l : List (Str × Num)) (r : Dict Num), (l.map Prod.fst).Nodup →
    (∀ k ∈ l.map Prod.fst, k ∈ last.keys) →
    ∃ r', diffs last r l = .ok r' ∧ ∀ k, r'.find k = match l.find? (fun p => p.1 == k) with
      | some p => some (p.2.sub ((last.find k).getD (.int 0)))
      | none => r.find k
  | [], r, _, _ => ⟨r, rfl, fun k => rfl⟩
  | (k0, v) :: l, r, hn, hk => by
    have hk0 := (Dict.find_isSome_iff last k0).mpr (hk k0 (by simp))
    rcases hf : last.find k0 with _ | old
    · rw [hf] at hk0; simp at hk0
    · rw [List.map_cons, List.nodup_cons] at hn
      obtain ⟨r', h1, h2⟩ := diffs_spec last l (r.put k0 (v.sub old)) hn.2 fun k hk' => hk k (by simp at hk' ⊢; right; exact hk')
      refine ⟨r', by rw [diffs, hf]; exact h1, fun k => ?_⟩
      rw [h2]
      by_cases hkk : k0 = k
      · subst hkk
        have hnone : l.find? (fun p => p.1 == k0) = none := by
          rw [List.find?_eq_none]
          intro p hp h
          exact hn.1 (List.mem_map.mpr ⟨p, hp, by simpa using h⟩)
        rw [hnone, List.find?_cons_of_pos (by simp)]
        simp only
        rw [Dict.find_put_self, hf]
        rfl
      · rw [List.find?_cons_of_neg (by simpa using hkk)]
        rw [Dict.find_put_ne _ _ (fun h => hkk h.symm)]

theorem diffs_new_key (last : Dict Num) : ∀ (l : List (Str × Num)) (r : Dict Num) {k : Str},
    k ∈ l.map Prod.fst → k ∉ last.keys → diffs last r l = .error .keyError
  | (k0, v) :: l, r, k, hk, hl => by
    rw [diffs]
    split
    · rfl
    · rename_i old hf
      refine diffs_new_key last l _ (k := k) ?_ hl
      rw [List.map_cons, List.mem_cons] at hk
      rcases hk with rfl | hk
      · exact absurd (Dict.mem_keys_of_mem (Dict.mem_of_find hf)) hl
      · exact hk

theorem run_dead (g : CounterGen) (hg : g.dead = true) : ∀ (xs : List (Except PyErr (Dict Num))),
    g.run xs = xs.map fun _ => .error .stopIteration
  | [] => rfl
  | x :: xs => by
    have h : g.next x = (g, .error .stopIteration) := by unfold CounterGen.next; rw [if_pos hg]
    rw [CounterGen.run, h]
    simp only [List.map_cons]
    rw [run_dead g hg xs]

end

end Txstatsd
