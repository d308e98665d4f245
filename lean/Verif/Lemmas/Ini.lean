import Verif.Spec.Ini
import Verif.Lemmas.Text
import Verif.Lemmas.Dict
import Verif.Lemmas.Configurable
import Verif.Lemmas.System
import Verif.Lemmas.Files
import Mathlib.Data.List.TakeWhile

set_option linter.unusedSectionVars false
set_option linter.unusedSimpArgs false
set_option linter.unusedVariables false

/-! # Lemmas about configuration files -/

namespace Txstatsd
open Spec

theorem lowerChar_toLower (c : Char) : lowerChar c = c.toLower := by
  unfold lowerChar Char.toLower
  by_cases h : 'A' ≤ c ∧ c ≤ 'Z'
  · have h1 : 65 ≤ c.val.toNat := by have := h.1; rw [Char.le_def, UInt32.le_iff_toNat_le] at this; simpa using this
    have h2 : c.val.toNat ≤ 90 := by have := h.2; rw [Char.le_def, UInt32.le_iff_toNat_le] at this; simpa using this
    have h' : c.val ≥ 'A'.val ∧ c.val ≤ 'Z'.val := h
    rw [if_pos (by simpa using h), dif_pos h']
    apply Char.ext
    apply UInt32.toNat_inj.1
    have hv : (c.toNat + 32).isValidChar := by left; show c.val.toNat + 32 < 55296; omega
    rw [Char.ofNat, dif_pos hv]
    have e1 : (Char.ofNatAux (c.toNat + 32) hv).val.toNat = c.val.toNat + 32 := rfl
    have e2 : (c.val + ('a'.val - 'A'.val)).toNat = (c.val.toNat + 32) % 2 ^ 32 := by rw [UInt32.toNat_add]; rfl
    rw [e1]
    show _ = (c.val + ('a'.val - 'A'.val)).toNat
    rw [e2]
    omega
  · have h' : ¬ (c.val ≥ 'A'.val ∧ c.val ≤ 'Z'.val) := h
    rw [if_neg (by simpa using h), dif_neg h']

theorem map_lower (s : Str) : s.map lowerChar = s.map Char.toLower := List.map_congr_left fun c _ => lowerChar_toLower c

theorem white_lower {c : Char} (h : White c) : ¬ ∃ d, c = d ∧ c.toLower ≠ c := by
  rintro ⟨d, rfl, hd⟩
  apply hd
  unfold White at h
  simp only [List.mem_cons, List.not_mem_nil, or_false] at h
  rcases h with rfl | rfl | rfl | rfl | rfl | rfl <;> decide

theorem step_noise {l : Str} (h : Noise l) (st : Ini) : st.step l = .ok st := by
  obtain ⟨-, h⟩ := h
  unfold Ini.step
  rcases h with h | h | h | ⟨r, rest, rfl, hr, hrest⟩
  · have : strip l = [] := strip_of_stripped ⟨l, [], by simp, h, by simp, by simp, by simp⟩
    rw [if_pos (Or.inl this)]
  · rw [if_pos (Or.inr (Or.inl h))]
  · rw [if_pos (Or.inr (Or.inr h))]
  · split
    · rfl
    · rw [if_pos]
      have hr' : ∀ c ∈ r, isSpace c = false := by
        intro c hc
        have h2 : c.toLower ∈ c!"rem" := by rw [← hr]; exact List.mem_map_of_mem hc
        rw [isSpace_false_iff]
        intro hw
        have h3 : c.toLower = c := by
          by_contra h4
          exact white_lower hw ⟨c, rfl, h4⟩
        rw [h3] at h2
        unfold White at hw
        revert h2
        simp only [List.mem_cons, List.not_mem_nil, or_false] at hw
        rcases hw with rfl | rfl | rfl | rfl | rfl | rfl <;> decide
      have ht : (r ++ rest).takeWhile (fun c => !isSpace c) = r := by
        rw [List.takeWhile_append_of_pos (by intro c hc; simp [hr' c hc])]
        cases rest with
        | nil => simp
        | cons c rest =>
          have := (isSpace_iff c).2 (hrest c rfl)
          simp [List.takeWhile_cons, this]
      unfold isRem
      rw [ht, map_lower, hr]
      decide

theorem not_white_hash : ¬ White '[' := by decide

theorem step_header {l name : Str} (h : Header l name) (st : Ini) : st.step l = .ok (st.enter name) := by
  obtain ⟨-, hn, hb, rest, rfl⟩ := h
  have h0 : isSpace '[' = false := by decide
  have h1 : strip ('[' :: name ++ ']' :: rest) ≠ [] := by
    intro h
    obtain ⟨a, b, he, ha, hb', -, -⟩ := strip_spec ('[' :: name ++ ']' :: rest)
    rw [h] at he
    have : '[' ∈ a ++ [] ++ b := by rw [← he]; simp
    simp only [List.append_nil, List.mem_append] at this
    rcases this with h | h
    · exact not_white_hash (ha _ h)
    · exact not_white_hash (hb' _ h)
  unfold Ini.step
  rw [if_neg (by rintro (h | h | h); exacts [h1 h, absurd h (by simp), absurd h (by simp)]), if_neg]
  · have hs : sectionHeader ('[' :: name ++ ']' :: rest) = some name := by
      simp only [List.cons_append, sectionHeader]
      rw [split1_eq hb]
      simp [hn]
    rw [hs]
    simp [h0]
  · unfold isRem
    simp only [List.cons_append, List.takeWhile_cons, h0]
    simp only [Bool.not_false, ↓reduceIte, List.map_cons]
    intro h
    have := of_decide_eq_true h
    simp only [List.cons.injEq] at this
    exact absurd this.1 (by decide)

theorem meaning_value {rest v : Str} (h : Meaning rest v) : iniValue rest = unquoted v := by
  unfold iniValue unquoted
  cases h with
  | plain h1 h2 h3 =>
    have hs := strip_of_stripped h3
    rcases hsp : split1 ';' rest with _ | ⟨x, y⟩
    · simp only [hs]
    · obtain ⟨he, hx⟩ := split1_some hsp
      have : (x.getLast?.or rest.getLast?).any isSpace = false := by
        rcases hl : x.getLast? with _ | c
        · rw [List.getLast?_eq_none_iff] at hl
          subst hl
          obtain ⟨c, hc, hw⟩ := h2 (by rw [he]; rfl)
          simp [hc, (isSpace_false_iff c).2 hw]
        · have : ¬ White c := fun hw => h1 x ⟨⟨y, he⟩, hx, c, hl, hw⟩
          simp [(isSpace_false_iff c).2 this]
      simp only [this, Bool.false_eq_true, if_false, hs]
  | @cut x _ h1 h2 =>
    obtain ⟨⟨y, rfl⟩, hx, c, hc, hw⟩ := h1
    rw [split1_eq hx]
    simp only [hc, Option.some_or, Option.any_some, (isSpace_iff c).2 hw, if_true, strip_of_stripped h2]
  | @empty c h1 h2 h3 =>
    cases rest with
    | nil => simp at h1
    | cons d rest =>
      simp only [List.head?_cons, Option.some.injEq] at h1
      subst h1
      have : split1 ';' (';' :: rest) = some ([], rest) := by simp [split1]
      rw [this]
      simp only [List.getLast?_nil, Option.none_or, h2, Option.any_some, (isSpace_iff c).2 h3, if_true]
      decide

theorem step_assigns {l name v : Str} (h : Assigns l name v) {st : Ini} {s : Str} (hs : st.cur = some s) :
    st.step l = .ok { st.set s name [v] with opt := some name } := by
  obtain ⟨-, n, a, c, b, rest, v', rfl, hn, hn', hh, ha, hb, hc, hrest, hname, hrem, -, hm, hv⟩ := h
  obtain ⟨x, n, rfl⟩ : ∃ x n', n = x :: n' := by
    cases n with
    | nil => exact absurd rfl hn
    | cons x n' => exact ⟨x, n', rfl⟩
  have hx := hn' x (by simp)
  have hx' := hh x rfl
  have hsx : isSpace x = false := (isSpace_false_iff x).2 hx.1
  have hcs : isSpace c = false := by rcases hc with rfl | rfl <;> decide
  have hcsep : isSep c = true := by rcases hc with rfl | rfl <;> decide
  have h1 : strip (x :: n ++ a ++ c :: (b ++ rest)) ≠ [] := by
    intro h
    obtain ⟨p, q, he, hp, hq, -, -⟩ := strip_spec (x :: n ++ a ++ c :: (b ++ rest))
    rw [h] at he
    have : x ∈ p ++ [] ++ q := by rw [← he]; simp
    simp only [List.append_nil, List.mem_append] at this
    rcases this with h | h
    · exact hx.1 (hp _ h)
    · exact hx.1 (hq _ h)
  have h2 : isRem (x :: n ++ a ++ c :: (b ++ rest)) = false := by
    rw [Bool.eq_false_iff]
    intro h
    unfold isRem at h
    have h := of_decide_eq_true h
    rw [List.append_assoc, List.takeWhile_append_of_pos (by intro y hy; simp [(isSpace_false_iff y).2 (hn' y hy).1])] at h
    cases a with
    | nil =>
      rw [List.nil_append, List.takeWhile_cons_of_pos (by simp [hcs])] at h
      have : c ∈ (c!"rem" : Str) := by
        rw [← h, map_lower, List.mem_map]
        refine ⟨c, by simp, ?_⟩
        rcases hc with rfl | rfl <;> decide
      rcases hc with rfl | rfl <;> exact absurd this (by decide)
    | cons d a =>
      have hd := (isSpace_iff d).2 (ha d (by simp))
      have he : (d :: a ++ c :: (b ++ rest)).takeWhile (fun c => !isSpace c) = [] := by simp [hd]
      rw [he, List.append_nil, map_lower, ← hname] at h
      exact absurd (hrem h) (by simp)
  have h3 : sectionHeader (x :: n ++ a ++ c :: (b ++ rest)) = none := by
    simp only [List.cons_append, sectionHeader]
    split
    · next heq => simp only [List.cons.injEq] at heq; exact absurd heq.1 hx'.2.2
    · rfl
  have hwsep : ∀ y, White y → isSep y = false := by
    intro y hy
    unfold White at hy
    simp only [List.mem_cons, List.not_mem_nil, or_false] at hy
    rcases hy with rfl | rfl | rfl | rfl | rfl | rfl <;> decide
  have hnsep : ∀ y ∈ x :: n ++ a, isSep y = false := by
    intro y hy
    rw [List.mem_append] at hy
    rcases hy with hy | hy
    · have := hn' y hy
      simp [isSep, this.2.1, this.2.2]
    · exact hwsep y (ha y hy)
  have h4 : optionLine (x :: n ++ a ++ c :: (b ++ rest)) = some (name, v) := by
    have ht : (x :: n ++ a ++ c :: (b ++ rest)).takeWhile (fun c => !isSep c) = x :: n ++ a := by
      rw [List.takeWhile_append_of_pos (by intro y hy; simp [hnsep y hy]), List.takeWhile_cons_of_neg (by simp [hcsep]),
        List.append_nil]
    have hd : (x :: n ++ a ++ c :: (b ++ rest)).dropWhile (fun c => !isSep c) = c :: (b ++ rest) := by
      rw [List.dropWhile_append_of_pos (by intro y hy; simp [hnsep y hy]), List.dropWhile_cons_of_neg (by simp [hcsep])]
    have hr : rstrip (x :: n ++ a) = x :: n := by
      unfold rstrip
      rw [List.reverse_append, dropWhile_append_all (p := isSpace), List.reverse_reverse]
      · intro y hy; exact (isSpace_iff y).2 (ha y (List.mem_reverse.1 hy))
      · intro y hy
        rw [List.head?_reverse] at hy
        exact (isSpace_false_iff y).2 (hn' y (List.mem_of_getLast? hy)).1
    have hl : lstrip (b ++ rest) = rest := by
      unfold lstrip
      rw [dropWhile_append_all (p := isSpace)]
      · intro y hy; exact (isSpace_iff y).2 (hb y hy)
      · intro y hy; exact (isSpace_false_iff y).2 (hrest y hy)
    have hxs : isSep x = false := hnsep x (by simp)
    unfold optionLine
    rw [ht, hd]
    simp only [List.cons_append, List.head?_cons, hsx, hxs, Bool.or_false, Bool.false_eq_true, if_false]
    rw [← List.cons_append, hr, hl, map_lower, ← hname, meaning_value hm, ← hv]
  unfold Ini.step
  rw [if_neg (by rintro (h | h | h); exacts [h1 h, hx'.1 (by simpa using h), hx'.2.1 (by simpa using h)]), if_neg (by rw [h2]; simp), h3, h4, hs]
  simp [hsx]

theorem step_cont {l v : Str} (h : Continues l v) {st : Ini} {s n : Str} (hs : st.cur = some s) (hn : st.opt = some n) :
    st.step l = .ok (st.set s n (st.get s n ++ [v])) := by
  obtain ⟨-, hv, hne, c, hc, hw⟩ := h
  have h1 : strip l = v := strip_of_stripped hv
  have hsp := (isSpace_iff c).2 hw
  have hcn : c ≠ '#' ∧ c ≠ ';' := by constructor <;> rintro rfl <;> revert hw <;> decide
  unfold Ini.step
  rw [if_neg (by simp [h1, hne, hc, hcn.1, hcn.2]), if_neg, hs, hn]
  · simp [hc, hsp, h1]
  · unfold isRem
    cases l with
    | nil => simp at hc
    | cons d l =>
      simp only [List.head?_cons, Option.some.injEq] at hc
      subst hc
      rw [List.takeWhile_cons_of_neg (by simp [hsp])]
      decide

theorem ini_run_append (a b : List Str) (st : Ini) : st.run (a ++ b) = match st.run a with | .error e => .error e | .ok st => st.run b := by
  induction a generalizing st with
  | nil => rfl
  | cons l a ih =>
    have hc : ∀ ls : List Str, st.run (l :: ls) = match st.step l with | .error e => .error e | .ok st => st.run ls := fun _ => rfl
    rw [List.cons_append, hc, hc]
    cases st.step l with
    | error e => rfl
    | ok st => exact ih st

theorem run_conts {ls vs : List Str} (h : ContLines ls vs) : ∀ {st : Ini} {s n : Str} {d : Dict (List Str)} {v : List Str},
    st.cur = some s → st.opt = some n → st.tables.find s = some d → d.find n = some v →
    st.run ls = .ok { st with tables := st.tables.put s (d.put n (v ++ vs)) } := by
  induction h with
  | nil =>
    intro st s n d v hs hn hd hv
    rw [List.append_nil, Dict.put_same hv, Dict.put_same hd]
    rfl
  | noise hl _ ih =>
    intro st s n d v hs hn hd hv
    unfold Ini.run
    rw [step_noise hl]
    exact ih hs hn hd hv
  | @cont l w ls vs hl _ ih =>
    intro st s n d v hs hn hd hv
    unfold Ini.run
    rw [step_cont hl hs hn]
    have hg : st.get s n = v := by unfold Ini.get; rw [hd]; simp [hv]
    simp only
    rw [hg]
    have := ih (st := st.set s n (v ++ [w])) (s := s) (n := n) (d := d.put n (v ++ [w])) (v := v ++ [w]) hs hn
      (by simp [Ini.set, hd]) (by simp)
    rw [this]
    simp only [Ini.set, hd, Option.getD_some, Dict.put_put, List.append_assoc, List.singleton_append]

theorem run_entries {ls : List Str} {es : List (Str × List Str)} (h : EntryLines ls es) :
    ∀ {st : Ini} {s : Str} {d : Dict (List Str)}, st.cur = some s → st.tables.find s = some d →
    ∃ o, st.run ls = .ok { st with tables := st.tables.put s (es.foldl (fun d p => Dict.put d p.1 p.2) d), opt := o } := by
  induction h with
  | nil =>
    intro st s d hs hd
    refine ⟨st.opt, ?_⟩
    rw [List.foldl_nil, Dict.put_same hd]
    rfl
  | noise hl _ ih =>
    intro st s d hs hd
    obtain ⟨o, ho⟩ := ih hs hd
    refine ⟨o, ?_⟩
    unfold Ini.run
    rw [step_noise hl]
    exact ho
  | @option l name v ls vs ls' es hl hc _ ih =>
    intro st s d hs hd
    have h1 : st.run (l :: (ls ++ ls')) = ({ st.set s name [v] with opt := some name } : Ini).run (ls ++ ls') := by
      conv_lhs => unfold Ini.run
      rw [step_assigns hl hs]
    have h2 := run_conts hc (st := { st.set s name [v] with opt := some name }) (s := s) (n := name) (d := d.put name [v]) (v := [v])
      hs rfl (by simp [Ini.set, hd]) (by simp)
    obtain ⟨o, ho⟩ := ih (st := { st with tables := st.tables.put s (d.put name (v :: vs)), opt := some name }) (s := s)
      (d := d.put name (v :: vs)) hs (by simp)
    refine ⟨o, ?_⟩
    rw [h1, ini_run_append, h2]
    simp only [Ini.set, hd, Option.getD_some, Dict.put_put, List.singleton_append] at ho ⊢
    rw [ho]
    rw [List.foldl_cons]

/-- What a section does to the tables. -/
def addSection (T : Dict (Dict (List Str))) (p : Str × List (Str × List Str)) : Dict (Dict (List Str)) :=
  T.put p.1 (p.2.foldl (fun d p => Dict.put d p.1 p.2) ((T.find p.1).getD []))

theorem run_file {ls : List Str} {secs : List (Str × List (Str × List Str))} (h : FileLines ls secs) :
    ∀ st : Ini, ∃ c o, st.run ls = .ok ⟨secs.foldl addSection st.tables, c, o, st.bad⟩ ∧ (st.cur.isSome ∨ secs ≠ [] → c.isSome) := by
  induction h with
  | nil => intro st; exact ⟨st.cur, st.opt, rfl, by simp⟩
  | noise hl _ ih =>
    intro st
    obtain ⟨c, o, h, h'⟩ := ih st
    refine ⟨c, o, ?_, h'⟩
    unfold Ini.run
    rw [step_noise hl]
    exact h
  | @sect l name ls es ls' secs hl he _ ih =>
    intro st
    have h1 : st.run (l :: (ls ++ ls')) = (st.enter name).run (ls ++ ls') := by
      conv_lhs => unfold Ini.run
      rw [step_header hl]
    have hd : (st.enter name).tables.find name = some ((st.tables.find name).getD []) := by
      unfold Ini.enter Dict.has
      cases hf : st.tables.find name with
      | none => simp [hf]
      | some d => simp [hf]
    obtain ⟨o, ho⟩ := run_entries he (st := st.enter name) (s := name) rfl hd
    have hp : (st.enter name).tables.put name (es.foldl (fun d p => Dict.put d p.1 p.2) ((st.tables.find name).getD []))
        = addSection st.tables (name, es) := by
      unfold addSection Ini.enter Dict.has
      simp only
      cases hf : st.tables.find name with
      | none => simp [hf, Dict.put_put]
      | some d => simp [hf]
    rw [hp] at ho
    obtain ⟨c, o', h, h'⟩ := ih { (st.enter name) with tables := addSection st.tables (name, es), opt := o }
    refine ⟨c, o', ?_, fun _ => h' (Or.inl rfl)⟩
    rw [h1, ini_run_append, ho]
    simp only
    rw [h]
    rfl

theorem tables_find (secs : List (Str × List (Str × List Str))) (T : Dict (Dict (List Str))) (s : Str) :
    ((secs.foldl addSection T).find s).getD [] = (optionsIn secs s).foldl (fun d p => Dict.put d p.1 p.2) ((T.find s).getD []) := by
  induction secs generalizing T with
  | nil => rfl
  | cons p secs ih =>
    rw [List.foldl_cons, ih]
    unfold optionsIn addSection
    by_cases h : p.1 = s
    · subst h
      rw [List.filter_cons_of_pos (by simp), List.flatMap_cons, List.foldl_append, Dict.find_put_self]
      rfl
    · rw [List.filter_cons_of_neg (by simpa using h), Dict.find_put_ne _ _ (fun h' => h h'.symm)]

theorem tables_keys (secs : List (Str × List (Str × List Str))) (T : Dict (Dict (List Str))) (s : Str) :
    s ∈ (secs.foldl addSection T).keys ↔ s ∈ T.keys ∨ s ∈ secs.map Prod.fst := by
  induction secs generalizing T with
  | nil => simp
  | cons p secs ih =>
    rw [List.foldl_cons, ih]
    unfold addSection
    rw [Dict.mem_keys_put]
    simp only [List.map_cons, List.mem_cons]
    tauto

theorem tables_wf (secs : List (Str × List (Str × List Str))) (T : Dict (Dict (List Str))) (h : T.Wf) : (secs.foldl addSection T).Wf := by
  induction secs generalizing T with
  | nil => exact h
  | cons p secs ih =>
    rw [List.foldl_cons]
    exact ih _ (Dict.wf_put h _ _)

theorem put_fresh {V : Type} (d : Dict V) (k : Str) (v : V) (h : k ∉ d.keys) : d.put k v = d ++ [(k, v)] := by
  induction d with
  | nil => rfl
  | cons p d ih =>
    obtain ⟨k', v'⟩ := p
    simp only [Dict.keys, List.map_cons, List.mem_cons, not_or] at h
    unfold Dict.put
    rw [if_neg (fun he => h.1 he.symm), ih h.2]
    rfl

theorem foldl_put_fresh {V : Type} (es : List (Str × V)) : ∀ d : Dict V, ((d ++ es).map Prod.fst).Nodup →
    es.foldl (fun d p => Dict.put d p.1 p.2) d = d ++ es := by
  induction es with
  | nil => intro d _; simp
  | cons p es ih =>
    intro d h
    rw [List.foldl_cons, put_fresh, ih]
    · simp
    · simpa using h
    · intro hm
      rw [List.map_append, List.map_cons, List.nodup_append] at h
      exact h.2.2 _ hm _ (by simp) rfl

theorem foldl_section_fresh (secs : List (Str × List (Str × List Str))) (hes : ∀ p ∈ secs, (p.2.map Prod.fst).Nodup) :
    ∀ T : Dict (Dict (List Str)), ((T ++ secs).map Prod.fst).Nodup → secs.foldl addSection T = T ++ secs := by
  induction secs with
  | nil => intro T _; simp
  | cons p secs ih =>
    intro T h
    have hp : p.1 ∉ T.keys := by
      intro hm
      rw [List.map_append, List.map_cons, List.nodup_append] at h
      exact h.2.2 _ hm _ (by simp) rfl
    have hf : T.find p.1 = none := by
      rw [Option.eq_none_iff_forall_not_mem]
      intro v hv
      exact hp ((Dict.find_isSome_iff _ _).1 (by rw [Option.mem_def.1 hv]; rfl))
    have ha : addSection T p = T ++ [p] := by
      unfold addSection
      rw [hf, Option.getD_none, foldl_put_fresh _ [] (by simpa using hes p (by simp)), put_fresh _ _ _ hp]
      simp
    rw [List.foldl_cons, ha, ih (fun q hq => hes q (by simp [hq]))]
    · simp
    · simpa using h

theorem entry_names {ls : List Str} {es : List (Str × List Str)} (h : EntryLines ls es) : ∀ p ∈ es, p.1 ≠ c!"__name__" := by
  induction h with
  | nil => simp
  | noise _ _ ih => exact ih
  | option hl _ _ ih =>
    intro p hp
    rcases List.mem_cons.1 hp with rfl | hp
    · obtain ⟨-, n, a, c, b, rest, v', -, -, -, -, -, -, -, -, -, -, h, -⟩ := hl
      exact h
    · exact ih p hp

theorem file_names {ls : List Str} {secs : List (Str × List (Str × List Str))} (h : FileLines ls secs) :
    ∀ s ∈ secs, ∀ p ∈ s.2, p.1 ≠ c!"__name__" := by
  induction h with
  | nil => simp
  | noise _ _ ih => exact ih
  | sect _ he _ ih =>
    intro s hs
    rcases List.mem_cons.1 hs with rfl | hs
    · exact entry_names he
    · exact ih s hs

theorem cont_noNewline {ls vs : List Str} (h : ContLines ls vs) : ∀ l ∈ ls, '\n' ∉ l := by
  induction h with
  | nil => simp
  | noise hl _ ih => intro l h; rcases List.mem_cons.1 h with rfl | h; exacts [hl.1, ih l h]
  | cont hl _ ih => intro l h; rcases List.mem_cons.1 h with rfl | h; exacts [hl.1, ih l h]

theorem entry_noNewline {ls : List Str} {es : List (Str × List Str)} (h : EntryLines ls es) : ∀ l ∈ ls, '\n' ∉ l := by
  induction h with
  | nil => simp
  | noise hl _ ih => intro l h; rcases List.mem_cons.1 h with rfl | h; exacts [hl.1, ih l h]
  | option hl hc _ ih =>
    intro l h
    rcases List.mem_cons.1 h with rfl | h
    · exact hl.1
    · rcases List.mem_append.1 h with h | h
      exacts [cont_noNewline hc l h, ih l h]

theorem file_noNewline {ls : List Str} {secs : List (Str × List (Str × List Str))} (h : FileLines ls secs) : ∀ l ∈ ls, '\n' ∉ l := by
  induction h with
  | nil => simp
  | noise hl _ ih => intro l h; rcases List.mem_cons.1 h with rfl | h; exacts [hl.1, ih l h]
  | sect hl he _ ih =>
    intro l h
    rcases List.mem_cons.1 h with rfl | h
    · exact hl.1
    · rcases List.mem_append.1 h with h | h
      exacts [entry_noNewline he l h, ih l h]

theorem run_bad (ls : List Str) : ∀ {st st' : Ini}, st.bad = true → st.run ls = .ok st' → st'.bad = true := by
  induction ls with
  | nil => intro st st' h h'; cases h'; exact h
  | cons l ls ih =>
    intro st st' h h'
    unfold Ini.run at h'
    rcases hs : st.step l with e | st''
    · rw [hs] at h'; cases h'
    · rw [hs] at h'
      refine ih ?_ h'
      unfold Ini.step at hs
      split at hs
      · cases hs; exact h
      · split at hs
        · cases hs; exact h
        · split at hs
          · cases hs; exact h
          · split at hs
            · cases hs; exact h
            · cases hs
            · split at hs
              · cases hs; exact h
              · cases hs; rfl

theorem map_find {V W : Type} (f : V → W) (d : Dict V) (n : Str) :
    Dict.find (d.map fun p => (p.1, f p.2)) n = (d.find n).map f := by
  induction d with
  | nil => rfl
  | cons p d ih =>
    simp only [List.map_cons, Dict.find]
    split
    · rfl
    · exact ih

theorem filter_find {V : Type} (q : Str → Bool) (d : Dict V) (n : Str) (h : q n = true) :
    Dict.find (d.filter fun p => q p.1) n = d.find n := by
  induction d with
  | nil => rfl
  | cons p d ih =>
    rw [List.filter_cons]
    simp only [Dict.find]
    split
    · simp only [Dict.find]
      split
      · rfl
      · exact ih
    · next hq =>
      rw [ih, if_neg]
      rintro rfl
      exact hq h

theorem keys_find {W : Type} (ks : List Str) (f : Str → W) (k : Str) :
    Dict.find (ks.map fun k => (k, f k)) k = if k ∈ ks then some (f k) else none := by
  induction ks with
  | nil => rfl
  | cons x ks ih =>
    simp only [List.map_cons, Dict.find, ih, List.mem_cons]
    by_cases h : x = k
    · subst h; simp
    · rw [if_neg h]
      have h' : k ≠ x := fun h' => h h'.symm
      by_cases hk : k ∈ ks
      · rw [if_pos hk, if_pos (Or.inr hk)]
      · rw [if_neg hk, if_neg (by rintro (e | e); exacts [h' e, hk e])]

theorem givenLast_find (es : List (Str × List Str)) (d : Dict (List Str)) (n : Str) :
    (es.foldl (fun d p => Dict.put d p.1 p.2) d).find n = (givenLast es n).or (d.find n) := by
  rw [foldl_put_find]
  unfold givenLast
  cases (es.filter fun p => p.1 = n).getLast? <;> rfl

theorem givenLast_wf {d : Dict (List Str)} (h : d.Wf) (n : Str) : givenLast d n = d.find n := by
  have := givenLast_find d [] n
  rw [foldl_put_fresh d [] (by rw [List.nil_append]; exact h), List.nil_append] at this
  rw [this]
  simp [Dict.find]

theorem run_noise {ns : List Str} (h : ∀ x ∈ ns, Noise x) (st : Ini) : st.run ns = .ok st := by
  induction ns with
  | nil => rfl
  | cons l ns ih =>
    unfold Ini.run
    rw [step_noise (h l (by simp))]
    exact ih fun x hx => h x (by simp [hx])

theorem sectionHeader_some {l name : Str} (hl : '\n' ∉ l) (h : sectionHeader l = some name) : Header l name := by
  unfold sectionHeader at h
  split at h
  · next rest =>
    split at h
    · next name' y hs =>
      split at h
      · cases h
      · next hne =>
        cases h
        obtain ⟨he, hm⟩ := split1_some hs
        exact ⟨hl, hne, hm, y, by rw [he]; simp⟩
    · cases h
  · cases h

theorem step_other {l : Str} (hl : '\n' ∉ l) (h1 : ¬ Noise l) (h2 : ∀ name, ¬ Header l name) {st : Ini}
    (h3 : l.head?.any isSpace = false ∨ st.cur = none ∨ st.opt = none) :
    st.step l = match st.cur with
      | none => .error .otherError
      | some s => match optionLine l with
        | some (n, v) => .ok { st.set s n [v] with opt := some n }
        | none => .ok { st with bad := true } := by
  have hs : sectionHeader l = none := by
    rw [Option.eq_none_iff_forall_not_mem]
    intro name hn
    exact h2 name (sectionHeader_some hl hn)
  unfold Ini.step
  rw [if_neg, if_neg, hs]
  · rcases h3 with h3 | h3 | h3
    · rw [h3]
      cases st.cur <;> rfl
    · rw [h3]
      cases l.head?.any isSpace <;> rfl
    · rw [h3]
      cases l.head?.any isSpace <;> cases st.cur <;> rfl
  · intro hr
    refine h1 ⟨hl, Or.inr (Or.inr (Or.inr ⟨l.takeWhile (fun c => !isSpace c), l.dropWhile (fun c => !isSpace c),
      List.takeWhile_append_dropWhile.symm, ?_, ?_⟩))⟩
    · rw [← map_lower]
      exact of_decide_eq_true hr
    · intro c hc
      have := List.head?_dropWhile_not (fun c => !isSpace c) l
      rw [hc] at this
      exact (isSpace_iff c).1 (by simpa using this)
  · rintro (h | h | h)
    · refine h1 ⟨hl, Or.inl ?_⟩
      obtain ⟨a, b, he, ha, hb, -⟩ := strip_spec l
      rw [h] at he
      intro c hc
      rw [he] at hc
      simp only [List.append_nil, List.mem_append] at hc
      rcases hc with hc | hc
      exacts [ha c hc, hb c hc]
    · exact h1 ⟨hl, Or.inr (Or.inl h)⟩
    · exact h1 ⟨hl, Or.inr (Or.inr (Or.inl h))⟩

theorem optionLine_none {l : Str} (h : ':' ∉ l ∧ '=' ∉ l) : optionLine l = none := by
  unfold optionLine
  split
  · rfl
  · split
    · rfl
    · have : l.dropWhile (fun c => !isSep c) = [] := by
        rw [List.dropWhile_eq_nil_iff]
        intro c hc
        have h1 : c ≠ ':' := fun e => h.1 (e ▸ hc)
        have h2 : c ≠ '=' := fun e => h.2 (e ▸ hc)
        simp [isSep, h1, h2]
      rw [this]

theorem run_error {ls : List Str} {e : PyErr} : ∀ {st : Ini}, st.run ls = .error e → e = .otherError := by
  induction ls with
  | nil => intro st h; cases h
  | cons l ls ih =>
    intro st h
    unfold Ini.run at h
    rcases hs : st.step l with e' | st'
    · rw [hs] at h
      cases h
      unfold Ini.step at hs
      split at hs
      · cases hs
      · split at hs
        · cases hs
        · split at hs
          · cases hs
          · split at hs
            · cases hs
            · cases hs; rfl
            · split at hs <;> cases hs
    · rw [hs] at h
      exact ih h

theorem stripped_subset {l v : Str} (h : Stripped l v) : ∀ c ∈ v, c ∈ l := by
  obtain ⟨a, b, rfl, -⟩ := h
  intro c hc
  simp [hc]

theorem assigns_noNewline {l name v : Str} (h : Assigns l name v) : '\n' ∉ v := by
  obtain ⟨hl, n, a, c, b, rest, v', rfl, -, -, -, -, -, -, -, -, -, -, hm, rfl⟩ := h
  have hr : '\n' ∉ rest := fun h => hl (by simp [h])
  have hv : '\n' ∉ v' := by
    cases hm with
    | plain _ _ h => exact fun h' => hr (stripped_subset h _ h')
    | cut h h2 =>
      obtain ⟨⟨y, rfl⟩, -⟩ := h
      exact fun h' => hr (List.mem_append_left _ (stripped_subset h2 _ h'))
    | empty => simp
  unfold unquoted
  split
  · simp
  · exact hv

theorem conts_noNewline {ls vs : List Str} (h : ContLines ls vs) : ∀ v ∈ vs, '\n' ∉ v := by
  induction h with
  | nil => simp
  | noise _ _ ih => exact ih
  | cont hl _ ih =>
    intro v hv
    rcases List.mem_cons.1 hv with rfl | hv
    · exact fun h' => hl.1 (stripped_subset hl.2.1 _ h')
    · exact ih v hv

theorem assigns_decl {d : OptDecl} (hd : d ∈ statsdDecls) {v u : Str} (hn : '\n' ∉ v) (hv : Stripped v v) (hu : Meaning v u) :
    Assigns (d.long ++ c!" = " ++ v) d.long (unquoted u) := by
  have hall : ∀ d ∈ statsdDecls, d.long ≠ [] ∧ (∀ x ∈ d.long, ¬ White x ∧ x ≠ ':' ∧ x ≠ '=') ∧
      d.long.head? ≠ some '#' ∧ d.long.head? ≠ some ';' ∧ d.long.head? ≠ some '[' ∧ d.long = d.long.map Char.toLower ∧
      d.long ≠ c!"rem" ∧ d.long ≠ c!"__name__" ∧ '\n' ∉ d.long := by decide +kernel
  obtain ⟨h1, h2, h3, h4, h5, h6, h7, h8, h9⟩ := hall d hd
  refine ⟨by simp [h9, hn], d.long, c!" ", '=', c!" ", v, u, by simp, h1, h2, ?_, by decide, by decide, Or.inr rfl, ?_, h6,
    fun h => absurd h h7, h8, hu, rfl⟩
  · intro x hx
    rw [hx] at h3 h4 h5
    exact ⟨fun h => h3 (by rw [h]), fun h => h4 (by rw [h]), fun h => h5 (by rw [h])⟩
  · obtain ⟨-, -, -, -, -, h, -⟩ := hv
    exact h

end Txstatsd
