import Verif.Spec.Getopt
import Mathlib.Data.List.TakeWhile

set_option linter.unusedSectionVars false
set_option linter.unusedSimpArgs false
set_option linter.unusedVariables false

/-! # Lemmas about `getopt` -/

namespace Txstatsd
open Spec

theorem longName_plain {a : Str} (h : '=' ∉ a) : longName a = a ∧ longValue a = none := by
  have h1 : ∀ c ∈ a, decide (c ≠ '=') = true := fun c hc => decide_eq_true fun he => h (he ▸ hc)
  constructor
  · unfold longName; exact List.takeWhile_eq_self_iff.2 h1
  · unfold longValue; rw [List.dropWhile_eq_nil_iff.2 h1]

theorem longName_eq {a v : Str} (h : '=' ∉ a) : longName (a ++ c!"=" ++ v) = a ∧ longValue (a ++ c!"=" ++ v) = some v := by
  have h1 : ∀ c ∈ a, decide (c ≠ '=') = true := fun c hc => decide_eq_true fun he => h (he ▸ hc)
  constructor
  · unfold longName
    rw [List.append_assoc, List.takeWhile_append_of_pos h1]
    simp [List.takeWhile_cons]
  · unfold longValue
    rw [List.append_assoc, List.dropWhile_append_of_pos h1]
    simp [List.dropWhile_cons]

theorem longHasArgs_full {lo : List Str} {name : Str} (h : TakesLong lo name) : longHasArgs name lo = .ok (true, name) := by
  obtain ⟨_, _, h1, h2⟩ := h
  unfold longHasArgs
  simp only [List.mem_filter]
  rw [if_neg fun hc => h2 hc.1, if_pos ⟨h1, by simp⟩]

theorem longHasArgs_abbr {lo : List Str} {pre name : Str} (h : Abbreviates lo pre name) : longHasArgs pre lo = .ok (true, name) := by
  obtain ⟨_, h1, h2, h3⟩ := h
  unfold longHasArgs
  simp only [h3, List.mem_singleton]
  rw [if_neg h2]
  by_cases he : pre ++ c!"=" = name ++ c!"="
  · rw [if_pos he, List.append_cancel_right he]
  · rw [if_neg he]
    simp

theorem shortHasArg_takes {c : Char} : ∀ {a b : Str}, c ∉ a → c ≠ ':' → shortHasArg c (a ++ c :: ':' :: b) = .ok true := by
  intro a b ha hc
  induction a with
  | nil => simp [shortHasArg, hc]
  | cons x a ih =>
    rw [List.cons_append, shortHasArg, if_neg fun h => ha (by rw [h.1]; simp)]
    exact ih fun h => ha (by simp [h])

theorem shortHasArg_spec {so : Str} {c : Char} (h : TakesShort so c) : shortHasArg c so = .ok true := by
  obtain ⟨_, h1, a, b, rfl, h2⟩ := h
  exact shortHasArg_takes h2 h1

theorem addOpts_ok (os os' : List CmdOpt) (r : List Str) : addOpts os (.ok (os', r)) = .ok (os ++ os', r) := rfl

theorem getopt_long {lo : List Str} {so : Str} {a : Str} {rest : List Str} (ha : a ≠ []) :
    getopt lo so ((c!"--" ++ a) :: rest) =
      match longHasArgs (longName a) lo, longValue a with
      | .error e, _ => .error e
      | .ok (true, name), some v => addOpts [⟨true, name, v⟩] (getopt lo so rest)
      | .ok (true, name), none =>
        match rest with
        | [] => .error .otherError
        | v :: rest => addOpts [⟨true, name, v⟩] (getopt lo so rest)
      | .ok (false, _), some _ => .error .otherError
      | .ok (false, name), none => addOpts [⟨true, name, []⟩] (getopt lo so rest) := by
  rw [getopt]
  have h1 : ¬ ((c!"--" ++ a).head? ≠ some '-' ∨ c!"--" ++ a = c!"-") := by simp
  have h2 : ¬ (c!"--" ++ a = c!"--") := by simpa using ha
  have h3 : c!"--" <+: c!"--" ++ a := List.prefix_append _ _
  rw [if_neg h1, if_neg h2, if_pos h3]
  rfl

theorem getopt_short {lo : List Str} {so : Str} {c : Char} {a : Str} {rest : List Str} (hc : c ≠ '-') :
    getopt lo so (('-' :: c :: a) :: rest) =
      match doShorts so (c :: a) with
      | .error e => .error e
      | .ok (os, none) => addOpts os (getopt lo so rest)
      | .ok (os, some c) =>
        match rest with
        | [] => .error .otherError
        | v :: rest => addOpts (os ++ [⟨false, [c], v⟩]) (getopt lo so rest) := by
  rw [getopt]
  have h1 : ¬ (('-' :: c :: a).head? ≠ some '-' ∨ '-' :: c :: a = c!"-") := by simp
  have h2 : ¬ ('-' :: c :: a = c!"--") := by
    intro h
    simp at h
    exact hc h.1
  have h3 : ¬ (c!"--" <+: '-' :: c :: a) := by
    rintro ⟨t, ht⟩
    simp at ht
    exact hc ht.1.symm
  rw [if_neg h1, if_neg h2, if_neg h3]
  rfl

theorem getopt_step {lo : List Str} {so : Str} (w : Written) (hw : w.Legal lo so) (rest : List Str) :
    getopt lo so (w.args ++ rest) = addOpts [w.meant] (getopt lo so rest) := by
  cases w with
  | longEq name value =>
    have hw : TakesLong lo name := hw
    obtain ⟨e1, e2⟩ := longName_eq (v := value) hw.2.1
    show getopt lo so ((c!"--" ++ name ++ c!"=" ++ value) :: rest) = _
    rw [List.append_assoc, List.append_assoc, getopt_long (by simp), ← List.append_assoc, e1, e2, longHasArgs_full hw]
    rfl
  | longNext name value =>
    have hw : TakesLong lo name := hw
    obtain ⟨e1, e2⟩ := longName_plain hw.2.1
    show getopt lo so ((c!"--" ++ name) :: value :: rest) = _
    rw [getopt_long hw.1, e1, e2, longHasArgs_full hw]
    rfl
  | abbrEq pre name value =>
    have hw : Abbreviates lo pre name := hw
    obtain ⟨e1, e2⟩ := longName_eq (v := value) hw.2.1
    show getopt lo so ((c!"--" ++ pre ++ c!"=" ++ value) :: rest) = _
    rw [List.append_assoc, List.append_assoc, getopt_long (by simp), ← List.append_assoc, e1, e2, longHasArgs_abbr hw]
    rfl
  | abbrNext pre name value =>
    have hw : Abbreviates lo pre name := hw
    obtain ⟨e1, e2⟩ := longName_plain hw.2.1
    show getopt lo so ((c!"--" ++ pre) :: value :: rest) = _
    rw [getopt_long hw.1, e1, e2, longHasArgs_abbr hw]
    rfl
  | shortSame letter value =>
    have hw : TakesShort so letter ∧ value ≠ [] := hw
    show getopt lo so (('-' :: letter :: value) :: rest) = _
    rw [getopt_short hw.1.1, doShorts, shortHasArg_spec hw.1]
    simp only [if_neg hw.2]
    rfl
  | shortNext letter value =>
    have hw : TakesShort so letter := hw
    show getopt lo so (('-' :: letter :: []) :: value :: rest) = _
    rw [getopt_short hw.1, doShorts, shortHasArg_spec hw]
    rfl

theorem getopt_tail {lo : List Str} {so : Str} {tail operands : List Str} (h : Tail tail operands) :
    getopt lo so tail = .ok ([], operands) := by
  cases h with
  | none => rfl
  | dashes operands => rw [getopt, if_neg (by simp), if_pos rfl]
  | operand a rest h => rw [getopt, if_pos h]

theorem getopt_written {lo : List Str} {so : Str} (ws : List Written) (hw : ∀ w ∈ ws, w.Legal lo so) (rest : List Str) :
    getopt lo so (ws.flatMap Written.args ++ rest) = addOpts (ws.map Written.meant) (getopt lo so rest) := by
  induction ws with
  | nil =>
    simp only [List.flatMap_nil, List.nil_append, List.map_nil]
    cases getopt lo so rest with
    | error e => rfl
    | ok r => rfl
  | cons w ws ih =>
    rw [List.flatMap_cons, List.append_assoc, getopt_step w (hw w (by simp)), ih fun w' h => hw w' (by simp [h])]
    cases getopt lo so rest with
    | error e => rfl
    | ok r => rfl

/-! ## What is returned was declared -/

theorem longHasArgs_sound {lo : List Str} {opt name : Str} {b : Bool} (h : longHasArgs opt lo = .ok (b, name)) :
    if b then name ++ c!"=" ∈ lo else name ∈ lo := by
  unfold longHasArgs at h
  simp only at h
  split at h
  · next hm => cases h; simpa using List.mem_of_mem_filter hm
  · split at h
    · next hm => cases h; simpa using List.mem_of_mem_filter hm
    · split at h
      · next u hu =>
        have hm : u ∈ lo := by
          have : u ∈ lo.filter fun o => opt.isPrefixOf o := by rw [hu]; simp
          exact List.mem_of_mem_filter this
        split at h
        · next hl =>
          cases h
          have : u.dropLast ++ c!"=" = u := by
            obtain ⟨ys, hy⟩ := List.getLast?_eq_some_iff.1 hl
            rw [hy]; simp
          simp only [if_true]
          rw [this]; exact hm
        · cases h; simpa using hm
      · cases h

theorem shortHasArg_sound {c : Char} {so : Str} {b : Bool} (h : shortHasArg c so = .ok b) : c ∈ so ∧ c ≠ ':' := by
  induction so with
  | nil => cases h
  | cons x so ih =>
    unfold shortHasArg at h
    split at h
    · next hx => obtain ⟨rfl, h2⟩ := hx; exact ⟨by simp, h2⟩
    · obtain ⟨h1, h2⟩ := ih h
      exact ⟨by simp [h1], h2⟩

theorem doShorts_sound {lo : List Str} {so : Str} {a : Str} : ∀ {os : List CmdOpt} {next : Option Char}, doShorts so a = .ok (os, next) →
    (∀ o ∈ os, Declared lo so o) ∧ ∀ c, next = some c → c ∈ so ∧ c ≠ ':' := by
  induction a with
  | nil => intro os next h; cases h; simp
  | cons c a ih =>
    intro os next h
    unfold doShorts at h
    rcases hs : shortHasArg c so with e | b
    · rw [hs] at h; cases h
    · have hc := shortHasArg_sound hs
      have hd : ∀ v, Declared lo so ⟨false, [c], v⟩ := fun v => by simpa [Declared] using ⟨hc.1, hc.2⟩
      rw [hs] at h
      cases b with
      | true =>
        simp only at h
        split at h
        · cases h; exact ⟨by simp, by rintro d ⟨⟩; exact hc⟩
        · cases h; exact ⟨by simpa using hd a, by simp⟩
      | false =>
        simp only at h
        rcases hr : doShorts so a with e | ⟨os', next'⟩
        · rw [hr] at h; cases h
        · rw [hr] at h
          cases h
          obtain ⟨h1, h2⟩ := ih hr
          refine ⟨?_, h2⟩
          intro o ho
          rcases List.mem_cons.1 ho with rfl | ho
          exacts [hd [], h1 o ho]

theorem addOpts_sound {P : CmdOpt → Prop} {os os' : List CmdOpt} {r : Except PyErr (List CmdOpt × List Str)} {ops argv argv' : List Str}
    (h : addOpts os r = .ok (os', ops)) (h1 : ∀ o ∈ os, P o) (hs : argv <:+ argv')
    (h2 : ∀ os' ops, r = .ok (os', ops) → (∀ o ∈ os', P o) ∧ ops <:+ argv) : (∀ o ∈ os', P o) ∧ ops <:+ argv' := by
  cases r with
  | error e => cases h
  | ok p =>
    obtain ⟨os2, ops2⟩ := p
    cases h
    obtain ⟨h3, h4⟩ := h2 _ _ rfl
    refine ⟨?_, h4.trans hs⟩
    intro o ho
    rcases List.mem_append.1 ho with ho | ho
    exacts [h1 o ho, h3 o ho]

theorem getopt_sound {lo : List Str} {so : Str} : ∀ (n : Nat) (argv : List Str), argv.length ≤ n → ∀ os operands,
    getopt lo so argv = .ok (os, operands) → (∀ o ∈ os, Declared lo so o) ∧ operands <:+ argv := by
  intro n
  induction n with
  | zero =>
    intro argv hn os operands h
    rw [List.length_eq_zero_iff.1 (Nat.le_zero.1 hn)] at h ⊢
    rw [getopt] at h
    cases h
    simp
  | succ n ih =>
    intro argv hn os operands h
    cases argv with
    | nil => rw [getopt] at h; cases h; simp
    | cons a rest =>
      have hr : rest.length ≤ n := by simpa using hn
      rw [getopt] at h
      split at h
      · cases h; simp
      · split at h
        · cases h; exact ⟨by simp, List.suffix_cons _ _⟩
        · split at h
          · rcases hl : longHasArgs (longName (a.drop 2)) lo with e | ⟨b, name⟩
            · rw [hl] at h; cases h
            · have hd := longHasArgs_sound hl
              rw [hl] at h
              cases b with
              | true =>
                have hd' : ∀ v, ∀ o ∈ [(⟨true, name, v⟩ : CmdOpt)], Declared lo so o := by
                  intro v o ho
                  rw [List.mem_singleton] at ho
                  subst ho
                  exact Or.inl (by simpa using hd)
                rcases hv : longValue (a.drop 2) with _ | v
                · rw [hv] at h
                  simp only at h
                  cases rest with
                  | nil => cases h
                  | cons v rest =>
                    exact addOpts_sound h (hd' v) ⟨[a, v], rfl⟩ fun os' ops h' => ih rest (by simp at hr; omega) os' ops h'
                · rw [hv] at h
                  exact addOpts_sound h (hd' v) (List.suffix_cons _ _) fun os' ops h' => ih rest hr os' ops h'
              | false =>
                rcases hv : longValue (a.drop 2) with _ | v
                · rw [hv] at h
                  refine addOpts_sound h ?_ (List.suffix_cons _ _) fun os' ops h' => ih rest hr os' ops h'
                  intro o ho
                  rw [List.mem_singleton] at ho
                  subst ho
                  exact Or.inr ⟨by simpa using hd, rfl⟩
                · rw [hv] at h; cases h
          · rcases hd : doShorts so (a.drop 1) with e | ⟨os', next⟩
            · rw [hd] at h; cases h
            · obtain ⟨h1, h2⟩ := doShorts_sound (lo := lo) hd
              rw [hd] at h
              cases next with
              | none => exact addOpts_sound h h1 (List.suffix_cons _ _) fun os' ops h' => ih rest hr os' ops h'
              | some c =>
                simp only at h
                cases rest with
                | nil => cases h
                | cons v rest =>
                  refine addOpts_sound h ?_ ⟨[a, v], rfl⟩ fun os' ops h' => ih rest (by simp at hr; omega) os' ops h'
                  intro o ho
                  rcases List.mem_append.1 ho with ho | ho
                  · exact h1 o ho
                  · rw [List.mem_singleton] at ho
                    subst ho
                    obtain ⟨h3, h4⟩ := h2 c rfl
                    exact ⟨c, h3, h4, rfl⟩

end Txstatsd
