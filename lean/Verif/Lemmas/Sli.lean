import Verif.Spec.Sli
import Verif.Lemmas.Dict
import Verif.Lemmas.Fnmatch
import Mathlib.Tactic.Linarith

set_option linter.unusedSectionVars false
set_option linter.unusedSimpArgs false
set_option linter.unusedVariables false

namespace Txstatsd
open Spec

section
variable [Rounding]

theorem call_cases {c : SliCond} (hc : c ≠ .reporter) (v : PyFloat) (size : Num) :
    c.call v size = .ok true ∨ c.call v size = .ok false := by
  cases c <;> simp [SliCond.call] at hc ⊢ 

theorem tally_eq (v : PyFloat) (size : Num) (f : SliCond → Nat) (rest : Dict SliCond) (done : Dict Nat)
    (hn : (done.keys ++ rest.keys).Nodup) (hr : ∀ kc ∈ rest, kc.2 ≠ .reporter) :
    tally v size rest (done ++ rest.map fun kc => (kc.1, f kc.2)) =
      (done ++ rest.map fun kc => (kc.1, f kc.2 + if Good kc.2 (some v, size) then 1 else 0), none) := by
  induction rest generalizing done with
  | nil => rfl
  | cons kc rest ih =>
    obtain ⟨k, c⟩ := kc
    have hk : k ∉ done.keys := by
      intro h
      have := (List.nodup_append.1 hn).2.2 k h k (by simp [Dict.keys])
      exact this rfl
    have hn2 : ∀ x : Nat, (Dict.keys (done ++ [(k, x)]) ++ Dict.keys rest).Nodup := by
      intro x
      simpa [Dict.keys] using hn
    have hr2 : ∀ kc ∈ rest, kc.2 ≠ .reporter := fun kc h => hr kc (by simp [h])
    have key : ∀ x : Nat, done ++ (k, x) :: rest.map (fun kc => (kc.1, f kc.2)) =
        (done ++ [(k, x)]) ++ rest.map (fun kc => (kc.1, f kc.2)) := by simp
    rw [tally]
    rcases call_cases (hr (k, c) (by simp)) v size with h | h
    · rw [h]
      simp only [List.map_cons]
      have hfind : Dict.find (done ++ (k, f c) :: rest.map fun kc => (kc.1, f kc.2)) k = some (f c) := by
        apply Dict.find_of_mem
        · unfold Dict.Wf
          simpa [Dict.keys, Function.comp_def] using hn
        · simp
      rw [hfind]
      simp only
      rw [Dict.put_append _ _ hk, key, ih _ (hn2 _) hr2]
      simp [Good, h]
    · rw [h]
      simp only [List.map_cons]
      rw [key, ih _ (hn2 _) hr2]
      simp [Good, h]

/-- The state of a reporter whose counts describe the events `es`. -/
def sliState (name : Str) (conds : Dict SliCond) (es : List (Option PyFloat × Num)) : SliReporter :=
  { name, conditions := conds
    counts := conds.map fun kc => (kc.1, es.countP (Good kc.2))
    count := es.length
    error := es.countP fun e => e.1.isNone }

theorem init_eq (name : Str) (conds : Dict SliCond) : SliReporter.init name conds = sliState name conds [] := by
  simp [SliReporter.init, SliReporter.clear, sliState]

theorem update_eq (name : Str) {conds : Dict SliCond} (hc : ProperConditions conds)
    (es : List (Option PyFloat × Num)) (value : Option PyFloat) (size : Num) :
    (sliState name conds es).update value size = (sliState name conds (es ++ [(value, size)]), none) := by
  cases value with
  | none =>
    simp [SliReporter.update, sliState, List.countP_append, Good]
  | some v =>
    have := tally_eq v size (fun c => es.countP (Good c)) conds [] (by simpa using hc.1) hc.2
    simp only [List.nil_append] at this
    simp only [SliReporter.update, sliState, this, List.countP_append, List.length_append,
      List.length_singleton, List.countP_singleton, Option.isNone_some, Bool.false_eq_true, if_false,
      add_zero]

theorem process_eq (r : SliReporter) (fields : List Str) (hf : fields ≠ []) :
    r.process fields = match sliEvent fields with
      | none => (r, some .valueError)
      | some (v, size) => r.update v size := by
  unfold SliReporter.process sliEvent eventSize eventValue
  have hv : ∀ f rest, sliValue (f :: rest) = if f = c!"error" then .ok none
      else match parseFloat f with
      | none => .error .valueError
      | some x => .ok (some x) := fun f rest => rfl
  match fields, hf with
  | [a], _ =>
    simp only [sliSize, hv]
    by_cases he : a = c!"error"
    · simp [he]
    · cases h : parseFloat a <;> simp [he, h]
  | [a, b], _ =>
    simp only [sliSize, hv]
    by_cases he : a = c!"error"
    · simp [he]
    · cases h : parseFloat a <;> simp [he, h]
  | [a, b, c], _ =>
    simp only [sliSize, hv]
    cases hc : parseFloat c with
    | none => simp [hc]
    | some x =>
      by_cases he : a = c!"error"
      · simp [he, hc]
      · cases h : parseFloat a <;> simp [he, h, hc]
  | a :: b :: c :: d :: rest, _ =>
    simp only [sliSize, hv]
    by_cases he : a = c!"error"
    · simp [he]
    · cases h : parseFloat a <;> simp [he, h]

theorem process_state (name : Str) {conds : Dict SliCond} (hc : ProperConditions conds)
    (es : List (Option PyFloat × Num)) (fields : List Str) :
    ((sliState name conds es).process fields).1 =
      sliState name conds (es ++ (sliEvent fields).toList) := by
  by_cases hf : fields = []
  · subst hf
    have : sliEvent [] = none := by
      simp [sliEvent]
    rw [this]
    simp [SliReporter.process, sliSize, sliValue]
  · rw [process_eq _ _ hf]
    cases h : sliEvent fields with
    | none => simp
    | some e => simp [update_eq name hc es]

theorem flush_state (name : Str) {conds : Dict SliCond} (es : List (Option PyFloat × Num)) (ts : ℤ) :
    (sliState name conds es).flush ts = (sliState name conds [], sliPoints name conds es ts) := by
  simp [SliReporter.flush, SliReporter.clear, sliState, sliPoints, Function.comp_def]

theorem eventsSince_append (ops : List SliOp) (op : SliOp) :
    eventsSince (ops ++ [op]) = match op with
      | .event fields => eventsSince ops ++ (sliEvent fields).toList
      | .flush _ => [] := by
  cases op <;> simp [eventsSince]

theorem runSli_append (r : SliReporter) (a b : List SliOp) : runSli r (a ++ b) = runSli (runSli r a) b := by
  induction a generalizing r with
  | nil => rfl
  | cons op a ih => cases op <;> simp [runSli, ih]

theorem runSli_eq (name : Str) {conds : Dict SliCond} (hc : ProperConditions conds) (ops : List SliOp) :
    runSli (.init name conds) ops = sliState name conds (eventsSince ops) := by
  induction ops using List.reverseRecOn with
  | nil => simp [runSli, init_eq, eventsSince]
  | append_singleton ops op ih =>
    rw [runSli_append, ih, eventsSince_append]
    cases op with
    | event fields => simp [runSli, process_state name hc]
    | flush ts => simp [runSli, flush_state]

end

/-! ## The factory -/

theorem updateWith_find {V : Type} (d e : Dict V) (he : e.keys.Nodup) (k : Str) :
    (updateWith d e).find k = match e.find k with
      | some v => some v
      | none => d.find k := by
  unfold updateWith
  induction e generalizing d with
  | nil => simp
  | cons p e ih =>
    obtain ⟨k', v'⟩ := p
    simp only [Dict.keys_cons, List.nodup_cons] at he
    rw [List.foldl_cons, ih _ he.2]
    by_cases h : k' = k
    · subst h
      have : Dict.find e k' = none := (Dict.find_eq_none e k').2 he.1
      simp [Dict.find, this]
    · rw [Dict.find_put_ne _ _ (Ne.symm h)]
      simp [Dict.find, h]

theorem updateWith_wf {V : Type} (d e : Dict V) (hd : d.keys.Nodup) : (updateWith d e).keys.Nodup := by
  unfold updateWith
  induction e generalizing d with
  | nil => exact hd
  | cons p e ih => exact ih _ (Dict.wf_put hd _ _)

theorem gather_wf (path : Str) (cfg : SliConfig) (d : Dict SliCond) (hd : d.keys.Nodup) :
    (gather path cfg d).keys.Nodup := by
  unfold gather
  induction cfg generalizing d with
  | nil => exact hd
  | cons p cfg ih =>
    rw [List.foldl_cons]
    apply ih
    split
    · exact updateWith_wf _ _ hd
    · exact hd

theorem gather_append (path : Str) (a b : SliConfig) (d : Dict SliCond) :
    gather path (a ++ b) d = gather path b (gather path a d) := by simp [gather]

theorem gather_sound (path : Str) (cfg : SliConfig) (hw : ∀ pc ∈ cfg, pc.2.keys.Nodup) (k : Str) (c : SliCond)
    (h : (gather path cfg []).find k = some c) :
    ∃ pat conds, (pat, conds) ∈ cfg ∧ fnmatch path pat = .ok true ∧ conds.find k = some c := by
  induction cfg using List.reverseRecOn with
  | nil => simp [gather] at h
  | append_singleton cfg p ih =>
    have hw' : ∀ pc ∈ cfg, pc.2.keys.Nodup := fun pc hp => hw pc (by simp [hp])
    obtain ⟨pat, conds⟩ := p
    rw [gather_append] at h
    simp only [gather, List.foldl_cons, List.foldl_nil] at h
    have lift : (gather path cfg []).find k = some c → _ := fun h0 => ih hw' h0
    split at h
    · rename_i hm
      rw [updateWith_find _ _ (hw (pat, conds) (by simp))] at h
      cases hf : conds.find k with
      | some v =>
        rw [hf] at h
        simp only at h
        cases h
        exact ⟨pat, conds, by simp, hm, hf⟩
      | none =>
        rw [hf] at h
        obtain ⟨p', c', h1, h2, h3⟩ := lift h
        exact ⟨p', c', by simp [h1], h2, h3⟩
    · obtain ⟨p', c', h1, h2, h3⟩ := lift h
      exact ⟨p', c', by simp [h1], h2, h3⟩

theorem gather_keeps (path : Str) (cfg : SliConfig) (hw : ∀ pc ∈ cfg, pc.2.keys.Nodup) (k : Str)
    (d : Dict SliCond) (h : (d.find k).isSome) : ((gather path cfg d).find k).isSome := by
  induction cfg using List.reverseRecOn with
  | nil => exact h
  | append_singleton cfg p ih =>
    have ih := ih fun pc hp => hw pc (by simp [hp])
    obtain ⟨pat, conds⟩ := p
    rw [gather_append]
    simp only [gather, List.foldl_cons, List.foldl_nil]
    split
    · rw [updateWith_find _ _ (hw (pat, conds) (by simp))]
      cases hf : conds.find k with
      | some v => rfl
      | none => exact ih
    · exact ih

theorem gather_complete (path : Str) (cfg : SliConfig) (hw : ∀ pc ∈ cfg, pc.2.keys.Nodup) (k : Str)
    (pat : Str) (conds : Dict SliCond) (hp : (pat, conds) ∈ cfg) (hm : fnmatch path pat = .ok true)
    (hk : (conds.find k).isSome) : ((gather path cfg []).find k).isSome := by
  obtain ⟨a, b, rfl⟩ := List.append_of_mem hp
  rw [gather_append]
  have : gather path ((pat, conds) :: b) (gather path a []) =
      gather path b (gather path [(pat, conds)] (gather path a [])) := by
    simp [gather]
  rw [this]
  apply gather_keeps _ _ (fun pc h => hw pc (by simp [h]))
  simp only [gather, List.foldl_cons, List.foldl_nil, hm]
  rw [updateWith_find _ _ (hw (pat, conds) (by simp))]
  cases hf : conds.find k with
  | some v => rfl
  | none => simp [hf] at hk

/-! ## Rule lines -/

theorem run1_iff (p : Char → Bool) (s a b : Str) :
    run1 p s = some (a, b) ↔ s = a ++ b ∧ a ≠ [] ∧ (∀ c ∈ a, p c = true) ∧
      ∀ c, b.head? = some c → p c = false := by
  unfold run1
  constructor
  · intro h
    split at h
    · cases h
    · rename_i hne
      simp only [Option.some.injEq, Prod.mk.injEq] at h
      obtain ⟨rfl, rfl⟩ := h
      refine ⟨(List.takeWhile_append_dropWhile).symm, hne, ?_, ?_⟩
      · intro c hc; exact List.mem_takeWhile_imp hc
      · intro c hc
        have := List.head?_dropWhile_not p s
        rw [hc] at this
        simpa using this
  · rintro ⟨rfl, hne, ha, hb⟩
    have h1 : (a ++ b).takeWhile p = a := by
      rw [List.takeWhile_append_of_pos ha]
      cases b with
      | nil => simp
      | cons c b =>
        have := hb c rfl
        simp [List.takeWhile_cons, this]
    have h2 : (a ++ b).dropWhile p = b := by
      rw [List.dropWhile_append_of_pos ha]
      cases b with
      | nil => simp
      | cons c b =>
        have := hb c rfl
        simp [List.dropWhile_cons, this]
    rw [h1, h2, if_neg hne]

theorem literal_iff (p s r : Str) : literal p s = some r ↔ s = p ++ r := by
  induction p generalizing s with
  | nil => simp [literal]
  | cons c p ih =>
    cases s with
    | nil => simp [literal]
    | cons d s =>
      rw [literal]
      by_cases h : c = d
      · simp [h, ih]
      · simp [h, Ne.symm h]

theorem isWord_iff (c : Char) : isWord c = true ↔ c ∈ wordChars := by
  constructor
  · intro h
    have hlt : c.toNat < 128 := by
      have hz : ∀ d : Char, d.toNat < 128 → c ≤ d → c.toNat < 128 := fun d hd hc =>
        lt_of_le_of_lt (show c.toNat ≤ d.toNat from hc) hd
      simp only [isWord, isDigit, Bool.or_eq_true, Bool.and_eq_true, decide_eq_true_eq, beq_iff_eq] at h
      rcases h with ((h | h) | h) | h
      · exact hz 'z' (by decide) h.2
      · exact hz 'Z' (by decide) h.2
      · exact hz '9' (by decide) h.2
      · rw [h]; decide
    have hall : ∀ n < 128, isWord (Char.ofNat n) = true → Char.ofNat n ∈ wordChars := by decide +kernel
    have := hall c.toNat hlt
    rw [Char.ofNat_toNat] at this
    exact this h
  · exact (by decide +kernel : ∀ c ∈ wordChars, isWord c = true) c

theorem isHeadChar_iff (c : Char) : isHeadChar c = true ↔ c ∈ headChars := by
  simp [isHeadChar, headChars, isWord_iff, or_assoc]

theorem not_isWord_iff (c : Char) : isWord c = false ↔ c ∉ wordChars := by
  rw [← isWord_iff, Bool.not_eq_true]

theorem matchRule_iff (line head label cname params : Str) :
    matchRule line = some (head, label, cname, params) ↔ RuleLine line head label cname params := by
  unfold matchRule
  simp only [Option.bind_eq_bind, Option.bind_eq_some_iff, Prod.exists, Option.some.injEq, Prod.mk.injEq]
  constructor
  · rintro ⟨h, s1, hr1, s2, hl1, l, s3, hr2, s4, hl2, c, s5, hr3, rfl, rfl, rfl, rfl⟩
    rw [run1_iff] at hr1 hr2 hr3
    rw [literal_iff] at hl1 hl2
    obtain ⟨e1, a1, b1, d1⟩ := hr1
    obtain ⟨e2, a2, b2, d2⟩ := hr2
    obtain ⟨e3, a3, b3, d3⟩ := hr3
    exact ⟨by rw [e1, hl1, e2, hl2, e3]; simp, a1, fun c hc => (isHeadChar_iff c).1 (b1 c hc), a2,
      fun c hc => (isWord_iff c).1 (b2 c hc), a3, fun c hc => (isWord_iff c).1 (b3 c hc),
      fun c hc => (not_isWord_iff c).1 (d3 c hc)⟩
  · intro h
    refine ⟨head, c!" => " ++ (label ++ (c!" IF " ++ (cname ++ params))), ?_, label ++ (c!" IF " ++ (cname ++ params)),
      ?_, label, c!" IF " ++ (cname ++ params), ?_, cname ++ params, ?_, cname, params, ?_, rfl, rfl, rfl, rfl⟩
    · rw [run1_iff]
      refine ⟨by rw [h.eq]; simp, h.head_ne, fun c hc => (isHeadChar_iff c).2 (h.head_ok c hc), ?_⟩
      intro c hc
      simp at hc
      subst hc
      decide
    · rw [literal_iff]
    · rw [run1_iff]
      refine ⟨rfl, h.label_ne, fun c hc => (isWord_iff c).2 (h.label_ok c hc), ?_⟩
      intro c hc
      simp at hc
      subst hc
      decide
    · rw [literal_iff]
    · rw [run1_iff]
      exact ⟨rfl, h.cname_ne, fun c hc => (isWord_iff c).2 (h.cname_ok c hc),
        fun c hc => (not_isWord_iff c).2 (h.params_ok c hc)⟩

section
variable [Rounding]

theorem floatOf_eq (s : Str) : floatOf s = match parseFloat s with
    | none => .error .valueError
    | some x => .ok x := rfl

theorem buildCond_means {cname : Str} {params : List Str} {c : SliCond} (h : Means cname params c) :
    buildCond cname params = .ok c := by
  cases h <;> simp_all [buildCond, floatOf, bind, Except.bind]

theorem means_of_buildCond {cname : Str} {params : List Str} {c : SliCond}
    (h : buildCond cname params = .ok c) : Means cname params c ∨
      (cname = c!"metric" ∧ (params.length = 2 ∨ params.length = 3) ∧ c = .reporter) := by
  unfold buildCond at h
  split at h
  · rename_i hn
    subst hn
    split at h
    · rename_i v
      cases hv : parseFloat v <;> simp [floatOf, hv, bind, Except.bind] at h
      subst h
      exact .inl (.above1 hv)
    · rename_i v s
      cases hv : parseFloat v <;> simp [floatOf, hv, bind, Except.bind] at h
      cases hs : parseFloat s <;> simp [floatOf, hs, bind, Except.bind] at h
      subst h
      exact .inl (.above2 hv hs)
    · cases h
  · split at h
    · rename_i hn
      subst hn
      split at h
      · rename_i v
        cases hv : parseFloat v <;> simp [floatOf, hv, bind, Except.bind] at h
        subst h
        exact .inl (.below1 hv)
      · rename_i v s
        cases hv : parseFloat v <;> simp [floatOf, hv, bind, Except.bind] at h
        cases hs : parseFloat s <;> simp [floatOf, hs, bind, Except.bind] at h
        subst h
        exact .inl (.below2 hv hs)
      · cases h
    · split at h
      · rename_i hn
        subst hn
        split at h
        · rename_i v s
          cases hv : parseFloat v <;> simp [floatOf, hv, bind, Except.bind] at h
          cases hs : parseFloat s <;> simp [floatOf, hs, bind, Except.bind] at h
          subst h
          exact .inl (.between hv hs)
        · cases h
      · split at h
        · rename_i hn
          split at h
          · cases h; exact .inr ⟨hn, by simp, rfl⟩
          · cases h; exact .inr ⟨hn, by simp, rfl⟩
          · cases h
        · cases h

theorem buildCond_senseless {kind : Str} {params : List Str} {e : PyErr} (h : Senseless kind params e) :
    buildCond kind params = .error e := by
  cases h with
  | kind _ _ h =>
    simp only [List.mem_cons, List.not_mem_nil, or_false, not_or] at h
    simp [buildCond, h]
  | sloped _ _ hk h1 h2 =>
    rcases hk with rfl | rfl <;> rcases params with _ | ⟨a, _ | ⟨b, _ | ⟨c, t⟩⟩⟩ <;> simp_all [buildCond]
  | between _ h => rcases params with _ | ⟨a, _ | ⟨b, _ | ⟨c, t⟩⟩⟩ <;> simp_all [buildCond]
  | metric _ h1 h2 => rcases params with _ | ⟨a, _ | ⟨b, _ | ⟨c, _ | ⟨d, t⟩⟩⟩⟩ <;> simp_all [buildCond]
  | slopedNumber _ _ p hk hl hp hn =>
    have hl : (∃ v, params = [v]) ∨ ∃ v s, params = [v, s] := by
      rcases hl with h | h
      · exact .inl (List.length_eq_one_iff.1 h)
      · exact .inr (List.length_eq_two.1 h)
    rcases hl with ⟨v, rfl⟩ | ⟨v, s, rfl⟩
    · simp only [List.mem_singleton] at hp
      subst hp
      rcases hk with rfl | rfl <;> simp [buildCond, floatOf, hn, bind, Except.bind]
    · simp only [List.mem_cons, List.not_mem_nil, or_false] at hp
      rcases hk with rfl | rfl <;> rcases hp with h | h <;> rw [h] at hn <;> cases hv : parseFloat v <;>
        simp_all [buildCond, floatOf, bind, Except.bind]
  | betweenNumber _ p hl hp hn =>
    obtain ⟨v, s, rfl⟩ := List.length_eq_two.1 hl
    simp only [List.mem_cons, List.not_mem_nil, or_false] at hp
    rcases hp with h | h <;> rw [h] at hn <;> cases hv : parseFloat v <;> simp_all [buildCond, floatOf, bind, Except.bind]

theorem senseless_of_buildCond {kind : Str} {params : List Str} {e : PyErr} (h : buildCond kind params = .error e) :
    Senseless kind params e := by
  by_cases hk : kind ∈ [c!"above", c!"below", c!"between", c!"metric"]
  · have key : ∀ ps : List Str, (∀ p ∈ ps, parseFloat p ≠ none) ∨ ∃ p ∈ ps, parseFloat p = none := by
      intro ps
      by_cases hh : ∃ p ∈ ps, parseFloat p = none
      · exact .inr hh
      · exact .inl fun p hp hn => hh ⟨p, hp, hn⟩
    have two : ∀ {e' : PyErr}, Senseless kind params e' → Senseless kind params e := by
      intro e' h'
      rw [buildCond_senseless h'] at h
      cases h
      exact h'
    simp only [List.mem_cons, List.not_mem_nil, or_false] at hk
    rcases hk with rfl | rfl | rfl | rfl
    · by_cases hl : params.length = 1 ∨ params.length = 2
      · rcases key params with hn | ⟨p, hp, hn⟩
        · exfalso
          rcases hl with hl | hl
          · obtain ⟨v, rfl⟩ := List.length_eq_one_iff.1 hl
            obtain ⟨x, hx⟩ := Option.ne_none_iff_exists'.1 (hn v (by simp))
            rw [buildCond_means (.above1 hx)] at h
            cases h
          · obtain ⟨v, s, rfl⟩ := List.length_eq_two.1 hl
            obtain ⟨x, hx⟩ := Option.ne_none_iff_exists'.1 (hn v (by simp))
            obtain ⟨y, hy⟩ := Option.ne_none_iff_exists'.1 (hn s (by simp))
            rw [buildCond_means (.above2 hx hy)] at h
            cases h
        · exact two (.slopedNumber _ _ p (.inl rfl) hl hp hn)
      · rw [not_or] at hl
        exact two (.sloped _ _ (.inl rfl) hl.1 hl.2)
    · by_cases hl : params.length = 1 ∨ params.length = 2
      · rcases key params with hn | ⟨p, hp, hn⟩
        · exfalso
          rcases hl with hl | hl
          · obtain ⟨v, rfl⟩ := List.length_eq_one_iff.1 hl
            obtain ⟨x, hx⟩ := Option.ne_none_iff_exists'.1 (hn v (by simp))
            rw [buildCond_means (.below1 hx)] at h
            cases h
          · obtain ⟨v, s, rfl⟩ := List.length_eq_two.1 hl
            obtain ⟨x, hx⟩ := Option.ne_none_iff_exists'.1 (hn v (by simp))
            obtain ⟨y, hy⟩ := Option.ne_none_iff_exists'.1 (hn s (by simp))
            rw [buildCond_means (.below2 hx hy)] at h
            cases h
        · exact two (.slopedNumber _ _ p (.inr rfl) hl hp hn)
      · rw [not_or] at hl
        exact two (.sloped _ _ (.inr rfl) hl.1 hl.2)
    · by_cases hl : params.length = 2
      · rcases key params with hn | ⟨p, hp, hn⟩
        · exfalso
          obtain ⟨v, s, rfl⟩ := List.length_eq_two.1 hl
          obtain ⟨x, hx⟩ := Option.ne_none_iff_exists'.1 (hn v (by simp))
          obtain ⟨y, hy⟩ := Option.ne_none_iff_exists'.1 (hn s (by simp))
          rw [buildCond_means (.between hx hy)] at h
          cases h
        · exact two (.betweenNumber _ p hl hp hn)
      · exact two (.between _ hl)
    · by_cases hl : params.length = 2 ∨ params.length = 3
      · exfalso
        rcases hl with hl | hl
        · obtain ⟨v, s, rfl⟩ := List.length_eq_two.1 hl
          simp [buildCond] at h
        · obtain ⟨v, s, t, rfl⟩ := List.length_eq_three.1 hl
          simp [buildCond] at h
      · rw [not_or] at hl
        exact two (.metric _ hl.1 hl.2)
  · have h' : Senseless kind params .typeError := .kind _ _ hk
    rw [buildCond_senseless h'] at h
    cases h
    exact h'

end
end Txstatsd
