import Verif.Lemmas.Timed
import Verif.Lemmas.ConfigurableTimer
import Verif.Props.Doubles
import Verif.Model.Site
import Verif.Spec.Site

set_option linter.unusedSectionVars false
set_option linter.unusedSimpArgs false
set_option linter.unusedVariables false

namespace Txstatsd
open Spec

theorem unquote_plain {s : Str} (h : '%' ∉ s) : unquote s = s := by
  induction hn : s.length using Nat.strong_induction_on generalizing s with
  | _ n ih =>
    match s, h with
    | [], _ => rfl
    | [c], _ => rfl
    | [c, a], _ => rfl
    | c :: a :: b :: rest, h =>
      have hc : c ≠ '%' := fun hc => h (by simp [hc])
      rw [unquote, if_neg hc, ih (a :: b :: rest).length (by rw [← hn]; simp) (fun h' => h (List.mem_cons_of_mem _ h')) rfl]

theorem legal_plain {s : Str} (h : ∀ c ∈ s, Legal c) : '%' ∉ s ∧ '/' ∉ s := by
  constructor <;> intro hc <;> exact absurd (h _ hc) (by unfold Legal; decide)

theorem hexVal_of {c : Char} {n : Nat} (h : HexDigit c n) : hexVal c = some n := by
  have hn : n < 16 := by
    rcases h with h | h
    · exact (List.getElem?_eq_some_iff.1 h).1
    · exact (List.getElem?_eq_some_iff.1 h).1
  unfold HexDigit at h
  interval_cases n <;> (rcases h with h | h <;> (cases h; decide))

theorem of_hexVal {c : Char} {n : Nat} (h : hexVal c = some n) : HexDigit c n := by
  have key : ∀ k < 128, ∀ n < 128, hexVal (Char.ofNat k) = some n → HexDigit (Char.ofNat k) n := by
    unfold HexDigit; decide +kernel
  have hc : c.toNat < 128 := by
    unfold hexVal isDigit at h
    split_ifs at h with h1 h2 h3
    · simp only [Bool.and_eq_true, decide_eq_true_eq] at h1
      have := h1.2; rw [Char.le_def, UInt32.le_iff_toNat_le] at this
      exact lt_of_le_of_lt this (by decide)
    · have := h2.2; rw [Char.le_def, UInt32.le_iff_toNat_le] at this
      exact lt_of_le_of_lt this (by decide)
    · have := h3.2; rw [Char.le_def, UInt32.le_iff_toNat_le] at this
      exact lt_of_le_of_lt this (by decide)
  have hn : n < 128 := by
    unfold hexVal at h
    have ea : 'a'.toNat = 97 := rfl
    have eA : 'A'.toNat = 65 := rfl
    have e0 : '0'.toNat = 48 := rfl
    split_ifs at h <;> (cases h; omega)
  have e : Char.ofNat c.toNat = c := Char.ofNat_toNat c
  have := key c.toNat hc n hn
  rw [e] at this
  exact this h

theorem unquote_cons {c : Char} (hc : c ≠ '%') (e : Str) : unquote (c :: e) = c :: unquote e := by
  match e with
  | [] => rfl
  | [a] => rfl
  | a :: b :: r => rw [unquote, if_neg hc]

theorem unquote_of {e p : Str} (h : Encodes e p) : unquote e = p := by
  induction h with
  | nil => rfl
  | plain c e p h1 h2 h ih => rw [unquote_cons h1, ih]
  | escape a b x y e p ha hb h ih =>
    rw [unquote, if_pos rfl, hexVal_of ha, hexVal_of hb, ih]
  | stray e p hn h ih =>
    match e, hn, ih with
    | [], _, ih => rw [← ih]; rfl
    | [a], _, ih => rw [← ih]; rfl
    | a :: b :: r, hn, ih =>
      rw [unquote, if_pos rfl, ← ih]
      cases h1 : hexVal a with
      | none => rfl
      | some x =>
        cases h2 : hexVal b with
        | none => rfl
        | some y => exact absurd (of_hexVal h2) (hn a b r x y rfl (of_hexVal h1))

theorem encodes_slash {e p : Str} (h : Encodes e p) : '/' ∉ e := by
  have digit : ∀ c n, HexDigit c n → c ≠ '/' := by
    rintro _ n h rfl
    have := hexVal_of h
    revert this
    show none = some n → False
    intro h; cases h
  induction h with
  | nil => simp
  | plain c e p h1 h2 h ih => simp [ih, Ne.symm h2]
  | escape a b x y e p ha hb h ih => simp [ih, Ne.symm (digit _ _ ha), Ne.symm (digit _ _ hb)]
  | stray e p hn h ih => simp [ih]

/-- Every text without slashes encodes one. -/
theorem encodes_exists {e : Str} (h : '/' ∉ e) : ∃ p, Encodes e p := by
  induction hn : e.length using Nat.strong_induction_on generalizing e with
  | _ n ih =>
    match e, h with
    | [], _ => exact ⟨_, .nil⟩
    | c :: e, h =>
      have he : '/' ∉ e := fun h' => h (List.mem_cons_of_mem _ h')
      obtain ⟨p, hp⟩ := ih e.length (by rw [← hn]; simp) he rfl
      by_cases hc : c = '%'
      · subst hc
        by_cases hd : ∃ a b r x y, e = a :: b :: r ∧ HexDigit a x ∧ HexDigit b y
        · obtain ⟨a, b, r, x, y, rfl, ha, hb⟩ := hd
          obtain ⟨q, hq⟩ := ih r.length (by rw [← hn]; simp only [List.length_cons]; omega) (fun h' => he (by simp [h'])) rfl
          exact ⟨_, .escape a b x y r q ha hb hq⟩
        · exact ⟨_, .stray e p (fun a b r x y h1 h2 h3 => hd ⟨a, b, r, x, y, h1, h2, h3⟩) hp⟩
      · exact ⟨_, .plain c e p hc (fun hs => h (by simp [hs])) hp⟩

theorem encodes_plain {e : Str} (h1 : '/' ∉ e) (h2 : '%' ∉ e) : Encodes e e := by
  induction e with
  | nil => exact .nil
  | cons c e ih =>
    exact .plain c e e (fun h => h2 (by simp [h])) (fun h => h1 (by simp [h])) (ih (fun h => h1 (by simp [h])) (fun h => h2 (by simp [h])))

theorem path_plain {path : Str} {parts : List Str}
    (h : path = '/' :: joinWith ['/'] parts ∧ parts ≠ [] ∧ ∀ p ∈ parts, '/' ∉ p ∧ '%' ∉ p) : Path path parts := by
  obtain ⟨h1, h2, h3⟩ := h
  refine ⟨parts, ?_, h2, h1⟩
  clear h1 h2
  induction parts with
  | nil => exact .nil
  | cons p parts ih =>
    exact .cons (encodes_plain (h3 p (by simp)).1 (h3 p (by simp)).2) (ih fun q hq => h3 q (by simp [hq]))

theorem segments_path {path : Str} {parts : List Str} (h : Path path parts) : segments path = parts := by
  obtain ⟨encs, he, hne, rfl⟩ := h
  have hne' : encs ≠ [] := by rintro rfl; cases he; exact hne rfl
  unfold segments
  have hs : ∀ e ∈ encs, '/' ∉ e := by
    clear hne hne'
    induction he with
    | nil => simp
    | cons h _ ih => simp only [List.mem_cons, forall_eq_or_imp]; exact ⟨encodes_slash h, ih⟩
  rw [List.tail_cons, splitOn_join hne' hs]
  clear hne hne' hs
  induction he with
  | nil => rfl
  | cons h _ ih => rw [List.map_cons, unquote_of h, ih]

/-- The path of a metric's page. -/
theorem segments_metric {key : Str} (h : ∀ c ∈ key, Legal c) : segments (c!"/metrics/" ++ key) = [c!"metrics", key] := by
  obtain ⟨h1, h2⟩ := legal_plain h
  unfold segments
  have e : (c!"/metrics/" ++ key : Str).tail = c!"metrics" ++ '/' :: key := rfl
  rw [e, splitOn_append (by decide), splitOn_of_not_mem h2]
  simp only [List.map_cons, List.map_nil, unquote_plain h1]
  rw [unquote_plain (by decide)]

section
variable [Rounding] [Ieee]

/-- The histogram of a timer holds the durations of the period, in double arithmetic. -/
theorem timerHist_run {name pre : Str} {start : ℚ} {h : List TimerOp} {t : TimerRep}
    (hr : TimerRun (TimerRep.init name pre start) h t) (hd : ∀ q ∈ durations h, rnd q = .fin q) :
    (∃ sops, t.hist = (Histogram.init 1028).runOps sops ∧ streamValues sops = (period h).map PyFloat.fin) ∧
      (∀ q ∈ period h, q ∈ durations h ∧ 0 ≤ q) := by
  induction hr with
  | nil => exact ⟨⟨[.clear], rfl, rfl⟩, by simp [period]⟩
  | @add h t draw q _ ih =>
    rw [durations_add] at hd
    obtain ⟨⟨sops, h1, h2⟩, h3⟩ := ih (fun x hx => hd x (by simp [hx]))
    rw [period_add, durations_add]
    unfold TimerRep.update
    simp only [PyFloat.le, decide_eq_true_eq]
    split_ifs with hq
    · refine ⟨⟨sops ++ [.update draw (.fin q)], ?_, ?_⟩, ?_⟩
      · rw [Histogram.runOps_snoc, h1]
      · rw [UniformSample.streamValues_snoc, h2]; simp
      · intro x hx
        rcases List.mem_append.1 hx with hx | hx
        · exact ⟨by simp [(h3 x hx).1], (h3 x hx).2⟩
        · simp only [List.mem_singleton] at hx; subst hx; exact ⟨by simp, hq⟩
    · exact ⟨⟨sops, h1, h2⟩, fun x hx => ⟨by simp [(h3 x hx).1], (h3 x hx).2⟩⟩
  | @report h t ts _ ih =>
    rw [durations_report] at hd
    obtain ⟨⟨sops, h1, h2⟩, h3⟩ := ih hd
    rw [period_report, durations_report]
    have hs : SoundTimer t := ⟨sops, h1, by
      rw [h2]
      intro v hv
      obtain ⟨q, hq, rfl⟩ := List.mem_map.1 hv
      exact Or.inr ⟨q, rfl, (h3 q hq).2, hd q (h3 q hq).1⟩⟩
    obtain ⟨l, hl⟩ := soundTimer_ok hs ts
    refine ⟨⟨sops ++ [.clear], ?_, ?_⟩, by simp⟩
    · unfold TimerRep.report at hl ⊢
      split at hl
      · cases hl
      · next items hi =>
        rw [Histogram.runOps_snoc, ← h1]; rfl
    · rw [UniformSample.streamValues_snoc]; rfl

omit [Ieee] in
theorem timerHistory_doubles [Ieee] {C T G PF PM : Type} {I : Impl C T G PF PM} {w : World} {key : Str} {s : PS C T G PF PM}
    {os : List Op} {h : List TimerOp} (hh : TimerHistory I w key s os h) : ∀ q ∈ durations h, rnd q = .fin q := by
  induction hh with
  | nil => simp [durations]
  | add _ hr ih =>
    intro q hq
    rw [durations_add] at hq
    rcases List.mem_append.1 hq with hq | hq
    · exact ih q hq
    · simp only [List.mem_singleton] at hq
      subst hq
      exact reading_double hr _ rfl
  | skip _ _ ih => exact ih
  | flush _ _ ih => intro q hq; rw [durations_report] at hq; exact ih q hq

/-- All held values equal: no bins. -/
theorem histogram_equal (n : Nat) (ops : List (StreamOp PyFloat)) (held : List ℚ) (bins : Nat) (a : ℚ)
    (hc : ((Histogram.init n).runOps ops).count > 0)
    (hh : ((Histogram.init n).runOps ops).sample.getValues = held.map .fin) (hne : held ≠ []) (hall : ∀ v ∈ held, v = a) :
    ((Histogram.init n).runOps ops).histogramWith bins = .error .zeroDivisionError := by
  unfold Histogram.histogramWith
  rw [if_neg (not_not.2 hc), hh]
  cases held with
  | nil => exact absurd rfl hne
  | cons q qs =>
    simp only [List.map_cons]
    obtain ⟨hi, e1, g1⟩ := Histogram.foldl_pyMax qs q
    obtain ⟨lo, e2, g2⟩ := Histogram.foldl_pyMin qs q
    have h1 := hall hi g1.1
    have h2 := hall lo g2.1
    rw [e1, e2, h1, h2]
    have h0 : (rnd (0 : ℚ) : PyFloat) = .fin 0 := rnd_zero
    simp only [PyFloat.sub, sub_self, h0]
    rw [hall q (by simp)]
    unfold Histogram.binLoop
    simp only [PyFloat.sub, sub_self, h0, PyFloat.div, if_true, bind, Except.bind]

theorem sturges_le {n : Nat} (h : n ≤ 2 ^ 52) : Histogram.sturges n ≤ 2 ^ 53 := by
  unfold Histogram.sturges
  have : Nat.clog 2 n ≤ 52 := Nat.clog_le_of_le_pow h
  omega

end

theorem amount_of_val {n : Num} {q : ℚ} (h : numVal n = some q) : Amount n q := by
  unfold numVal at h
  split at h
  · cases h; exact .int _
  · cases h; exact .flt _
  · cases h

section
variable [Rounding] [Exact] {PF PM : Type}

omit [Exact] in
theorem process_last {C T G : Type} {I : Impl C T G PF PM} (hI : I.Timed) (w : World) (s : PS C T G PF PM) (msg : Str) :
    (process I w s msg).1.lastFlush = s.lastFlush ∧ (process I w s msg).1.lastProcess = s.lastProcess := by
  unfold process
  cases hp : parseMessage msg with
  | none => exact ⟨rfl, rfl⟩
  | some m =>
    simp only [processMessage]
    cases hd : dispatch I w { s with ticks := s.ticks + 1 } msg m with
    | none => exact ⟨rfl, rfl⟩
    | some r =>
      have := dispatch_calm hI w hd
      simp only
      unfold finish
      cases r.2.exc <;> exact ⟨this.lastFlush, this.lastProcess⟩

theorem runMsgs_last {C T G : Type} {I : Impl C T G PF PM} (hI : I.Timed) (w : World) (s : PS C T G PF PM) (msgs : List Str) :
    (runOps I w s (msgs.map .msg)).1.lastFlush = s.lastFlush ∧ (runOps I w s (msgs.map .msg)).1.lastProcess = s.lastProcess := by
  induction msgs using List.reverseRecOn with
  | nil => exact ⟨rfl, rfl⟩
  | append_singleton msgs m ih =>
    rw [List.map_append, List.map_singleton, runOps_snoc]
    obtain ⟨a, b⟩ := process_last hI w (runOps I w s (msgs.map .msg)).1 m
    exact ⟨a.trans ih.1, b.trans ih.2⟩

theorem worked_mp (ops : PluginOps PF PM) (plugins : List PF) {w : World} (hw : ForwardClock w) (os : List Op) :
    WorkedWithin w (runOps (messageProcessor ops) w (MPState.init ops plugins) os).1 := by
  induction os using List.reverseRecOn with
  | nil => exact worked_init rfl rfl rfl rfl (mpwf_init ops plugins).shared
  | append_singleton os o ih =>
    have hwf := mpwf_runOps ops w (mpwf_init ops plugins) os
    rw [runOps_snoc]
    cases o with
    | msg m => exact worked_process (mp_timed ops) hw ih m (mpwf_process ops w hwf m).shared
    | flush i p => exact worked_flush (mp_timed ops) hw ih i p (mpwf_flush ops w i p hwf).shared

theorem worked_cp (ops : PluginOps PF PM) (pre int : Str) (plugins : List PF) {w : World} (hw : ForwardClock w) (os : List Op) :
    WorkedWithin w (runOps (configurable ops pre int) w (CPState.init ops plugins) os).1 := by
  induction os using List.reverseRecOn with
  | nil => exact worked_init rfl rfl rfl rfl (cpwf_init ops pre plugins).shared
  | append_singleton os o ih =>
    have hwf := cpwf_runOps ops pre int w (cpwf_init ops pre plugins) os
    rw [runOps_snoc]
    cases o with
    | msg m => exact worked_process (cp_timed ops pre int) hw ih m (cpwf_process ops pre int w hwf m).shared
    | flush i p => exact worked_flush (cp_timed ops pre int) hw ih i p (cpwf_flush ops pre int w i p hwf).shared

/-- The threshold of the status page. -/
theorem statusError_amount {i : ℤ} {p f : Num} {x y : ℚ} (hp : Amount p x) (hf : Amount f y) :
    statusError i p f = true ↔ (7 / 10 : ℚ) * i < x + y := by
  unfold statusError
  cases hp <;> cases hf <;>
    simp [Num.mul, Num.add, Num.toFloat, Exact.rnd_eq, PyFloat.mul, PyFloat.add, Num.exact, PyFloat.lt, mul_comm]

end

end Txstatsd
