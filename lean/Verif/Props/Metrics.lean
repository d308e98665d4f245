import Verif.Lemmas.MetricsExt
import Verif.Props.Configurable

/-!
# Client-side metrics: C64–C70
-/

namespace Txstatsd
open Spec
section
variable [Rounding] {PF PM : Type}

/-! ## C64 -/

omit [Rounding] in
/-- C64: the name under which a metric is sent is the namespace and the name joined by a dot; an empty or missing namespace
and a missing name contribute nothing. -/
theorem C64_qualified (ns name : Option Str) : fullyQualify ns name = qualified ns name := fullyQualify_eq ns name

omit [Rounding] in
/-- C64, spelled out. -/
theorem C64_cases (ns : Option Str) (n : Str) :
    (∀ c s, ns = some (c :: s) → fullyQualify ns (some n) = c :: s ++ c!"." ++ n) ∧
    ((ns = none ∨ ns = some []) → fullyQualify ns (some n) = n) ∧
    (∀ s, ns = some s → fullyQualify ns none = s) ∧ (ns = none → fullyQualify ns none = []) := by
  refine ⟨?_, ?_, ?_, ?_⟩
  · rintro c s rfl; simp [fullyQualify]
  · rintro (rfl | rfl) <;> simp [fullyQualify]
  · rintro s rfl; simp [fullyQualify]
  · rintro rfl; simp [fullyQualify]

omit [Rounding] in
/-- C64: within one namespace, different names stay different, and with a non-empty namespace so does the missing name. -/
theorem C64_injective (ns : Option Str) :
    (∀ a b : Str, fullyQualify ns (some a) = fullyQualify ns (some b) → a = b) ∧
    (∀ c s, ns = some (c :: s) → ∀ a : Str, fullyQualify ns none ≠ fullyQualify ns (some a)) := by
  constructor
  · intro a b h
    unfold fullyQualify at h
    rcases ns with _ | s
    · simpa using h
    · simp only at h
      split_ifs at h
      · simpa using h
      · exact h
  · rintro c s rfl a h
    simp [fullyQualify] at h

example : fullyQualify (some c!"app") (some c!"hits") = c!"app.hits" := by decide

/-! ## C65 -/

/-- C65: a base `Metrics` object that writes through an `InternalClient` into a new `MessageProcessor`, and any sequence of
ordinary calls (increments, decrements, gauges, meters, timings, with legal names and without sampling, and whatever mixture of
them is used for one name): every text that is written is accepted, without a complaint or exception. -/
theorem C65_accepted [IntExact] (ops : PluginOps PF PM) (plugins : List PF) (w : World) (fmt : PyFloat → Str) (hf : NumberTexts fmt)
    (ns : Option Str) (hns : ∀ s, ns = some s → ∀ c ∈ s, Legal c) (sts : List Client.Step) (ho : ∀ st ∈ sts, Ordinary st.call) :
    let c : Client := { conn := true, namespc := ns, ext := false }
    ∀ p ∈ (runInternal (messageProcessor ops) w fmt c (MPState.init ops plugins) sts).2, ∀ o, p.2 = some o → o.bad = [] ∧ o.exc = none := by
  intro c p hp o e
  have hinv : OrdInv ns c := ⟨rfl, rfl, rfl, Client.wf_empty rfl, by intro key m hm; cases hm⟩
  rw [ord_run_accepted ops w hns hinv hf _ sts ho p hp o e]
  exact ⟨rfl, rfl⟩

/-- C65: and the counter reported for a name is the sum of its increments minus the decrements (as long as all partial sums stay
within the integers that floats represent exactly). -/
theorem C65_counts [IntExact] (ops : PluginOps PF PM) (hq : Quiet ops c!"stats_counts.") (plugins : List PF) (w : World)
    (fmt : PyFloat → Str) (hf : NumberTexts fmt) (ns : Option Str) (hns : ∀ s, ns = some s → ∀ c ∈ s, Legal c)
    (sts : List Client.Step) (ho : ∀ st ∈ sts, Ordinary st.call) (key : Str) (interval percent : ℤ) (hi : 1000 ≤ interval) :
    let c : Client := { conn := true, namespc := ns, ext := false }
    let s := (runInternal (messageProcessor ops) w fmt c (MPState.init ops plugins) sts).1
    let zs := deltas ns key (sts.map Client.Step.call)
    zs ≠ [] → (∀ z ∈ zs, |z| ≤ 2 ^ 53) → (∀ l, l <+: zs → |l.sum| ≤ 2 ^ 53) →
    named (c!"stats_counts." ++ key) (flush (messageProcessor ops) w interval percent s).2.1 =
      [⟨c!"stats_counts." ++ key, .flt (.fin (zs.sum : ℤ)), truncQ (w.clk s.ticks)⟩] := by
  intro c s zs hne hz hb
  have hinv : OrdInv ns c := ⟨rfl, rfl, rfl, Client.wf_empty rfl, by intro key m hm; cases hm⟩
  have hinc := ord_run_increments hns hinv hf key sts ho
  have hs : s = _ := (runInternal_eq (messageProcessor ops) w fmt c (MPState.init ops plugins) sts).1
  rw [hs]
  have hmap : (deltas ns key (sts.map Client.Step.call)).map (fun z : ℤ => (rnd (z : ℚ), rnd 1)) = zs.map fun z : ℤ => (.fin z, rnd 1) := by
    apply List.map_congr_left
    intro z hz'
    rw [IntExact.rnd_int z (hz z hz')]
  rw [hmap] at hinc
  have := C07_count_unique ops hq plugins w _ interval percent hi key _ hinc (by simpa using hne)
  simp only at this
  rw [this, C07_integer_sum zs hne hz hb]

/-! ## C66 -/

/-- C66: the first call for a name, whichever method it is, writes its text if the rate is at least one, and at a lower rate
writes it with the rate appended exactly if the random draw is at most the rate. (Extended counters, whose text is a running
total: C68.) -/
theorem C66_sampling (fmt : PyFloat → Str) (c : Client) (hconn : c.conn = true) (now : PyFloat) (draw : ℚ) (call : Call)
    (key p : Str) (rate : Num) (r : ℚ) (hon : On c.namespc key call) (hnew : c.metrics.find key = none)
    (hr : rateOf call = some rate) (hrq : rate.exact = .fin r) (hp : payload fmt call = some p)
    (hc : ∀ n, kindOf c.ext call ≠ some (.counter n)) :
    (c.call fmt now draw call).2 = { out := sampled r draw (rate.render fmt) (key ++ c!":" ++ p) } := by
  have hk : kindOf c.ext call ≠ none := fun e => by rw [← Client.rate_none_iff, hr] at e; cases e
  obtain ⟨k, hk⟩ := Option.ne_none_iff_exists'.1 hk
  have := Client.call_payload fmt now draw hon hk hr hp (fun n e => hc n (by rw [hk, e])) (by rw [hnew]; rfl)
  rw [this, hconn, if_pos rfl, send_sampled fmt draw r _ _ _ _ hrq]

/-- C66: without a connection nothing is written, whatever is called. -/
theorem C66_no_connection (fmt : PyFloat → Str) (c : Client) (hconn : c.conn = false) (sts : List Client.Step) :
    written (c.run fmt sts).2 = [] := by
  have hwr : ∀ (c : Client), c.conn = false → ∀ draw m d, (c.write fmt draw m d).2.out = none := by
    intro c h draw m d; simp [Client.write, h]
  have hres : ∀ (c : Client), c.conn = false → ∀ draw m d, (c.writeResult fmt draw m d).2.out = none := by
    intro c h draw m d; cases d with
    | ok d => exact hwr c h draw m d
    | error e => rfl
  have hcnt : ∀ (c : Client), c.conn = false → ∀ draw m d, (c.writeCount fmt draw m d).2.out = none := by
    intro c h draw m d; cases d with
    | ok d => exact hwr { c with metrics := _ } h draw _ _
    | error e => rfl
  have hob : ∀ (c : Client), c.conn = false → ∀ n k r, (c.obtain n k r).1.conn = false := fun c h n k r =>
    (Client.obtain_same c n k r).1.trans h
  have hcall : ∀ (c : Client), c.conn = false → ∀ now draw call, (c.call fmt now draw call).2.out = none := by
    intro c h now draw call
    cases call with
    | report n v t e => exact hres _ (hob c h _ _ _) ..
    | gauge n v r => exact hres _ (hob c h _ _ _) ..
    | meter n v r => exact hres _ (hob c h _ _ _) ..
    | increment n v r =>
      simp only [Client.call]; split_ifs
      · exact hcnt _ (hob c h _ _ _) ..
      · exact hwr _ (hob c h _ _ _) ..
    | decrement n v r =>
      simp only [Client.call]; split_ifs
      · exact hcnt _ (hob c h _ _ _) ..
      · exact hres _ (hob c h _ _ _) ..
    | resetTiming => rfl
    | timing n d r =>
      cases d with
      | some d =>
        simp only [Client.call]; split_ifs
        · exact hres _ (hob c h _ _ _) ..
        · exact hwr _ (hob c h _ _ _) ..
      | none =>
        have h' : (c.calculateDuration now).1.conn = false := h
        simp only [Client.call]; split_ifs
        · exact hres _ (hob _ h' _ _ _) ..
        · exact hwr _ (hob _ h' _ _ _) ..
    | distinct n v => exact hres _ (hob c h _ _ _) ..
    | clear n =>
      simp only [Client.call]
      split
      · rfl
      · split
        · exact hcnt c h ..
        · rfl
  induction sts generalizing c with
  | nil => rfl
  | cons st sts ih =>
    rw [Client.run_cons]
    have := ih (c.call fmt st.now st.draw st.call).1 ((Client.call_same ..).1.trans hconn)
    simp only [written, List.filterMap_cons, hcall c hconn] at this ⊢
    exact this

/-! ## C67 -/

/-- C67, the part of the user's expectation that holds: after any history in which the calls for this name were of the same kind
and rate (or there was none), a call is sampled by its own rate. The full expectation, for any history, is refuted below. -/
theorem C67_own_rate_partial (fmt : PyFloat → Str) (c : Client) (hconn : c.conn = true) (h0 : c.metrics = []) (sts : List Client.Step)
    (now : PyFloat) (draw : ℚ) (call : Call) (key p : Str) (rate : Num) (r : ℚ) (k : Kind) (hon : On c.namespc key call)
    (hr : rateOf call = some rate) (hrq : rate.exact = .fin r) (hp : payload fmt call = some p)
    (hk : kindOf c.ext call = some k) (hc : ∀ n, k ≠ .counter n)
    (hall : ∀ st ∈ sts, On c.namespc key st.call → rateOf st.call ≠ none → rateOf st.call = some rate ∧ kindOf c.ext st.call = some k) :
    ((c.run fmt sts).1.call fmt now draw call).2 = { out := sampled r draw (rate.render fmt) (key ++ c!":" ++ p) } := by
  have hs := Client.run_same fmt c sts
  have := Client.call_payload fmt (c := (c.run fmt sts).1) now draw (by rw [hs.2.1]; exact hon) (by rw [hs.2.2]; exact hk) hr hp hc
    (Client.run_fits fmt h0 sts key k rate hc hall)
  rw [this, hs.1, hconn, if_pos rfl, send_sampled fmt draw r _ _ _ _ hrq]

/-- C67: what happens instead: in any history, an increment is sampled by the rate of the very first call for its name, of
whatever kind that was; its own rate is ignored. -/
theorem C67_first_rate (fmt : PyFloat → Str) (c : Client) (hconn : c.conn = true) (hext : c.ext = false) (h0 : c.metrics = [])
    (sts : List Client.Step) (now : PyFloat) (draw : ℚ) (name : Option Str) (v : Arg) (own : Num) (first : Call) (rate : Num) (r : ℚ)
    (hf : FirstOn c.namespc (qualified c.namespc name) (sts.map Client.Step.call) first) (hr : rateOf first = some rate)
    (hrq : rate.exact = .fin r) :
    ((c.run fmt sts).1.call fmt now draw (.increment name v own)).2 =
      { out := sampled r draw (rate.render fmt) (qualified c.namespc name ++ c!":" ++ (v.render fmt ++ c!"|c")) } := by
  have hs := Client.run_same fmt c sts
  have hw := Client.wf_empty h0
  obtain ⟨m, h1, h2, _⟩ := Client.run_first fmt hw sts _ (by rw [h0]; rfl) hf
  have hm : m = ⟨m.kind, qualified c.namespc name, rate⟩ := by
    have := Client.run_wf fmt hw sts _ m h1
    rw [hr] at h2
    simp only [Option.some.injEq] at h2
    cases m; simp_all
  simp only [Client.call, hs.2.2, hext, Bool.false_eq_true, if_false, fullyQualify_eq, hs.2.1]
  rw [Client.obtain_obj, h1, Option.getD_some]
  simp only [Client.write, (Client.obtain_same _ _ _ _).1, hs.1, hconn, if_true]
  rw [hm, send_sampled fmt draw r _ _ _ _ hrq]

/-! ## C68 -/

/-- C68: an `ExtendedMetrics` object that uses `key` for an integer counter only (other names in any way). Take any call on `key`
that wrote a message, and after it only calls on other legal names. A configurable processor that received anything before that
message, then the message, then any of the later messages (in any order, with any losses and repetitions), and flushes at any
times, holds and reports exactly the increments minus the decrements since the last clear: what was lost or sampled away
before does not matter. -/
theorem C68_loss [IntExact] (ops : PluginOps PF PM) (pre int : Str) (plugins : List PF) (w : World) (fmt : PyFloat → Str)
    (hf : NumberTexts fmt) (c : Client) (hext : c.ext = true) (h0 : c.metrics = []) (key : Str) (hk : ∀ x ∈ key, Legal x)
    (before after : List Client.Step) (st : Client.Step) (msg : Str)
    (hon : On c.namespc key st.call)
    (hcounts : ∀ s ∈ before ++ [st], On c.namespc key s.call → Counts s.call)
    (hsent : ((c.run fmt before).1.call fmt st.now st.draw st.call).2.out = some msg)
    (hother : ∀ s ∈ after, ¬ On c.namespc key s.call)
    (hlegal : ∀ s ∈ after, ∀ n, nameOf s.call = some n → ∀ x ∈ qualified c.namespc n, Legal x)
    (os : List Op) (earlier later : List Str) (hos : messages os = earlier ++ msg :: later)
    (hlater : ∀ m ∈ later, m ∈ written ((c.run fmt (before ++ [st])).1.run fmt after).2)
    (interval percent : ℤ) :
    let total := sinceClear c.namespc key ((before ++ [st]).map Client.Step.call)
    let s := (runOps (configurable ops pre int) w (CPState.init ops plugins) os).1
    let r := flush (configurable ops pre int) w interval percent s
    |total| ≤ 2 ^ 53 →
    Latest c!"c" key (messages os) (.fin total) ∧
    (r.2.2 = none → ⟨prefixed pre key c!".count", .int total, truncQ (w.clk s.ticks)⟩ ∈ r.2.1) := by
  intro total s r hb
  have hw := Client.wf_empty h0
  have hs := Client.run_same fmt c before
  have hh := Client.holds_run hw hext (fmt := fmt) (key := key) (total := 0) (Or.inl ⟨by rw [h0]; rfl, rfl⟩) before
    (fun s' h' => hcounts s' (by simp [h']))
  have hh2 := Client.holds_call (fmt := fmt) (now := st.now) (draw := st.draw) (call := st.call) (hs.2.2.trans hext) hh
    (by rw [hs.2.1]; exact hon) (hcounts st (by simp) hon)
  have htot : Client.nextTotal (c.run fmt before).1.namespc key
      ((before.map Client.Step.call).foldl (Client.nextTotal c.namespc key) 0) st.call = total := by
    rw [hs.2.1]
    change _ = sinceClear _ _ _
    rw [Client.sinceClear_eq]
    simp
  rw [htot] at hh2
  have hread := countText_reading hf hk (hh2.2 msg hsent)
  rw [IntExact.rnd_int total hb] at hread
  have hs2 := Client.run_same fmt c (before ++ [st])
  have hlatest : Latest c!"c" key (messages os) (.fin total) := by
    refine ⟨earlier, msg, later, hos, hread, ?_⟩
    intro m hm v
    refine Client.run_other_not_reading (Client.run_wf fmt hw _) after ?_ ?_ m (hlater m hm) v
    · rw [hs2.2.1]; exact hother
    · rw [hs2.2.1]; exact hlegal
  refine ⟨hlatest, fun hok => ?_⟩
  obtain ⟨cs, gs, tt, rest, h1, _, _, h2, _⟩ := C25_latest ops pre int plugins w os interval percent hok
  have hmem : (key, total) ∈ cs := (h2 key total).2 ⟨total, hlatest, by
    refine ⟨le_refl _, by simp, ?_⟩
    exact mul_self_nonneg _⟩
  rw [h1]
  simp only [List.mem_append]
  exact Or.inl (Or.inl (Or.inl (List.mem_map.2 ⟨(key, total), hmem, rfl⟩)))

/-! ## C69 -/

/-- C69: after `reset_timing` at `t0` (and any unsampled use before), the calls of `timing` without a duration report, with any
other calls in between, durations `ds` (in milliseconds) that add up exactly to the time from `t0` to the last of them. -/
theorem C69_tiling [Exact] (fmt : PyFloat → Str) (c : Client) (hconn : c.conn = true) (hext : c.ext = false) (h0 : c.metrics = [])
    (before : List Client.Step) (hb : ∀ st ∈ before, ∀ r, rateOf st.call = some r → Unsampled r) (t0 draw0 : ℚ) (l : List Timed)
    (hr : ∀ p ∈ l, ∀ r, rateOf p.1 = some r → Unsampled r) (hn : ∀ p ∈ l, p.1 ≠ .resetTiming) :
    let c0 := ((c.run fmt before).1.call fmt (.fin t0) draw0 .resetTiming).1
    ∃ ds : List ℚ,
      List.Forall₂ (fun (p : Timed × CallEffect) d => ∃ n r, p.1.1 = .timing n none r ∧
        p.2 = { out := some (qualified c.namespc n ++ c!":" ++ (fmt (.fin (d * 1000)) ++ c!"|ms")) })
        ((l.zip (c0.run fmt (l.map Timed.step)).2).filter fun p => measures p.1.1) ds ∧
      ds.sum = lastMeasure t0 l - t0 := by
  intro c0
  have hi : TInv c := ⟨hconn, hext, Client.wf_empty h0, by intro key m hm; rw [h0] at hm; cases hm⟩
  have hi2 := hi.run fmt before hb
  have hi3 : TInv c0 := hi2.call fmt (.fin t0) draw0 (by intro r h; cases h)
  have hs : c0.namespc = c.namespc := (Client.run_same fmt c before).2.1
  have := measure_run fmt l hi3 t0 rfl hr hn
  rw [hs] at this
  exact this

/-! ## C70 -/

/-- The text of a sampled integer increment. -/
def sampledIncrement (key : Str) (z : ℤ) (rateText : Str) : Str := key ++ c!":" ++ (intStr z ++ c!"|c" ++ c!"|@" ++ rateText)

/-- C70: `sampledIncrement` is what an increment at a rate below one writes. -/
theorem C70_text (fmt : PyFloat → Str) (c : Client) (hconn : c.conn = true) (hext : c.ext = false) (now : PyFloat) (draw : ℚ)
    (name : Option Str) (z : ℤ) (r : ℚ) (hnew : c.metrics.find (qualified c.namespc name) = none) (hr : r < 1) (hd : draw ≤ r) :
    (c.call fmt now draw (.increment name (.num (.int z)) (.flt (.fin r)))).2.out =
      some (sampledIncrement (qualified c.namespc name) z (fmt (.fin r))) := by
  rw [C66_sampling fmt c hconn now draw (.increment name (.num (.int z)) (.flt (.fin r)))
    (qualified c.namespc name) (intStr z ++ c!"|c") (.flt (.fin r)) r rfl hnew rfl rfl rfl
    (by intro n; simp [kindOf, hext])]
  have : ¬ (1 : ℚ) ≤ r := not_le.2 hr
  simp [sampled, this, hd, sampledIncrement, Num.render]

/-- C70, the part that holds: a rate written with digits and dots only is read by the server as itself. The full expectation, for
every text of a rate, is refuted below. -/
theorem C70_plain_rate_partial (key : Str) (hk : ∀ x ∈ key, Legal x) (z : ℤ) (text : Str) (r : PyFloat) (hne : text ≠ [])
    (hd : ∀ x ∈ text, x.isDigit = true ∨ x = '.') (hr : parseFloat text = some r) (h0 : r ≠ .fin 0) :
    Increment (sampledIncrement key z text) key (rnd z) r := by
  refine increment_iff.2 ⟨intStr z, [c!"@" ++ text], ?_, parseFloat_intStr z, Or.inr ⟨text, [], by simp, hne, hd, by simp, hr⟩, h0⟩
  have hbar : '|' ∉ text := by intro h; rcases hd _ h with h | h <;> revert h <;> decide
  have hw : ∀ x ∈ text, ¬ White x := by
    intro x hx
    apply legal_not_white
    rcases hd x hx with h | rfl
    · left; unfold Char.isAlphanum; simp [h]
    · decide
  have := parse_three (n := key) (text := intStr z) (t := c!"c") (x := c!"@" ++ text) hk (intStr_clean z).2 (by decide) (by simp [hbar])
    (by
      intro c hc
      have hm := List.mem_of_getLast? hc
      simp only [List.cons_append, List.nil_append, List.mem_cons] at hm
      rcases hm with rfl | hm
      · decide
      · exact hw c hm) (by simp)
  simpa [sampledIncrement] using this

/-- C70: what happens to a rate written in exponent notation: the server takes the mantissa for the rate. -/
theorem C70_exponent (key : Str) (hk : ∀ x ∈ key, Legal x) (z : ℤ) (mant expo : Str) (r : PyFloat) (hne : mant ≠ [])
    (hd : ∀ x ∈ mant, x.isDigit = true ∨ x = '.') (he : ∀ x ∈ expo, x.isDigit = true ∨ x = '-') (hr : parseFloat mant = some r)
    (h0 : r ≠ .fin 0) :
    Increment (sampledIncrement key z (mant ++ 'e' :: expo)) key (rnd z) r := by
  refine increment_iff.2 ⟨intStr z, [c!"@" ++ (mant ++ 'e' :: expo)], ?_, parseFloat_intStr z,
    Or.inr ⟨mant, 'e' :: expo, by simp, hne, hd, by intro c hc; simp at hc; subst hc; decide, hr⟩, h0⟩
  have hall : ∀ x ∈ mant ++ 'e' :: expo, Legal x := by
    intro x hx
    simp only [List.mem_append, List.mem_cons] at hx
    rcases hx with h | rfl | h
    · rcases hd x h with h | rfl
      · left; unfold Char.isAlphanum; simp [h]
      · decide
    · decide
    · rcases he x h with h | rfl
      · left; unfold Char.isAlphanum; simp [h]
      · decide
  have hbar : '|' ∉ (mant ++ 'e' :: expo) := fun h => by have := hall _ h; revert this; decide
  have := parse_three (n := key) (text := intStr z) (t := c!"c") (x := c!"@" ++ (mant ++ 'e' :: expo)) hk (intStr_clean z).2 (by decide)
    (by simp only [List.mem_append, not_or]; exact ⟨by decide, by simpa using hbar⟩)
    (by
      intro c hc
      have hm := List.mem_of_getLast? hc
      rcases List.mem_append.1 hm with hm | hm
      · simp at hm; subst hm; decide
      · exact legal_not_white (hall c hm)) (by simp)
  simpa [sampledIncrement] using this

end

/-! ## Refutations and examples -/

section
attribute [local instance] ratRounding

/-- C67, the user's expectation is false: the second increment below is to be sent at rate 1 and is not, because the first call
for the name had a rate of 1/10. -/
theorem C67_refuted :
    ¬ ∀ (fmt : PyFloat → Str) (c : Client) (sts : List Client.Step) (draw : ℚ) (key : Str) (z : ℤ),
        c.conn = true → c.ext = false → c.metrics = [] → c.namespc = none →
        ((c.run fmt sts).1.call fmt (.fin 0) draw (.increment (some key) (.num (.int z)) (.int 1))).2 =
          { out := some (key ++ c!":" ++ (intStr z ++ c!"|c")) } := by
  intro h
  have := h (fun _ => c!"0.1") { conn := true, namespc := none, ext := false }
    [{ call := .increment (some c!"a") (.num (.int 5)) (.flt (.fin (1/10))), draw := 1/2 }] (1/2) c!"a" 7 rfl rfl rfl rfl
  revert this
  decide +kernel

/-- C67, kinds: a name first used for a counter cannot be used for a gauge: `gauge` raises. -/
theorem C67_kind_refuted :
    ¬ ∀ (fmt : PyFloat → Str) (c : Client) (sts : List Client.Step) (key : Str) (z : ℤ),
        c.conn = true → c.metrics = [] →
        ((c.run fmt sts).1.call fmt (.fin 0) 0 (.gauge (some key) (.num (.int z)) (.int 1))).2.exc = none := by
  intro h
  have := h (fun _ => []) { conn := true, namespc := none, ext := false }
    [{ call := .increment (some c!"a") (.num (.int 5)) (.int 1) }] c!"a" 7 rfl rfl
  revert this
  decide +kernel

/-- C70, the user's expectation is false: an increment of 1 sampled at a rate that prints as `1e-05` is read by the server as one
at rate 1, so it counts 1 instead of 100000. -/
theorem C70_refuted :
    ¬ ∀ (key text : Str) (z : ℤ) (r : ℚ), (∀ x ∈ key, Legal x) → 0 < r → r < 1 → parseFloat text = some (.fin r) →
        Increment (sampledIncrement key z text) key (rnd z) (.fin r) := by
  intro h
  have h1 := h c!"a" c!"1e-05" 1 (1 / 100000) (by decide) (by norm_num) (by norm_num) (by decide +kernel)
  have h2 := C70_exponent c!"a" (by decide) 1 c!"1" c!"-05" (.fin 1) (by decide) (by decide) (by decide) (by decide +kernel) (by decide)
  have := (increment_unique h1 h2).2.2
  revert this
  decide +kernel

/-- A text for floats, for examples: the integer part. -/
def exFmt : PyFloat → Str
  | .fin q => intStr (truncQ q)
  | .nan => c!"nan"
  | .inf false => c!"inf"
  | .inf true => c!"-inf"

example : NumberTexts exFmt := by
  intro x
  have hint : ∀ z, (∃ y, parseFloat (intStr z) = some y) ∧ ∀ c ∈ intStr z, c ≠ ':' ∧ c ≠ '|' ∧ ¬ White c := by
    intro z
    refine ⟨⟨_, parseFloat_intStr z⟩, fun c hc => ?_⟩
    rcases intStr_chars z c hc with h | rfl
    · have hl : Legal c := by
        left
        have : c.isDigit = true := by simpa [isDigit, Char.isDigit, Char.le_def] using h
        unfold Char.isAlphanum; simp [this]
      refine ⟨legal_not_colon hl, ?_, legal_not_white hl⟩
      rintro rfl; revert hl; decide
    · decide
  cases x with
  | fin q => exact hint _
  | nan => exact ⟨⟨.nan, by decide +kernel⟩, by decide⟩
  | inf b => cases b
             · exact ⟨⟨.inf false, by decide +kernel⟩, by decide⟩
             · exact ⟨⟨.inf true, by decide +kernel⟩, by decide⟩

example : Ordinary (.increment (some c!"hits") (.num (.int 3)) (.int 1)) := .increment (by decide) rfl
example : Ordinary (.timing (some c!"load") none (.int 1)) := .elapsed (by decide) rfl

example : deltas (some c!"app") c!"app.a" [.increment (some c!"a") (.num (.int 3)) (.int 1), .gauge (some c!"a") (.num (.int 9)) (.int 1),
    .decrement (some c!"a") (.num (.int 1)) (.int 1), .increment (some c!"b") (.num (.int 3)) (.int 1)] = [3, -1] := by decide

/-- The hypotheses of `C68_loss` can be met with a message that was written. -/
example : ∃ msg, ((({ conn := true, namespc := some c!"app", ext := true } : Client).run exFmt
      [{ call := .increment (some c!"a") (.num (.int 3)) (.int 1) }]).1.call exFmt (.fin 0) 0
      (.decrement (some c!"a") (.num (.int 1)) (.int 1))).2.out = some msg ∧ msg = c!"app.a:2|c" := ⟨_, by decide +kernel, rfl⟩

example : sinceClear none c!"a" [.increment (some c!"a") (.num (.int 3)) (.int 1), .clear (some c!"a"),
    .increment (some c!"a") (.num (.int 5)) (.int 1), .clear (some c!"b"), .decrement (some c!"a") (.num (.int 1)) (.int 1)] = 4 := by decide

example : lastMeasure 10 [(.timing (some c!"a") none (.int 1), 12, 0), (.increment (some c!"b") (.num (.int 1)) (.int 1), 13, 0),
    (.timing (some c!"a") none (.int 1), 15, 0)] = 15 := by decide +kernel

example : FirstOn none c!"a" [.clear (some c!"a"), .gauge (some c!"b") (.num (.int 1)) (.int 1),
    .gauge (some c!"a") (.num (.int 1)) (.int 0)] (.gauge (some c!"a") (.num (.int 1)) (.int 0)) :=
  ⟨[.clear (some c!"a"), .gauge (some c!"b") (.num (.int 1)) (.int 1)], [], rfl, by decide, by decide, by decide⟩

end
end Txstatsd
