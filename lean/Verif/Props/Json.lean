import Verif.Lemmas.JsonSite

/-!
# The texts of the pages, and floats in full: C143, C144
-/

namespace Txstatsd
open Spec

section
attribute [local instance] binary64
variable {PF PM : Type}

/-! ## C143: the pages are JSON -/

/-- C143: the text of a page without infinities and nan is a JSON text (RFC 8259) of the data of the page, whatever the order of
the members. -/
theorem C143_text (order : List (Str × Str) → List (Str × Str)) (ho : ∀ l, (order l).Perm l) (b : Body) (hb : PlainPage b) :
    ∃ t v, b.text order = some t ∧ JText t v ∧ Shows v b := by
  have := binary64_ieee
  have text : ∀ {t v}, JValue t v → JText t v := fun {t v} h => ⟨[], [], t, by simp, jws_nil, jws_nil, h⟩
  have num : ∀ {n : Num}, Finite n → ∃ q, JValue (jsonNum n) (.num q) ∧ ReadsAs q n := by
    intro n h
    cases h with
    | int z => exact ⟨z, .num _ _ (intStr_number z), .int z⟩
    | flt q h =>
      obtain ⟨y, h1, h2⟩ := jsonFloat_spec h
      exact ⟨y, .num _ _ h1, .flt y q h2⟩
  cases hb with
  | status ok ft pt i hf hp =>
    obtain ⟨f, f1, f2⟩ := num hf
    obtain ⟨p, p1, p2⟩ := num hp
    obtain ⟨l, hl, hv⟩ := jsonObj_order (ho [(c!"flush_time", jsonNum ft), (c!"process_time", jsonNum pt),
      (c!"flush_interval", intStr i), (c!"status", jsonStr (if ok then c!"OK" else c!"ERROR"))])
      (l := [(c!"flush_time", .num f), (c!"process_time", .num p), (c!"flush_interval", .num i),
        (c!"status", .str (if ok then c!"OK" else c!"ERROR"))])
      (.cons ⟨rfl, f1⟩ (.cons ⟨rfl, p1⟩ (.cons ⟨rfl, .num _ _ (intStr_number i)⟩ (.cons ⟨rfl, .str _ _ (jsonStr_spec _)⟩ .nil))))
    exact ⟨_, _, rfl, text hv, .status l f p ok ft pt i hl f2 p2⟩
  | names l =>
    have hn : List.Forall₂ JValue (l.map jsonStr) (l.map .str) := by
      induction l with
      | nil => exact .nil
      | cons s l ih => exact .cons (.str _ _ (jsonStr_spec s)) ih
    obtain ⟨m, hm, hv⟩ := jsonObj_order (ho [(c!"names", jsonArr (l.map jsonStr))]) (l := [(c!"names", .arr (l.map .str))])
      (.cons ⟨rfl, jsonArr_spec hn⟩ .nil)
    rw [List.perm_singleton.1 hm] at hv
    exact ⟨_, _, rfl, text hv, .names l⟩
  | timer scores mx mn hs hx hn =>
    obtain ⟨x, x1, x2⟩ := num hx
    obtain ⟨y, y1, y2⟩ := num hn
    have hbins : ∃ bins : List ℚ, List.Forall₂ JValue (scores.map fun n => jsonFloat (.fin n)) (bins.map .num) ∧
        List.Forall₂ (fun q (n : ℕ) => ReadsAs q (.flt (.fin n))) bins scores := by
      clear x1 x2 y1 y2 hx hn
      induction scores with
      | nil => exact ⟨[], .nil, .nil⟩
      | cons n l ih =>
        obtain ⟨bins, b1, b2⟩ := ih fun n hn => hs n (List.mem_cons_of_mem _ hn)
        have hd : rnd (n : ℚ) = .fin (n : ℚ) := by
          have := rnd_int (z := (n : ℤ)) (by
            have := hs n (by simp)
            rw [abs_of_nonneg (by positivity)]; exact_mod_cast this)
          exact_mod_cast this
        obtain ⟨q, q1, q2⟩ := num (.flt _ hd)
        exact ⟨q :: bins, .cons q1 b1, .cons q2 b2⟩
    obtain ⟨bins, b1, b2⟩ := hbins
    obtain ⟨l, hl, hv⟩ := jsonObj_order (ho [(c!"histogram", jsonArr (scores.map fun n => jsonFloat (.fin n))), (c!"max_value", jsonFloat mx),
      (c!"min_value", jsonFloat mn)]) (l := [(c!"histogram", .arr (bins.map .num)), (c!"max_value", .num x), (c!"min_value", .num y)])
      (.cons ⟨rfl, jsonArr_spec b1⟩ (.cons ⟨rfl, x1⟩ (.cons ⟨rfl, y1⟩ .nil)))
    exact ⟨_, _, rfl, text hv, .timer l scores bins x y mx mn hl b2 x2 y2⟩

/-- C143: a JSON text has one meaning only, so that nothing else can be read from a page. -/
theorem C143_unambiguous (t : Str) (v v' : JVal) (h : JText t v) (h' : JText t v') : v = v' := text_det h h'

/-- C143: the status page of the default processor, after any history, unless one of its times is infinite or nan. -/
theorem C143_status_default (order : List (Str × Str) → List (Str × Str)) (ho : ∀ l, (order l).Perm l) (ops : PluginOps PF PM)
    (plugins : List PF) (w : World) (os : List Op) (pluginPage : PM → Option Response) (interval : ℤ) :
    let s := (runOps (messageProcessor ops) w (MPState.init ops plugins) os).1
    (∀ n ∈ [s.lastFlush, s.lastProcess], n ≠ .flt .nan ∧ ∀ b, n ≠ .flt (.inf b)) →
    ∃ ok t v, (siteM pluginPage interval s).answer c!"GET" c!"/status" =
        ⟨if ok then 200 else 500, .status ok s.lastFlush s.lastProcess interval⟩ ∧
      (Body.status ok s.lastFlush s.lastProcess interval).text order = some t ∧ JText t v ∧
      Shows v (.status ok s.lastFlush s.lastProcess interval) := by
  have := binary64_ieee
  intro s hn
  have hs : ShownDouble s := shown_run (mp_timed ops) w ⟨numDouble_int 0, numDouble_int 0⟩ os
  obtain ⟨ok, e1, _⟩ := C113_status (siteM pluginPage interval s) c!"/status" [] (path_plain ⟨rfl, by simp, by decide⟩)
  obtain ⟨n1, n2⟩ := hn s.lastFlush (by simp)
  obtain ⟨n3, n4⟩ := hn s.lastProcess (by simp)
  obtain ⟨t, v, h1, h2, h3⟩ := C143_text order ho _ (.status ok s.lastFlush s.lastProcess interval (finite_of hs.1 n1 n2) (finite_of hs.2 n3 n4))
  exact ⟨ok, t, v, e1, h1, h2, h3⟩

/-- C143: the same of the configurable processor. -/
theorem C143_status_configurable (order : List (Str × Str) → List (Str × Str)) (ho : ∀ l, (order l).Perm l) (ops : PluginOps PF PM)
    (pre int : Str) (plugins : List PF) (w : World) (os : List Op) (pluginPage : PM → Option Response) (interval : ℤ) :
    let s := (runOps (configurable ops pre int) w (CPState.init ops plugins) os).1
    (∀ n ∈ [s.lastFlush, s.lastProcess], n ≠ .flt .nan ∧ ∀ b, n ≠ .flt (.inf b)) →
    ∃ ok t v, (siteC pluginPage interval s).answer c!"GET" c!"/status" =
        ⟨if ok then 200 else 500, .status ok s.lastFlush s.lastProcess interval⟩ ∧
      (Body.status ok s.lastFlush s.lastProcess interval).text order = some t ∧ JText t v ∧
      Shows v (.status ok s.lastFlush s.lastProcess interval) := by
  have := binary64_ieee
  intro s hn
  have hs : ShownDouble s := shown_run (cp_timed ops pre int) w ⟨numDouble_int 0, numDouble_int 0⟩ os
  obtain ⟨ok, e1, _⟩ := C113_status (siteC pluginPage interval s) c!"/status" [] (path_plain ⟨rfl, by simp, by decide⟩)
  obtain ⟨n1, n2⟩ := hn s.lastFlush (by simp)
  obtain ⟨n3, n4⟩ := hn s.lastProcess (by simp)
  obtain ⟨t, v, h1, h2, h3⟩ := C143_text order ho _ (.status ok s.lastFlush s.lastProcess interval (finite_of hs.1 n1 n2) (finite_of hs.2 n3 n4))
  exact ⟨ok, t, v, e1, h1, h2, h3⟩

/-- C143: the list of the default processor, after any history, is a JSON text with exactly the names received, each once. -/
theorem C143_names (order : List (Str × Str) → List (Str × Str)) (ho : ∀ l, (order l).Perm l) (ops : PluginOps PF PM)
    (plugins : List PF) (w : World) (os : List Op) (pluginPage : PM → Option Response) (interval : ℤ) :
    let s := (runOps (messageProcessor ops) w (MPState.init ops plugins) os).1
    let page := (siteM pluginPage interval s).answer c!"GET" c!"/list_metrics"
    ∃ (t : Str) (l : List Str), page.code = 200 ∧ page.body.text order = some t ∧ JText t (.obj [(c!"names", .arr (l.map .str))]) ∧ l.Nodup ∧
      ∀ k, k ∈ l ↔ ∃ msg ∈ messages os, Names (plugins.map ops.mtype) k msg := by
  intro s page
  obtain ⟨⟨l, e, h1, h2⟩, _⟩ := C113_default ops plugins w os interval pluginPage
  obtain ⟨t, v, h3, h4, h5⟩ := C143_text order ho _ (.names l)
  cases h5
  refine ⟨t, l, ?_, ?_, h4, h1, h2⟩
  · show page.code = 200
    rw [show page = _ from e]
  · rw [show page = _ from e]; exact h3

/-- C143 (partial): the page of a timer that received finite durations only, and whose flushes were completed, is a JSON text of its
histogram and extremes whenever it is answered with 200. Missing (`C143_refuted`): infinite durations. -/
theorem C143_timer_partial (order : List (Str × Str) → List (Str × Str)) (ho : ∀ l, (order l).Perm l) (ops : PluginOps PF PM)
    (pre int : Str) (plugins : List PF) (w : World) (os : List Op)
    (pluginPage : PM → Option Response) (interval : ℤ) (key : Str) (hk : ∀ c ∈ key, Legal c) (h : List TimerOp)
    (hh : TimerHistory (configurable ops pre int) w key (CPState.init ops plugins) os h) (hd : durations h ≠ [])
    (hb : os.length ≤ 2 ^ 52) :
    let s := (runOps (configurable ops pre int) w (CPState.init ops plugins) os).1
    let page := (siteC pluginPage interval s).answer c!"GET" (c!"/metrics/" ++ key)
    page.code = 200 → ∃ t v, page.body.text order = some t ∧ JText t v ∧ Shows v page.body := by
  have := binary64_ieee
  intro s page h200
  obtain ⟨held, l1, l2, l3, l4, l5⟩ := C114_page_partial ops pre int plugins w os pluginPage interval key hk h hh hd hb
  have hz : Finite (.flt (.fin 0)) := .flt 0 roundDouble_zero
  have hdb := timerHistory_doubles hh
  have sub : ∀ q ∈ period h, q ∈ durations h := by
    clear * -
    induction h using List.reverseRecOn with
    | nil => simp [period]
    | append_singleton h o ih =>
      cases o with
      | add q =>
        rw [period_add, durations_add]
        intro x hx
        split_ifs at hx
        · rcases List.mem_append.1 hx with hx | hx
          · exact List.mem_append_left _ (ih x hx)
          · exact List.mem_append_right _ hx
        · exact List.mem_append_left _ (ih x hx)
      | report ts => rw [period_report]; simp
  by_cases hp : period h = []
  · have e : page = _ := l3 hp
    rw [e]
    exact C143_text order ho _ (.timer _ _ _ (by intro n hn; rw [List.eq_of_mem_replicate hn]; norm_num) hz hz)
  · by_cases hab : ∃ a ∈ held, ∃ b ∈ held, a ≠ b
    · obtain ⟨scores, hi, lo, e, hsum, h1, h2, _⟩ := l4 hab
      rw [show page = _ from e]
      refine C143_text order ho _ (.timer _ _ _ (fun n hn => ?_) (.flt hi (hdb hi (sub hi h1))) (.flt lo (hdb lo (sub lo h2))))
      have : n ≤ scores.sum := List.single_le_sum (by simp) n hn
      rw [hsum, l1] at this
      exact this.trans ((Nat.min_le_left _ _).trans (by norm_num))
    · push Not at hab
      have hne : held ≠ [] := by
        rintro rfl
        have := List.length_pos_iff.2 hp
        rw [List.length_nil] at l1
        omega
      have e : page.code = 500 := l5 hne hab
      rw [e] at h200
      cases h200

/-- The durations of the witness: an infinite one first, which the last pushes out of the reservoir. -/
def infMsgs (n : ℕ) : List Str := [c!"a:inf|ms"] ++ (List.replicate n c!"a:1|ms" ++ [c!"a:2|ms"]) ++ [c!"a:3|ms"]

/-- C143 is refuted for infinite durations: a timer that received `inf` and has since lost it from its reservoir is answered with 200
and a text with `Infinity` in it, which is no JSON. -/
theorem C143_refuted : ¬ ∀ (order : List (Str × Str) → List (Str × Str)) (os : List Op) (key : Str), (∀ l, (order l).Perm l) →
    let page := (siteC (fun _ => none) 10000
      (runOps (configurable noPlugins c!"p" c!"statsd") exWorld (CPState.init noPlugins []) os).1).answer c!"GET"
        (c!"/metrics/" ++ key)
    page.code = 200 → ∃ t v, page.body.text order = some t ∧ JText t v := by
  have := binary64_ieee
  intro hall
  obtain ⟨N, hN⟩ : ∃ N : ℕ, N = 1026 := ⟨_, rfl⟩
  have r0 : Reading c!"ms" c!"a" c!"a:inf|ms" (.inf false) := readEffect_iff.1 (by decide +kernel)
  have r1 : Reading c!"ms" c!"a" c!"a:1|ms" (.fin 1) := readEffect_iff.1 (by decide +kernel)
  have r2 : Reading c!"ms" c!"a" c!"a:2|ms" (.fin 2) := readEffect_iff.1 (by decide +kernel)
  have r3 : Reading c!"ms" c!"a" c!"a:3|ms" (.fin 3) := readEffect_iff.1 (by decide +kernel)
  have key : ∀ n, List.Forall₂ (fun m v => Reading c!"ms" c!"a" m v ∧ PyFloat.le (.fin 0) v = true)
      ([c!"a:inf|ms"] ++ (List.replicate n c!"a:1|ms" ++ [c!"a:2|ms"]) ++ [c!"a:3|ms"])
      (.inf false :: (List.replicate n (.fin 1) ++ [.fin 2]) ++ [PyFloat.fin 3]) := by
    intro n
    refine .cons ⟨r0, by decide +kernel⟩ (List.rel_append (List.rel_append ?_ (.cons ⟨r2, by decide +kernel⟩ .nil)) (.cons ⟨r3, by decide +kernel⟩ .nil))
    induction n with
    | zero => exact .nil
    | succ n ih => exact .cons ⟨r1, by decide +kernel⟩ ih
  obtain ⟨t, ht, hh⟩ := timer_readings noPlugins c!"p" c!"statsd" [] exWorld (fun _ => rfl) c!"a" (infMsgs N) _ (key N) (by simp)
  have hs : ((UniformSample.init (PyFloat.fin 0) 1028).runOps (.fin 0)
      ((PyFloat.inf false :: (List.replicate N (PyFloat.fin 1) ++ [PyFloat.fin 2]) ++ [PyFloat.fin 3]).map (.update 0))).getValues =
      .fin 3 :: (List.replicate N (PyFloat.fin 1) ++ [PyFloat.fin 2]) :=
    full_sample (PyFloat.fin 0) (.inf false) (.fin 3) (List.replicate N (PyFloat.fin 1) ++ [PyFloat.fin 2]) 1027 (by simp; omega)
  have hv : streamValues ((PyFloat.inf false :: (List.replicate N (PyFloat.fin 1) ++ [PyFloat.fin 2]) ++ [PyFloat.fin 3]).map (StreamOp.update 0)) =
      .inf false :: (List.replicate N (PyFloat.fin 1) ++ [PyFloat.fin 2]) ++ [.fin 3] := by
    generalize (PyFloat.inf false :: (List.replicate N (PyFloat.fin 1) ++ [PyFloat.fin 2]) ++ [PyFloat.fin 3]) = l
    induction l using List.reverseRecOn with
    | nil => rfl
    | append_singleton l v ih => rw [List.map_append, List.map_singleton, UniformSample.streamValues_snoc, ih]
  generalize hops : (PyFloat.inf false :: (List.replicate N (PyFloat.fin 1) ++ [PyFloat.fin 2]) ++ [PyFloat.fin 3]).map (StreamOp.update 0) = sops at *
  have hx := C34_extremes 1028 sops (by
    rw [hv]; intro v hm
    simp only [List.cons_append, List.mem_cons, List.mem_append, List.mem_replicate, List.not_mem_nil, or_false] at hm
    rcases hm with rfl | ((⟨_, rfl⟩ | rfl) | rfl) <;> simp)
  rw [← hh] at hx
  obtain ⟨m1, m2, m3⟩ := hx.2 (by rw [hv]; simp)
  have hmax : t.hist.max = .inf false := by
    have := (m3 (.inf false) (by rw [hv]; simp)).1
    rw [hv] at m1
    generalize t.hist.max = x at m1 this
    simp only [List.cons_append, List.mem_cons, List.mem_append, List.mem_replicate, List.not_mem_nil, or_false] at m1
    rcases m1 with rfl | ((⟨_, rfl⟩ | rfl) | rfl)
    · rfl
    all_goals cases this
  have hcount : t.hist.count = 1029 := by
    rw [hh, Histogram.count_runOps, hv]; simp; omega
  obtain ⟨scores, q1, _, _⟩ := C111_bins 1028 sops (3 :: (List.replicate N 1 ++ [2])) (Histogram.sturges t.hist.count)
    (by unfold Histogram.sturges; omega) (sturges_le (by rw [hcount]; norm_num))
    (by rw [Histogram.sample_runOps, hs]; simp) (by
      intro q hq
      simp only [List.mem_cons, List.mem_append, List.mem_replicate] at hq
      rcases hq with rfl | ⟨_, rfl⟩ | rfl | h
      · decide +kernel
      · decide +kernel
      · decide +kernel
      · cases h) 3 2 (by simp) (by simp) (by norm_num)
  rw [← hh] at q1
  have hp : Path (c!"/metrics/" ++ c!"a") [c!"metrics", c!"a"] := path_plain ⟨by decide, by decide, by decide⟩
  have hpage := ((C113_metrics (siteC (fun _ => none) 10000
      (runOps (configurable noPlugins c!"p" c!"statsd") exWorld (CPState.init noPlugins []) ((infMsgs N).map .msg)).1) _).2 c!"a" [] hp).2.2 t (by
        change (match (runOps (configurable noPlugins c!"p" c!"statsd") exWorld (CPState.init noPlugins []) ((infMsgs N).map .msg)).1.timers.find c!"a" with
          | some t => _ | none => _) = _
        rw [ht])
  have hpg := hpage.1 scores q1
  have := hall (fun l => l.drop 1 ++ l.take 1) ((infMsgs N).map .msg) c!"a" (fun l => List.perm_append_comm.trans (by rw [List.take_append_drop]))
  rw [hpg] at this
  obtain ⟨tx, v, h1, h2⟩ := this rfl
  obtain ⟨r, hr⟩ : ∃ r, tx = '{' :: (jsonStr c!"max_value" ++ ':' :: ' ' :: 'I' :: r) := by
    simp only [Body.text, Option.some.injEq, List.drop_succ_cons, List.drop_zero, List.take_succ_cons, List.take_zero, hmax,
      jsonFloat, jsonObj, List.cons_append, List.nil_append, List.map_cons, List.map_nil, joinWith, Bool.false_eq_true, if_false] at h1
    rw [← h1]
    simp only [List.append_assoc, List.cons_append, List.nil_append]
    exact ⟨_, rfl⟩
  rw [hr] at h2
  exact not_json (by decide) (by decide) h2

/-! ## C144: floats in full -/

/-- C144: the text of a float is a number that is read as that float; it has at most 17 digits, no decimal number that is read as that
float has fewer digits, and none with as many digits is closer. -/
theorem C144_shortest (x : ℚ) (hx : rnd x = .fin x) : ∃ y n, JNumber (jsonFloat (.fin x)) y ∧ rnd y = .fin x ∧ DecimalOf n y ∧
    n ≤ 17 ∧ ∀ n' z, DecimalOf n' z → rnd z = .fin x → n ≤ n' ∧ (n' = n → |y - x| ≤ |z - x|) := by
  have := binary64_ieee
  rcases lt_trichotomy x 0 with h | rfl | h
  · have hd' : rnd (-x) = .fin (-x) := by rw [Ieee.neg, hx]; rfl
    obtain ⟨y, n, hu, _, hr, ⟨m, k, hm, hy⟩, hn, hmin, _⟩ := reprPos_spec (q := -x) (by linarith) hd'
    refine ⟨-y, n, ?_, by rw [Ieee.neg, hr]; simp [PyFloat.neg], ⟨-m, k, by rwa [abs_neg], by rw [hy]; push_cast; ring⟩, hn, ?_⟩
    · simp only [jsonFloat]; rw [if_pos h]; exact .neg _ _ hu
    · rintro n' z ⟨m', k', hm', hz⟩ hrz
      obtain ⟨a, b⟩ := hmin n' (-z) ⟨-m', k', by rwa [abs_neg], by rw [hz]; push_cast; ring⟩ (by rw [Ieee.neg, hrz]; rfl)
      refine ⟨a, fun e => ?_⟩
      have := b e
      rw [← abs_neg (-y - x), ← abs_neg (z - x)]
      convert this using 2 <;> ring
  · refine ⟨0, 0, jsonFloat_zero, hx, ⟨0, 0, by norm_num, by norm_num⟩, by norm_num, fun n' z _ _ => ⟨Nat.zero_le _, fun _ => by simp⟩⟩
  · obtain ⟨y, n, hu, _, hr, hy, hn, hmin, _⟩ := reprPos_spec h hx
    refine ⟨y, n, ?_, hr, hy, hn, hmin⟩
    simp only [jsonFloat]; rw [if_neg (by linarith)]; exact .pos _ _ hu

/-- C144: a float written in full and read by `float` is the same float, unlike with `str` (`C116_refuted`). -/
theorem C144_roundtrip (x : PyFloat) (hx : ∀ q, x = .fin q → rnd q = .fin q) : parseFloat (jsonFloat x) = some x := by
  have := binary64_ieee
  cases x with
  | nan => rfl
  | inf b => cases b <;> rfl
  | fin x =>
    have hx := hx x rfl
    rcases lt_trichotomy x 0 with h | rfl | h
    · have hd' : rnd (-x) = .fin (-x) := by rw [Ieee.neg, hx]; rfl
      obtain ⟨y, n, _, _, _, _, _, _, _, _, hp⟩ := reprPos_spec (q := -x) (by linarith) hd'
      simp only [jsonFloat]; rw [if_pos h, hp, neg_neg]
    · decide +kernel
    · obtain ⟨y, n, _, _, _, _, _, _, _, hp, _⟩ := reprPos_spec h hx
      simp only [jsonFloat]; rw [if_neg (by linarith), hp]

/-- C144: different floats have different texts. -/
theorem C144_injective (x y : PyFloat) (hx : ∀ q, x = .fin q → rnd q = .fin q) (hy : ∀ q, y = .fin q → rnd q = .fin q)
    (h : jsonFloat x = jsonFloat y) : x = y := by
  have h1 := C144_roundtrip x hx
  rw [h, C144_roundtrip y hy] at h1
  exact (Option.some.inj h1).symm

/-- C144: the shape of the text, by the number it denotes: digits with a point from 0.0001 to below 10^16 and for zero, otherwise a
digit, perhaps more after a point, and an exponent. -/
theorem C144_shape (x : ℚ) (hx : rnd x = .fin x) : ∃ y, JNumber (jsonFloat (.fin x)) y ∧ rnd y = .fin x ∧
    Signed (x < 0) (if y = 0 ∨ (1 / 10 ^ 4 ≤ |y| ∧ |y| < 10 ^ 16) then PlainShape else ExpShape 16) (jsonFloat (.fin x)) := by
  have := binary64_ieee
  have sh : ∀ (y : ℚ) (t : Str), 0 < |y| → (if 1 / 10 ^ 4 ≤ |y| ∧ |y| < 10 ^ 16 then PlainShape t else ExpShape 16 t) →
      (if y = 0 ∨ (1 / 10 ^ 4 ≤ |y| ∧ |y| < 10 ^ 16) then PlainShape else ExpShape 16) t := by
    intro y t hy h
    have h0 : y ≠ 0 := abs_pos.1 hy
    by_cases hc : 1 / 10 ^ 4 ≤ |y| ∧ |y| < 10 ^ 16
    · rw [if_pos hc] at h; rw [if_pos (Or.inr hc)]; exact h
    · rw [if_neg hc] at h; rw [if_neg (by rintro (h | h); exacts [h0 h, hc h])]; exact h
  rcases lt_trichotomy x 0 with h | rfl | h
  · have hd' : rnd (-x) = .fin (-x) := by rw [Ieee.neg, hx]; rfl
    obtain ⟨y, n, hu, hy0, hr, _, _, _, hsh, _⟩ := reprPos_spec (q := -x) (by linarith) hd'
    refine ⟨-y, ?_, by rw [Ieee.neg, hr]; simp [PyFloat.neg], Or.inl ⟨h, reprPos (-x), ?_, ?_⟩⟩
    · simp only [jsonFloat]; rw [if_pos h]; exact .neg _ _ hu
    · simp only [jsonFloat]; rw [if_pos h]
    · refine sh _ _ (by rw [abs_neg, abs_of_pos hy0]; exact hy0) ?_
      rw [abs_neg, abs_of_pos hy0]; exact hsh
  · refine ⟨0, jsonFloat_zero, hx, Or.inr ⟨lt_irrefl _, ?_⟩⟩
    rw [if_pos (Or.inl rfl)]
    exact ⟨['0'], ['0'], by decide +kernel, by simp, by simp, by decide, Or.inl rfl, Or.inl rfl⟩
  · obtain ⟨y, n, hu, hy0, hr, _, _, _, hsh, _⟩ := reprPos_spec h hx
    have e : jsonFloat (.fin x) = reprPos x := by simp only [jsonFloat]; rw [if_neg (by linarith)]
    refine ⟨y, by rw [e]; exact .pos _ _ hu, hr, Or.inr ⟨by linarith, ?_⟩⟩
    rw [e]
    refine sh _ _ (by rw [abs_of_pos hy0]; exact hy0) ?_
    rw [abs_of_pos hy0]; exact hsh

/-- C144: nan and the infinities have texts that are no JSON. -/
theorem C144_special (x : PyFloat) (hx : ∀ q, x ≠ .fin q) (v : JVal) : ¬ JValue (jsonFloat x) v := by
  have main : ∀ (t : Str), (∃ c s, t = c :: s ∧ valChar c = false) → ¬ JValue t v := by
    rintro _ ⟨c, s, rfl, hc⟩ h
    obtain ⟨d, s', e, hd⟩ := value_head h
    simp only [List.cons.injEq] at e
    rw [e.1, hd] at hc
    cases hc
  cases x with
  | nan => exact main _ ⟨'N', _, rfl, by decide⟩
  | inf b =>
    cases b
    · exact main _ ⟨'I', _, rfl, by decide⟩
    · intro h
      generalize ht : jsonFloat (.inf true) = t at h
      cases h with
      | num t q h =>
        cases h with
        | pos t q h =>
          obtain ⟨c, s, rfl, hc⟩ := unsigned_head h
          simp only [jsonFloat, if_true, List.cons.injEq] at ht
          rw [← ht.1] at hc; revert hc; decide
        | neg t q h =>
          obtain ⟨c, s, rfl, hc⟩ := unsigned_head h
          simp only [jsonFloat, if_true, List.cons.injEq, true_and] at ht
          rw [← ht.1] at hc; revert hc; decide
      | str t s h => obtain ⟨u, rfl⟩ := string_head h; simp [jsonFloat] at ht
      | arr0 w h => simp [jsonFloat] at ht
      | arr t l h => simp [jsonFloat] at ht
      | obj0 w h => simp [jsonFloat] at ht
      | obj t l h => simp [jsonFloat] at ht
  | fin q => exact absurd rfl (hx q)

/-! Doubles and their texts. -/

example : jsonFloat (rnd (1 / 10)) = c!"0.1" := by decide +kernel
example : jsonFloat (rnd (1 / 3)) = c!"0.3333333333333333" := by decide +kernel
example : jsonFloat (rnd (-2 / 3)) = c!"-0.6666666666666666" := by decide +kernel
example : jsonFloat (PyFloat.add (rnd (1 / 10)) (rnd (2 / 10))) = c!"0.30000000000000004" := by decide +kernel
example : jsonFloat (rnd (10 ^ 16)) = c!"1e+16" ∧ jsonFloat (rnd (10 ^ 15)) = c!"1000000000000000.0" := by decide +kernel
example : jsonFloat (rnd (2 ^ (-44 : ℤ))) = c!"5.684341886080802e-14" := by decide +kernel
/-- Fewer digits exist than of the nearest number with 17. -/
example : rnd (1351079888211149 / 4503599627370496) = .fin (1351079888211149 / 4503599627370496) ∧
    jsonFloat (.fin (1351079888211149 / 4503599627370496)) = c!"0.30000000000000004" := by decide +kernel

/-! Pages. -/

example : PlainPage (.status true (.int 0) (.flt (.fin (1 / 4))) 10000) := .status _ _ _ _ (.int 0) (.flt _ (by decide +kernel))
example : (Body.status true (.int 0) (.flt (.fin (1 / 4))) 10000).text id =
    some c!"{\"flush_time\": 0, \"process_time\": 0.25, \"flush_interval\": 10000, \"status\": \"OK\"}" := by decide +kernel
example : (Body.names [c!"a", c!"b.c"]).text id = some c!"{\"names\": [\"a\", \"b.c\"]}" := by decide +kernel
example : (Body.timer [1, 1] (.fin 3) (.fin 1)).text id =
    some c!"{\"histogram\": [1.0, 1.0], \"max_value\": 3.0, \"min_value\": 1.0}" := by decide +kernel
/-- A processor that has flushed once shows finite times. -/
example : let s := (runOps (messageProcessor noPlugins) exWorld (MPState.init noPlugins []) [.msg c!"a:1|c", .flush 10000 90]).1
    ∀ n ∈ [s.lastFlush, s.lastProcess], n ≠ .flt .nan ∧ ∀ b, n ≠ .flt (.inf b) := by
  intro s n hn
  have h1 : s.lastFlush = .flt (.fin 5) := by decide +kernel
  have h2 : s.lastProcess = .flt (.fin 1) := by decide +kernel
  rw [h1, h2] at hn
  simp only [List.mem_cons, List.not_mem_nil, or_false] at hn
  rcases hn with rfl | rfl <;> exact ⟨by simp, by simp⟩
/-- A page of a timer with two durations. -/
example : let page := (siteC (fun _ => none) 10000
      (runOps (configurable noPlugins c!"p" c!"statsd") exWorld (CPState.init noPlugins [])
        [.msg c!"a:1|ms", .msg c!"a:3|ms"]).1).answer c!"GET" c!"/metrics/a"
    page.code = 200 ∧ page.body.text id = some c!"{\"histogram\": [1.0, 1.0], \"max_value\": 3.0, \"min_value\": 1.0}" := by
  decide +kernel
example : JText c!"[0.1, \"a\"]" (.arr [.num (1 / 10), .str c!"a"]) := by
  refine ⟨[], [], _, by simp, jws_nil, jws_nil, .arr c!"0.1, \"a\"" _ ?_⟩
  refine .more [] c!"0.1" [] c!" \"a\"" _ _ jws_nil ?_ jws_nil (.one [' '] c!"\"a\"" [] _ jws_space ?_ jws_nil)
  · refine .num _ _ (.pos _ _ ⟨c!"0", c!".1", c!"1", [], 0, rfl, ⟨by simp, by decide⟩, fun _ => rfl, .some _ ⟨by simp, by decide⟩, .none, ?_⟩)
    rw [show decimal (c!"0" ++ c!"1") = 1 by decide]; norm_num
  · exact .str _ _ (.mk c!"a" _ (.plain _ _ _ (by decide) (by decide) (by decide) .nil))

end

end Txstatsd
