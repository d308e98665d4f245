import Verif.Lemmas.Site
import Verif.Props.Accounting
import Verif.Props.Histograms
import Verif.Props.Gauges

/-!
# The web site: C113, C114, C115
-/

namespace Txstatsd
open Spec

/-! ## C113: which paths answer what -/

section
variable [Rounding] {PF PM : Type}

/-- C113: every path has exactly one reading as a list of parts. -/
theorem C113_path (path : Str) : ∃ parts, Path ('/' :: path) parts ∧ ∀ parts', Path ('/' :: path) parts' → parts' = parts := by
  have hn := splitOn_ne_nil '/' path
  have hp := splitOn_parts '/' path
  have hj := join_splitOn '/' path
  generalize splitOn '/' path = encs at *
  obtain ⟨parts, h⟩ : ∃ parts, List.Forall₂ Encodes encs parts := by
    clear hn hj
    induction encs with
    | nil => exact ⟨[], .nil⟩
    | cons e es ih =>
      obtain ⟨p, h1⟩ := encodes_exists (hp e (by simp))
      obtain ⟨ps, h2⟩ := ih fun e he => hp e (by simp [he])
      exact ⟨p :: ps, .cons h1 h2⟩
  have hpath : Path ('/' :: path) parts := ⟨encs, h, by rintro rfl; cases h; exact hn rfl, by rw [hj]⟩
  exact ⟨parts, hpath, fun parts' h' => (segments_path h').symm.trans (segments_path hpath)⟩

/-- C113: a path whose first part is not one of the three pages is not found, whatever the method. -/
theorem C113_unknown (v : SiteView) (method path first : Str) (rest : List Str) (hp : Path path (first :: rest))
    (h : first ∉ [c!"status", c!"metrics", c!"list_metrics"]) : (v.answer method path).code = 404 := by
  simp only [List.mem_cons, List.not_mem_nil, or_false, not_or] at h
  obtain ⟨h1, h2, h3⟩ := h
  have hn : ∀ l, Res.noResource.find v l = .noResource := by
    intro l; induction l with
    | nil => rfl
    | cons a l ih => simpa [Res.find, Res.isLeaf, Res.child] using ih
  unfold SiteView.answer
  rw [segments_path hp]
  simp only [Res.find, Res.isLeaf, Res.child, h1, h2, h3, if_false, hn, Bool.false_eq_true]
  rfl

/-- C113: `/status` and everything below it is the status page: the two durations, the interval, and OK with code 200 or
ERROR with code 500. -/
theorem C113_status (v : SiteView) (path : Str) (rest : List Str) (hp : Path path (c!"status" :: rest)) :
    ∃ ok, v.answer c!"GET" path = ⟨if ok then 200 else 500, .status ok v.flushTime v.processTime v.interval⟩ ∧
      (ok = true ↔ ¬ statusError v.interval v.processTime v.flushTime = true) := by
  unfold SiteView.answer
  rw [segments_path hp]
  have : Res.root.find v (c!"status" :: rest) = .status := by
    cases rest <;> simp [Res.find, Res.isLeaf, Res.child]
  rw [this]
  unfold Res.render
  simp only [if_true, Res.get]
  split_ifs with h
  · exact ⟨false, rfl, by simp [h]⟩
  · exact ⟨true, rfl, by simp [h]⟩

/-- C113: `/list_metrics` lists the names the processor gives, or fails when it does; below it nothing is found. -/
theorem C113_list (v : SiteView) (path : Str) :
    (Path path [c!"list_metrics"] →
      (∀ l, v.names = .ok l → v.answer c!"GET" path = ⟨200, .names l⟩) ∧
      (∀ e, v.names = .error e → (v.answer c!"GET" path).code = 500)) ∧
    (∀ method a rest, Path path (c!"list_metrics" :: a :: rest) → (v.answer method path).code = 404) := by
  refine ⟨fun hp => ⟨fun l hl => ?_, fun e he => ?_⟩, fun method a rest hp => ?_⟩
  · unfold SiteView.answer
    rw [segments_path hp]
    have : Res.root.find v [c!"list_metrics"] = .listMetrics := by simp [Res.find, Res.isLeaf, Res.child]
    rw [this]
    simp [Res.render, Res.get, hl]
  · unfold SiteView.answer
    rw [segments_path hp]
    have : Res.root.find v [c!"list_metrics"] = .listMetrics := by simp [Res.find, Res.isLeaf, Res.child]
    rw [this]
    simp [Res.render, Res.get, he]
  · have hn : ∀ l, Res.noResource.find v l = .noResource := by
      intro l; induction l with
      | nil => rfl
      | cons a l ih => simpa [Res.find, Res.isLeaf, Res.child] using ih
    unfold SiteView.answer
    rw [segments_path hp]
    have : Res.root.find v (c!"list_metrics" :: a :: rest) = .noResource := by
      simp [Res.find, Res.isLeaf, Res.child, hn]
    rw [this]; rfl

/-- C113: `/metrics` alone has no page; `/metrics/NAME`, and everything below it, is the page of the metric: not found (for
every method) if it has none, and otherwise the plugin's answer or the timer's, which fails if the histogram cannot be
made. -/
theorem C113_metrics (v : SiteView) (path : Str) :
    (Path path [c!"metrics"] → (v.answer c!"GET" path).code = 405) ∧
    (∀ name rest, Path path (c!"metrics" :: name :: rest) →
      (v.page name = none → ∀ method, (v.answer method path).code = 404) ∧
      (∀ r, v.page name = some (.inr r) → v.answer c!"GET" path = r) ∧
      (∀ t, v.page name = some (.inl t) →
        (∀ scores, t.hist.histogram = .ok scores → v.answer c!"GET" path = ⟨200, .timer scores t.hist.max t.hist.min⟩) ∧
        (∀ e, t.hist.histogram = .error e → (v.answer c!"GET" path).code = 500))) := by
  constructor
  · intro hp
    unfold SiteView.answer
    rw [segments_path hp]
    have : Res.root.find v [c!"metrics"] = .metrics := by simp [Res.find, Res.isLeaf, Res.child]
    rw [this]
    simp [Res.render, Res.get]
  · intro name rest hp
    have hn : ∀ l, Res.noResource.find v l = .noResource := by
      intro l; induction l with
      | nil => rfl
      | cons a l ih => simpa [Res.find, Res.isLeaf, Res.child] using ih
    have h0 : Res.root.find v (c!"metrics" :: name :: rest) = (Res.metrics.child v name).find v rest := by
      simp [Res.find, Res.isLeaf, Res.child]
    unfold SiteView.answer
    rw [segments_path hp, h0]
    refine ⟨fun h method => ?_, fun r h => ?_, fun t h => ⟨fun scores hs => ?_, fun e he => ?_⟩⟩
    · have : Res.metrics.child v name = .noResource := by simp [Res.child, h]
      rw [this, hn]; rfl
    · have : (Res.metrics.child v name).find v rest = .plugin r := by
        cases rest <;> simp [Res.child, h, Res.find, Res.isLeaf]
      rw [this]; simp [Res.render, Res.get]
    · have : (Res.metrics.child v name).find v rest = .timer t := by
        cases rest <;> simp [Res.child, h, Res.find, Res.isLeaf]
      rw [this]; simp [Res.render, Res.get, hs]
    · have : (Res.metrics.child v name).find v rest = .timer t := by
        cases rest <;> simp [Res.child, h, Res.find, Res.isLeaf]
      rw [this]; simp [Res.render, Res.get, he]

/-- C113: for every path, encoded or not. A method other than GET and HEAD is never answered with a page. HEAD is answered
without a body and with the code of GET, except that 405 becomes 500. -/
theorem C113_methods (v : SiteView) (method path : Str) :
    (method ≠ c!"GET" → method ≠ c!"HEAD" → (v.answer method path).code ∈ [404, 405, 501]) ∧
    (v.answer c!"HEAD" path).body = .none ∧
    ((∀ name t, v.page name = some (.inr t) → t.code ≠ 405) →
      (v.answer c!"HEAD" path).code =
        if (v.answer c!"GET" path).code = 405 then 500 else (v.answer c!"GET" path).code) := by
  have hfind : ∀ l r, (∀ x, r = Res.plugin x → ∃ name, v.page name = some (.inr x)) →
      ∀ x, r.find v l = .plugin x → ∃ name, v.page name = some (.inr x) := by
    intro l
    induction l with
    | nil => intro r hr x hx; exact hr x hx
    | cons a l ih =>
      intro r hr x hx
      rw [Res.find] at hx
      split_ifs at hx with hl
      · exact hr x hx
      · refine ih _ (fun y hy => ?_) x hx
        unfold Res.child at hy
        split at hy
        · split_ifs at hy
        · split at hy
          · cases hy
          · next z hz => cases hy; exact ⟨_, hz⟩
          · cases hy
        · cases hy
  unfold SiteView.answer
  have hf := hfind (segments path) .root (by intro x hx; cases hx)
  generalize Res.root.find v (segments path) = r at hf ⊢
  refine ⟨fun h1 h2 => ?_, ?_, fun h => ?_⟩
  · unfold Res.render
    split
    · simp
    · rw [if_neg h1, if_neg h2]; split_ifs <;> simp
  · unfold Res.render
    split
    · rfl
    · rfl
  · unfold Res.render
    split
    · simp
    · simp only [if_true]
      have e1 : ¬ (c!"HEAD" : Str) = c!"GET" := by decide
      rw [if_neg e1]
      have key : ∀ o : Option Response, (∀ r, o = some r → r.code ≠ 405) → (o.getD ⟨500, .other⟩).code =
          if (o.getD ⟨405, .other⟩).code = 405 then 500 else (o.getD ⟨405, .other⟩).code := by
        intro o ho
        cases o with
        | none => simp
        | some r => simp [ho r rfl]
      cases r with
      | root => simp [Res.get]
      | metrics => simp [Res.get]
      | noResource => simp [Res.get]
      | plugin x =>
        obtain ⟨n, hn⟩ := hf x rfl
        simp [Res.get, h n x hn]
      | status => simp only [Res.get]; split_ifs <;> simp_all
      | listMetrics =>
        refine key _ fun r hr => ?_
        simp only [Res.get] at hr
        split at hr <;> (cases hr; simp)
      | timer t =>
        refine key _ fun r hr => ?_
        simp only [Res.get] at hr
        split at hr <;> (cases hr; simp)

/-- C113: without a configured port there is no site. -/
theorem C113_port (port : Option ℤ) (v : SiteView) (method path : Str) :
    httpService port v method path = if port = none then none else some (v.answer method path) := by
  cases port <;> rfl

/-- C113: on the configurable processor, after any history, a metric's page is not found exactly if no duration was
accepted for it and no plugin's metric of that name has a page. -/
theorem C113_timers (ops : PluginOps PF PM) (pre int : Str) (plugins : List PF) (w : World) (os : List Op)
    (pluginPage : PM → Option Response) (hpp : ∀ m r, pluginPage m = some r → r.code ≠ 404) (interval : ℤ) (key : Str)
    (hk : ∀ c ∈ key, Legal c) :
    let s := (runOps (configurable ops pre int) w (CPState.init ops plugins) os).1
    ((siteC pluginPage interval s).answer c!"GET" (c!"/metrics/" ++ key)).code = 404 ↔
      ¬ Received c!"ms" key (messages os) ∧ ∀ m, s.pluginMetrics.find key = some m → pluginPage m = none := by
  intro s
  have hp : Path (c!"/metrics/" ++ key) [c!"metrics", key] := by
    refine path_plain ⟨rfl, by simp, fun p hp => ?_⟩
    simp only [List.mem_cons, List.not_mem_nil, or_false] at hp
    rcases hp with rfl | rfl
    · exact ⟨by decide, by decide⟩
    · exact ⟨(legal_plain hk).2, (legal_plain hk).1⟩
  obtain ⟨m1, m2, m3⟩ := (C113_metrics (siteC pluginPage interval s) _).2 key [] hp
  have hst := (storedC ops pre int plugins w os).timers key
  rw [← Dict.find_isSome_iff] at hst
  rw [← hst]
  change _ ↔ ¬ (s.timers.find key).isSome = true ∧ _
  rcases ht : s.timers.find key with _ | t
  · have e : (siteC pluginPage interval s).page key = (s.pluginMetrics.find key).bind fun m => (pluginPage m).map .inr := by
      change (match s.timers.find key with | some t => _ | none => _) = _
      rw [ht]
    rcases hm : s.pluginMetrics.find key with _ | m
    · rw [hm] at e
      rw [m1 e c!"GET"]; simp
    · rw [hm] at e
      rcases hx : pluginPage m with _ | r
      · simp only [Option.bind_some, hx, Option.map_none] at e
        rw [m1 e c!"GET"]; simp [hx]
      · simp only [Option.bind_some, hx, Option.map_some] at e
        rw [m2 r e]; simp [hpp m r hx, hx]
  · have e : (siteC pluginPage interval s).page key = some (.inl t) := by
      change (match s.timers.find key with | some t => _ | none => _) = _
      rw [ht]
    obtain ⟨a, b⟩ := m3 t e
    rcases hh : t.hist.histogram with er | sc
    · rw [b er hh]; simp
    · rw [a sc hh]; simp

/-- C113: on the default processor, after any history, `/list_metrics` lists exactly the names received, each once; and no
metric has a page unless a plugin gives it one. -/
theorem C113_default (ops : PluginOps PF PM) (plugins : List PF) (w : World) (os : List Op) (interval : ℤ)
    (pluginPage : PM → Option Response) :
    let s := (runOps (messageProcessor ops) w (MPState.init ops plugins) os).1
    (∃ l, (siteM pluginPage interval s).answer c!"GET" c!"/list_metrics" = ⟨200, .names l⟩ ∧ l.Nodup ∧
      ∀ k, k ∈ l ↔ ∃ msg ∈ messages os, Names (plugins.map ops.mtype) k msg) ∧
    ((∀ m, pluginPage m = none) → ∀ method path name rest, Path path (c!"metrics" :: name :: rest) →
      ((siteM pluginPage interval s).answer method path).code = 404) := by
  intro s
  have hp : Path c!"/list_metrics" [c!"list_metrics"] := path_plain ⟨rfl, by simp, by decide⟩
  refine ⟨⟨getMetricNames s, ((C113_list _ _).1 hp).1 _ rfl, C21_listing ops plugins w os⟩, fun h method path name rest hp => ?_⟩
  refine ((C113_metrics _ path).2 name rest hp).1 ?_ method
  change (match s.timers.find name with | some (_ :: _) => _ | _ => _) = _
  split
  · rfl
  · rcases s.pluginMetrics.find name with _ | m
    · rfl
    · simp [h]

end

section
attribute [local instance] ratRounding

/-- A configurable processor that received two durations. -/
def exSite : SiteView :=
  siteC (fun _ => none) 10000 (runOps (configurable noPlugins c!"p" c!"statsd") exWorld (CPState.init noPlugins [])
    [.msg c!"a.b:1|ms", .msg c!"a.b:2|ms"]).1

example : (exSite.answer c!"GET" c!"/").code = 404 := by decide +kernel
example : (exSite.answer c!"GET" c!"/status/x").code = 200 := by decide +kernel
example : exSite.answer c!"GET" c!"/metrics/a.b" = ⟨200, .timer [1, 1] (.fin 2) (.fin 1)⟩ := by decide +kernel
example : exSite.answer c!"GET" c!"/metrics/a%2Eb" = exSite.answer c!"GET" c!"/metrics/a.b/c" := by decide +kernel
example : (exSite.answer c!"GET" c!"/metrics").code = 405 ∧ (exSite.answer c!"HEAD" c!"/metrics").code = 500 := by
  decide +kernel
example : Path c!"/metrics/a.b/c" [c!"metrics", c!"a.b", c!"c"] := by
  refine path_plain ⟨by decide, by decide, by decide⟩
example : Path c!"/metrics/a%2Eb%" [c!"metrics", c!"a.b%"] := by
  refine ⟨[c!"metrics", c!"a%2Eb%"], .cons (encodes_plain (by decide) (by decide)) (.cons ?_ .nil), by simp, by decide⟩
  refine .plain _ _ _ (by decide) (by decide) (.escape '2' 'E' 2 14 _ _ (by unfold HexDigit; decide) (by unfold HexDigit; decide)
    (.plain _ _ _ (by decide) (by decide) (.stray _ _ (by intro a b r x y h; cases h) .nil)))
example : (exSite.answer c!"PUT" c!"/status").code = 501 := by decide +kernel

end

/-! ## C114: the page of a timer -/

section
variable [Rounding] [Ieee] {PF PM : Type}

/-- C114 (partial): after any history with completed flushes, the page of a timer that received a (finite) duration has code
200 if no duration came since the last flush (ten empty bins, extremes 0), or if the reservoir holds two different values:
then the bins hold as many durations as the reservoir, at most 1028, and the extremes are the greatest and the least duration
of the period. It fails if the values held are all equal. Missing for the full claim (`C114_refuted`): that case. -/
theorem C114_page_partial (ops : PluginOps PF PM) (pre int : Str) (plugins : List PF) (w : World) (os : List Op)
    (pluginPage : PM → Option Response) (interval : ℤ) (key : Str) (hk : ∀ c ∈ key, Legal c) (h : List TimerOp)
    (hh : TimerHistory (configurable ops pre int) w key (CPState.init ops plugins) os h) (hd : durations h ≠ [])
    (hb : os.length ≤ 2 ^ 52) :
    let s := (runOps (configurable ops pre int) w (CPState.init ops plugins) os).1
    let page := (siteC pluginPage interval s).answer c!"GET" (c!"/metrics/" ++ key)
    ∃ held : List ℚ, held.length = min 1028 (period h).length ∧ (∀ x ∈ held, x ∈ period h) ∧
      (period h = [] → page = ⟨200, .timer (List.replicate 10 0) (.fin 0) (.fin 0)⟩) ∧
      ((∃ a ∈ held, ∃ b ∈ held, a ≠ b) → ∃ scores hi lo, page = ⟨200, .timer scores (.fin hi) (.fin lo)⟩ ∧
        scores.sum = held.length ∧ hi ∈ period h ∧ lo ∈ period h ∧ ∀ q ∈ period h, lo ≤ q ∧ q ≤ hi) ∧
      (held ≠ [] → (∀ a ∈ held, ∀ b ∈ held, a = b) → page.code = 500) := by
  intro s page
  have hp : Path (c!"/metrics/" ++ key) [c!"metrics", key] := by
    refine path_plain ⟨rfl, by simp, fun p hp => ?_⟩
    simp only [List.mem_cons, List.not_mem_nil, or_false] at hp
    rcases hp with rfl | rfl
    · exact ⟨by decide, by decide⟩
    · exact ⟨(legal_plain hk).2, (legal_plain hk).1⟩
  rcases stored_timer ops pre int plugins w key hh with ⟨h1, _⟩ | ⟨os1, h0, h1, t, i1, i2, i3, _, i5, i6, i7⟩
  · exact absurd h1 hd
  have hdb := timerHistory_doubles hh
  obtain ⟨j1, j2⟩ := period_append_noadd (h1 := h1) i3
  rw [← i2] at j1 j2
  obtain ⟨⟨sops, e1, e2⟩, e3⟩ := timerHist_run i7 (by rw [← j2]; exact hdb)
  rw [← j1] at e2 e3
  rw [← j2] at e3
  have hpg : (siteC pluginPage interval s).page key = some (.inl t) := by
    change (match s.timers.find key with | some t => _ | none => _) = _
    rw [i6]
  obtain ⟨p1, p2⟩ := ((C113_metrics (siteC pluginPage interval s) _).2 key [] hp).2.2 t hpg
  obtain ⟨held, g1, g2, g3⟩ := Histogram.held_fin 1028 sops (period h) e2
  have hcount : t.hist.count = (period h).length := by
    rw [e1, Histogram.count_runOps, e2, List.length_map]
  have hlen : (period h).length ≤ os.length := by
    clear * - hh
    induction hh with
    | nil => simp [period]
    | add _ _ ih => rw [period_add]; split_ifs <;> simp <;> omega
    | skip _ _ ih => simp; omega
    | flush _ _ ih => rw [period_report]; simp
  obtain ⟨x1, x2⟩ := C34_extremes 1028 sops (by rw [e2]; intro v hv; obtain ⟨q, _, rfl⟩ := List.mem_map.1 hv; simp)
  rw [← e1, e2] at x1 x2
  refine ⟨held, g2, g3, fun he => ?_, fun ⟨a, ha, b, hb', hab⟩ => ?_, fun hne hall => ?_⟩
  · have : t.hist.histogram = .ok (List.replicate 10 0) := by
      unfold Histogram.histogram Histogram.histogramWith
      rw [hcount, he]; simp
    rw [show page = _ from p1 _ this, (x1 (by rw [he]; rfl)).1, (x1 (by rw [he]; rfl)).2]
  · have hpe : period h ≠ [] := List.ne_nil_of_mem (g3 a ha)
    have hpos : 1 ≤ (period h).length := List.length_pos_iff.2 hpe
    obtain ⟨scores, q1, q2, q3⟩ := C111_bins 1028 sops held (Histogram.sturges t.hist.count)
      (by unfold Histogram.sturges; omega) (sturges_le (by rw [hcount]; omega)) g1
      (fun q hq => ⟨(e3 q (g3 q hq)).2, hdb q (e3 q (g3 q hq)).1⟩) a b ha hb' hab
    rw [← e1] at q1
    obtain ⟨y1, y2, y3⟩ := x2 (by simpa using hpe)
    obtain ⟨hi, hhi, z1⟩ := List.mem_map.1 y1
    obtain ⟨lo, hlo, z2⟩ := List.mem_map.1 y2
    refine ⟨scores, hi, lo, ?_, q3, hhi, hlo, fun q hq => ?_⟩
    · rw [show page = _ from p1 scores q1, z1, z2]
    · obtain ⟨u1, u2⟩ := y3 (.fin q) (List.mem_map.2 ⟨q, hq, rfl⟩)
      rw [← z1] at u1
      rw [← z2] at u2
      simp only [PyFloat.lt, decide_eq_false_iff_not, not_lt] at u1 u2
      exact ⟨u2, u1⟩
  · obtain ⟨a, ha⟩ := List.exists_mem_of_ne_nil held hne
    have hpe : period h ≠ [] := List.ne_nil_of_mem (g3 a ha)
    have := histogram_equal 1028 sops held (Histogram.sturges t.hist.count) a
      (by rw [← e1, hcount]; exact List.length_pos_iff.2 hpe) g1 hne (fun v hv => hall v hv a ha)
    rw [← e1] at this
    exact p2 _ this

end

section
attribute [local instance] binary64

/-- C114, refuted: one duration, and the page fails. -/
theorem C114_refuted : ¬ ∀ (os : List Op) (key : Str), Received c!"ms" key (messages os) →
    ((siteC (fun _ => none) 10000
      (runOps (configurable noPlugins c!"p" c!"statsd") exWorld (CPState.init noPlugins []) os).1).answer c!"GET"
        (c!"/metrics/" ++ key)).code = 200 := by
  intro h
  have := h [.msg c!"a:1|ms"] c!"a" ⟨c!"a:1|ms", by simp [messages], .fin 1, readEffect_iff.1 (by decide +kernel)⟩
  revert this
  decide +kernel

/-- Two durations, two bins. -/
example : ((siteC (fun _ => none) 10000
      (runOps (configurable noPlugins c!"p" c!"statsd") exWorld (CPState.init noPlugins [])
        [.msg c!"a:1|ms", .msg c!"a:3|ms"]).1).answer c!"GET" c!"/metrics/a") =
    ⟨200, .timer [1, 1] (.fin 3) (.fin 1)⟩ := by decide +kernel

example : ∃ h, TimerHistory (configurable noPlugins c!"p" c!"statsd") exWorld c!"a" (CPState.init noPlugins [])
    [.msg c!"a:1|ms", .msg c!"a:3|ms"] h ∧ durations h ≠ [] :=
  have r1 : Reading c!"ms" c!"a" c!"a:1|ms" (.fin 1) := readEffect_iff.1 (by decide +kernel)
  have r3 : Reading c!"ms" c!"a" c!"a:3|ms" (.fin 3) := readEffect_iff.1 (by decide +kernel)
  ⟨[.add 1, .add 3], .add (os := [.msg c!"a:1|ms"]) (h := [.add 1]) (.add (os := []) (h := []) .nil r1) r3,
    by simp [durations]⟩

end

/-! ## C115: the times of the status page -/

section
variable [Rounding] [Exact] {PF PM : Type}

/-- C115: with a clock that never goes back, the two times shown are never negative and never add up to more than the time
since the processor started; on the default processor. -/
theorem C115_default (ops : PluginOps PF PM) (plugins : List PF) (w : World) (hw : ForwardClock w) (os : List Op)
    (pluginPage : PM → Option Response) (interval : ℤ) :
    let s := (runOps (messageProcessor ops) w (MPState.init ops plugins) os).1
    ∃ ok ft pt f p, (siteM pluginPage interval s).answer c!"GET" c!"/status" =
        ⟨if ok then 200 else 500, .status ok ft pt interval⟩ ∧ Amount ft f ∧ Amount pt p ∧
      0 ≤ f ∧ 0 ≤ p ∧ f + p ≤ w.clk s.ticks - w.clk 0 ∧ (ok = true ↔ p + f ≤ 700 * ((interval : ℚ) / 1000)) ∧
      (w.clk s.ticks - w.clk 0 ≤ 700 * ((interval : ℚ) / 1000) → ok = true) := by
  intro s
  obtain ⟨f, p, h1, h2, h3, h4, h5⟩ := (worked_mp ops plugins hw os).shown
  obtain ⟨ok, e1, e2⟩ := C113_status (siteM pluginPage interval s) c!"/status" [] (path_plain ⟨rfl, by simp, by decide⟩)
  have hf := amount_of_val h1
  have hp := amount_of_val h2
  have hs : ok = true ↔ p + f ≤ 700 * ((interval : ℚ) / 1000) := by
    rw [e2]
    rw [show (siteM pluginPage interval s).interval = interval from rfl,
      show (siteM pluginPage interval s).processTime = s.lastProcess from rfl,
      show (siteM pluginPage interval s).flushTime = s.lastFlush from rfl, statusError_amount hp hf, not_lt]
    constructor <;> intro h <;> linarith
  exact ⟨ok, s.lastFlush, s.lastProcess, f, p, e1, hf, hp, h3, h4, h5, hs, fun h => hs.2 (by linarith)⟩

/-- C115: the same on the configurable processor. -/
theorem C115_configurable (ops : PluginOps PF PM) (pre int : Str) (plugins : List PF) (w : World) (hw : ForwardClock w)
    (os : List Op) (pluginPage : PM → Option Response) (interval : ℤ) :
    let s := (runOps (configurable ops pre int) w (CPState.init ops plugins) os).1
    ∃ ok ft pt f p, (siteC pluginPage interval s).answer c!"GET" c!"/status" =
        ⟨if ok then 200 else 500, .status ok ft pt interval⟩ ∧ Amount ft f ∧ Amount pt p ∧
      0 ≤ f ∧ 0 ≤ p ∧ f + p ≤ w.clk s.ticks - w.clk 0 ∧ (ok = true ↔ p + f ≤ 700 * ((interval : ℚ) / 1000)) ∧
      (w.clk s.ticks - w.clk 0 ≤ 700 * ((interval : ℚ) / 1000) → ok = true) := by
  intro s
  obtain ⟨f, p, h1, h2, h3, h4, h5⟩ := (worked_cp ops pre int plugins hw os).shown
  obtain ⟨ok, e1, e2⟩ := C113_status (siteC pluginPage interval s) c!"/status" [] (path_plain ⟨rfl, by simp, by decide⟩)
  have hf := amount_of_val h1
  have hp := amount_of_val h2
  have hs : ok = true ↔ p + f ≤ 700 * ((interval : ℚ) / 1000) := by
    rw [e2]
    rw [show (siteC pluginPage interval s).interval = interval from rfl,
      show (siteC pluginPage interval s).processTime = s.lastProcess from rfl,
      show (siteC pluginPage interval s).flushTime = s.lastFlush from rfl, statusError_amount hp hf, not_lt]
    constructor <;> intro h <;> linarith
  exact ⟨ok, s.lastFlush, s.lastProcess, f, p, e1, hf, hp, h3, h4, h5, hs, fun h => hs.2 (by linarith)⟩

/-- C115: before the first flush the page shows two zeros, on either processor. -/
theorem C115_start (ops : PluginOps PF PM) (pre int : Str) (plugins : List PF) (w : World) (msgs : List Str) :
    (let s := (runOps (messageProcessor ops) w (MPState.init ops plugins) (msgs.map .msg)).1
     s.lastFlush = .int 0 ∧ s.lastProcess = .int 0) ∧
    (let s := (runOps (configurable ops pre int) w (CPState.init ops plugins) (msgs.map .msg)).1
     s.lastFlush = .int 0 ∧ s.lastProcess = .int 0) := by
  obtain ⟨a, b⟩ := runMsgs_last (mp_timed ops) w (MPState.init ops plugins) msgs
  obtain ⟨c, d⟩ := runMsgs_last (cp_timed ops pre int) w (CPState.init ops plugins) msgs
  exact ⟨⟨a, b⟩, ⟨c, d⟩⟩

end

section
attribute [local instance] ratRounding

example : ForwardClock exWorld := fun _ _ h => Nat.cast_le.2 h

example : ((siteM (fun _ => none) 10000
      (runOps (messageProcessor noPlugins) exWorld (MPState.init noPlugins []) [.msg c!"a:1|c", .flush 10000 90]).1).answer
        c!"GET" c!"/status").code = 200 := by decide +kernel
end

end Txstatsd
