import Verif.Lemmas.Process
import Verif.Spec.Came

set_option linter.unusedSectionVars false
set_option linter.unusedSimpArgs false
set_option linter.unusedVariables false

namespace Txstatsd

/-- Uninterrupted visit of the entries of a dict: each entry is replaced (`f`) and yields (`g`), up to
the first error. -/
def runElems {V : Type} (f : Str → V → V) (g : Str → V → VisitResult) :
    Dict V → Dict V × List (List Datapoint) × Option PyErr
  | [] => ([], [], none)
  | (k, v) :: rest =>
    match g k v with
    | .error e => ((k, f k v) :: rest, [], some e)
    | .ok o =>
      let r := runElems f g rest
      ((k, f k v) :: r.1, o.toList ++ r.2.1, r.2.2)

/-- A way to view and update a dict inside a state. -/
structure Lens (S V : Type) where
  get : S → Dict V
  set : S → Dict V → S
  get_set : ∀ s d, get (set s d) = d
  set_set : ∀ s d d', set (set s d) d' = set s d'
  set_get : ∀ s, set s (get s) = s

theorem runVisits_lens {S V : Type} (L : Lens S V) (visit : S → Nat → S × VisitResult)
    (f : Str → V → V) (g : Str → V → VisitResult)
    (hv : ∀ s i k v, (L.get s)[i]? = some (k, v) →
      visit s i = (L.set s (Dict.put (L.get s) k (f k v)), g k v))
    (rest pre : Dict V) (s : S) (hs : L.get s = pre ++ rest) (hd : Dict.Wf (L.get s)) :
    runVisits visit (List.range' pre.length rest.length) s =
      (L.set s (pre ++ (runElems f g rest).1), (runElems f g rest).2.1, (runElems f g rest).2.2) := by
  induction rest generalizing pre s with
  | nil =>
    simp only [List.length_nil, List.range'_zero, runVisits, runElems, List.append_nil]
    simp only [List.append_nil] at hs
    rw [← hs, L.set_get]
  | cons p rest ih =>
    obtain ⟨k, v⟩ := p
    have hk : (L.get s)[pre.length]? = some (k, v) := by rw [hs]; simp
    have hnp : k ∉ Dict.keys pre := by
      rw [hs] at hd
      simp only [Dict.Wf, Dict.keys_append, Dict.keys_cons, List.nodup_append] at hd
      intro h; exact hd.2.2 k h k (by simp) rfl
    have hput : Dict.put (L.get s) k (f k v) = pre ++ (k, f k v) :: rest := by
      rw [hs]; exact Dict.put_append v (f k v) hnp
    simp only [List.length_cons, List.range'_succ, runVisits, hv s _ k v hk, runElems]
    cases hg : g k v with
    | error e => simp only [hput]
    | ok o =>
      have hs' : L.get (L.set s (Dict.put (L.get s) k (f k v))) = (pre ++ [(k, f k v)]) ++ rest := by
        rw [L.get_set, hput]; simp
      have hd' : Dict.Wf (L.get (L.set s (Dict.put (L.get s) k (f k v)))) := by
        rw [L.get_set]; exact Dict.wf_put hd _ _
      have hlen : pre.length + 1 = (pre ++ [(k, f k v)]).length := by simp
      simp only [hlen]
      rw [ih (pre ++ [(k, f k v)]) _ hs' hd']
      simp only [L.set_set, List.append_assoc, List.singleton_append]

theorem runVisits_lens_range {S V : Type} (L : Lens S V) (visit : S → Nat → S × VisitResult)
    (f : Str → V → V) (g : Str → V → VisitResult)
    (hv : ∀ s i k v, (L.get s)[i]? = some (k, v) →
      visit s i = (L.set s (Dict.put (L.get s) k (f k v)), g k v))
    (s : S) (hd : Dict.Wf (L.get s)) :
    runVisits visit (List.range (L.get s).length) s =
      (L.set s (runElems f g (L.get s)).1, (runElems f g (L.get s)).2.1, (runElems f g (L.get s)).2.2) := by
  have := runVisits_lens L visit f g hv (L.get s) [] s rfl hd
  simpa [List.range_eq_range'] using this

theorem runElems_ok {V : Type} (f : Str → V → V) (g : Str → V → VisitResult) (h : Str → V → Option (List Datapoint))
    (d : Dict V) (hg : ∀ p ∈ d, g p.1 p.2 = .ok (h p.1 p.2)) :
    runElems f g d = (d.map fun p => (p.1, f p.1 p.2), d.filterMap fun p => h p.1 p.2, none) := by
  induction d with
  | nil => rfl
  | cons p rest ih =>
    obtain ⟨k, v⟩ := p
    have h1 := hg (k, v) (by simp)
    simp only at h1
    rw [runElems, h1]
    simp only [ih (fun q hq => hg q (by simp [hq])), List.map_cons, List.filterMap_cons]
    cases h k v <;> simp

theorem runElems_keys {V : Type} (f : Str → V → V) (g : Str → V → VisitResult) (d : Dict V) :
    Dict.keys (runElems f g d).1 = Dict.keys d := by
  induction d with
  | nil => rfl
  | cons p rest ih =>
    obtain ⟨k, v⟩ := p
    rw [runElems]; cases g k v <;> simp [ih]

section
variable [Rounding] {C T G PF PM : Type}

/-- The dicts of a processor as lenses. -/
def lensCounters : Lens (PS C T G PF PM) C :=
  ⟨fun s => s.counters, fun s d => { s with counters := d }, fun _ _ => rfl, fun _ _ _ => rfl, fun _ => rfl⟩
def lensTimers : Lens (PS C T G PF PM) T :=
  ⟨fun s => s.timers, fun s d => { s with timers := d }, fun _ _ => rfl, fun _ _ _ => rfl, fun _ => rfl⟩
def lensMeters : Lens (PS C T G PF PM) Meter :=
  ⟨fun s => s.meters, fun s d => { s with meters := d }, fun _ _ => rfl, fun _ _ _ => rfl, fun _ => rfl⟩

/-- The group of a counter. -/
def counterGroup (interval ts : ℤ) (key : Str) (count : Num) : VisitResult :=
  match count.divInt interval with
  | .error e => .error e
  | .ok value => .ok (some [⟨c!"stats." ++ key, value, ts⟩, ⟨c!"stats_counts." ++ key, count, ts⟩])

theorem run_counters (interval ts : ℤ) (s : MPState PF PM) (hd : Dict.Wf s.counters) :
    runVisits (counterVisit interval ts) (List.range s.counters.length) s =
      let r := runElems (fun _ _ => Num.int 0) (counterGroup interval ts) s.counters
      ({ s with counters := r.1 }, r.2.1, r.2.2) := by
  have := runVisits_lens_range (lensCounters (C := Num) (T := List PyFloat) (G := List (PyFloat × Str))
    (PF := PF) (PM := PM)) (counterVisit interval ts) (fun _ _ => Num.int 0) (counterGroup interval ts)
    (by
      intro s i k v h
      have h' : s.counters[i]? = some (k, v) := h
      simp only [counterVisit, h', counterGroup]
      cases v.divInt interval <;> rfl) s hd
  exact this

/-- What visiting a timer leaves and yields. -/
def timerGroup (percent ts : ℤ) (key : Str) (timers : List PyFloat) : VisitResult :=
  if timers.length > 0 then
    let sorted := sortFloats timers
    let lower := sorted.headD (.fin 0)
    let upper := sorted.getLastD (.fin 0)
    match timerThreshold percent sorted lower upper with
    | .error e => .error e
    | .ok (mean, tu) =>
      let pre := c!"stats.timers." ++ key
      .ok (some [⟨pre ++ c!".count", .int timers.length, ts⟩,
                 ⟨pre ++ c!".lower", .flt lower, ts⟩,
                 ⟨pre ++ c!".mean", .flt mean, ts⟩,
                 ⟨pre ++ c!".upper", .flt upper, ts⟩,
                 ⟨pre ++ c!".upper_" ++ intStr percent, .flt tu, ts⟩])
  else .ok none

theorem run_timers (percent ts : ℤ) (s : MPState PF PM) (hd : Dict.Wf s.timers) :
    runVisits (timerVisit percent ts) (List.range s.timers.length) s =
      let r := runElems (fun _ _ => []) (timerGroup percent ts) s.timers
      ({ s with timers := r.1 }, r.2.1, r.2.2) := by
  -- the visit does not touch an empty timer, which is the same as storing `[]`; wellformedness is needed
  -- for that, so the lens lemma is applied to the visit restricted to well-formed states
  have key : ∀ (s : MPState PF PM) i k v, Dict.Wf s.timers → s.timers[i]? = some (k, v) →
      timerVisit percent ts s i = ({ s with timers := s.timers.put k [] }, timerGroup percent ts k v) := by
    intro s i k v hw h
    simp only [timerVisit, h, timerGroup]
    split_ifs with hl
    · cases timerThreshold percent (sortFloats v) ((sortFloats v).headD (.fin 0))
        ((sortFloats v).getLastD (.fin 0)) <;> rfl
    · have hv : v = [] := by
        cases v with
        | nil => rfl
        | cons a b => simp at hl
      subst hv
      have hm : (k, []) ∈ s.timers := List.mem_of_getElem? h
      rw [Dict.put_same (Dict.find_of_mem hw hm)]
  let visit' : MPState PF PM → Nat → MPState PF PM × VisitResult := fun s i =>
    match s.timers[i]? with
    | none => (s, .ok none)
    | some (k, v) => ({ s with timers := s.timers.put k [] }, timerGroup percent ts k v)
  have h1 : ∀ (is : List Nat) (s : MPState PF PM), Dict.Wf s.timers →
      runVisits (timerVisit percent ts) is s = runVisits visit' is s := by
    intro is
    induction is with
    | nil => intros; rfl
    | cons i is ih =>
      intro s hw
      cases h : s.timers[i]? with
      | none =>
        have e1 : timerVisit percent ts s i = (s, .ok none) := by simp only [timerVisit, h]
        have e2 : visit' s i = (s, .ok none) := by simp only [visit', h]
        simp only [runVisits, e1, e2, ih s hw]
      | some p =>
        obtain ⟨k, v⟩ := p
        have e2 : visit' s i = ({ s with timers := s.timers.put k [] }, timerGroup percent ts k v) := by
          simp only [visit', h]
        simp only [runVisits, key s i k v hw h, e2]
        cases timerGroup percent ts k v with
        | error e => rfl
        | ok o => simp only; rw [ih _ (by exact Dict.wf_put hw _ _)]
  rw [h1 _ _ hd]
  exact runVisits_lens_range (lensTimers (C := Num) (T := List PyFloat) (G := List (PyFloat × Str))
    (PF := PF) (PM := PM)) visit' (fun _ _ => []) (timerGroup percent ts)
    (by
      intro s i k v h
      have h' : s.timers[i]? = some (k, v) := h
      simp only [visit', h']; rfl) s hd

theorem run_meters (ts : ℤ) (s : PS C T G PF PM) (hd : Dict.Wf s.meters) :
    runVisits (meterVisit ts) (List.range s.meters.length) s =
      let r := runElems (fun _ m => (m.report ts).1) (fun _ m => (m.report ts).2.map some) s.meters
      ({ s with meters := r.1 }, r.2.1, r.2.2) := by
  exact runVisits_lens_range lensMeters (meterVisit ts) (fun _ m => (m.report ts).1)
    (fun _ m => (m.report ts).2.map some)
    (by
      intro s i k v h
      have h' : s.meters[i]? = some (k, v) := h
      simp only [meterVisit, h']; rfl) s hd

/-- The gauge phase. -/
theorem run_gauges_aux (ts : ℤ) (s : MPState PF PM) (pre rest : List (PyFloat × Str))
    (hs : s.gauges = pre ++ rest) :
    runVisits (gaugeVisit ts) (List.range' pre.length rest.length) s =
      (s, rest.map fun p => [⟨c!"stats.gauge." ++ p.2 ++ c!".value", Num.flt p.1, ts⟩], none) := by
  induction rest generalizing pre with
  | nil => simp [runVisits]
  | cons p rest ih =>
    obtain ⟨v, k⟩ := p
    have hk : s.gauges[pre.length]? = some (v, k) := by rw [hs]; simp
    have hlen : pre.length + 1 = (pre ++ [(v, k)]).length := by simp
    simp only [List.length_cons, List.range'_succ, runVisits, gaugeVisit, hk, hlen]
    rw [ih (pre ++ [(v, k)]) (by simp [hs])]
    simp

theorem run_gauges (ts : ℤ) (s : MPState PF PM) :
    runVisits (gaugeVisit ts) (List.range s.gauges.length) s =
      (s, s.gauges.map fun p => [⟨c!"stats.gauge." ++ p.2 ++ c!".value", Num.flt p.1, ts⟩], none) := by
  have := run_gauges_aux ts s [] s.gauges rfl
  simpa [List.range_eq_range'] using this

omit [Rounding] in
theorem Dict.mem_put {V : Type} {d : Dict V} {k : Str} {v : V} {p : Str × V} (h : p ∈ d.put k v) :
    p = (k, v) ∨ p ∈ d := by
  induction d with
  | nil => simp [Dict.put] at h; exact Or.inl h
  | cons q rest ih =>
    obtain ⟨k', v'⟩ := q
    rw [Dict.put] at h
    split_ifs at h with h1
    · rcases List.mem_cons.1 h with h | h
      · left; rw [h, h1]
      · right; exact List.mem_cons_of_mem _ h
    · rcases List.mem_cons.1 h with h | h
      · right; rw [h]; simp
      · rcases ih h with h | h
        · exact Or.inl h
        · right; exact List.mem_cons_of_mem _ h

/-- Visits never change the size of what is iterated; the plugin phase yields one group per metric. -/
theorem run_plugins_aux (I : Impl C T G PF PM) (w : World) (interval ts : ℤ) (n i : Nat)
    (s : PS C T G PF PM) (hd : Dict.Wf s.pluginMetrics) (hn : i + n = s.pluginMetrics.length) :
    ∃ tk pm gs e, runVisits (pluginVisit I w interval ts) (List.range' i n) s =
      ({ s with ticks := tk, pluginMetrics := pm }, gs, e) ∧ Dict.keys pm = s.pluginMetrics.keys ∧
      (e = none → gs.length = n) ∧
      (∀ gr ∈ gs, ∃ t m, (I.ops.flush w t m interval ts).2.2 = .ok gr) ∧
      ∀ pre : Str → Str, (∀ p ∈ s.pluginMetrics, Came I.ops pre p.1 p.2) → (∀ p ∈ pm, Came I.ops pre p.1 p.2) ∧
        ∀ gr ∈ gs, ∃ t k m, Came I.ops pre k m ∧ (I.ops.flush w t m interval ts).2.2 = .ok gr := by
  induction n generalizing i s with
  | zero => exact ⟨s.ticks, s.pluginMetrics, [], none, rfl, rfl, fun _ => rfl, by simp, fun _ h => ⟨h, by simp⟩⟩
  | succ n ih =>
    have hlt : i < s.pluginMetrics.length := by omega
    cases h : s.pluginMetrics[i]? with
    | none => rw [List.getElem?_eq_none_iff] at h; omega
    | some p =>
      obtain ⟨k, m⟩ := p
      have hmem : (k, m) ∈ s.pluginMetrics := List.mem_of_getElem? h
      have hkk : k ∈ s.pluginMetrics.keys := Dict.mem_keys_of_mem hmem
      rcases hfl : I.ops.flush w s.ticks m interval ts with ⟨m', nn, r⟩
      simp only [List.range'_succ, runVisits, pluginVisit, h, hfl]
      have hkeys : ∀ v, Dict.keys (Dict.put s.pluginMetrics k v) = s.pluginMetrics.keys := by
        intro v; rw [Dict.keys_put, if_pos hkk]
      have hcame : ∀ pre : Str → Str, (∀ p ∈ s.pluginMetrics, Came I.ops pre p.1 p.2) →
          ∀ p ∈ Dict.put s.pluginMetrics k m', Came I.ops pre p.1 p.2 := by
        intro pre h p hp
        rcases Dict.mem_put hp with rfl | hp
        · have := Came.flushed w s.ticks interval ts (h _ hmem)
          rw [hfl] at this; exact this
        · exact h p hp
      cases r with
      | error e => exact ⟨_, _, [], some e, rfl, hkeys m', fun h => by simp at h, by simp, fun pre h => ⟨hcame pre h, by simp⟩⟩
      | ok o =>
        simp only [Except.map]
        have hl' : (i + 1) + n = (Dict.put s.pluginMetrics k m').length := by
          rw [Dict.length_put, if_pos hkk]; omega
        obtain ⟨tk, pm, gs, e, he, hk', hlen, hgr, hcm⟩ := ih (i + 1)
          { s with ticks := s.ticks + nn, pluginMetrics := s.pluginMetrics.put k m' }
          (Dict.wf_put hd _ _) hl'
        rw [he]
        refine ⟨tk, pm, o :: gs, e, rfl, hk'.trans (hkeys m'), fun h => ?_, ?_, fun pre h => ⟨(hcm pre (hcame pre h)).1, ?_⟩⟩
        · simp [hlen h]
        · intro gr h
          rcases List.mem_cons.1 h with rfl | h
          · exact ⟨s.ticks, m, by rw [hfl]⟩
          · exact hgr gr h
        · intro gr hg
          rcases List.mem_cons.1 hg with rfl | hg
          · exact ⟨s.ticks, k, m, h _ hmem, by rw [hfl]⟩
          · exact (hcm pre (hcame pre h)).2 gr hg

end
end Txstatsd
