import Verif.Lemmas.System
import Verif.Props.Histograms

/-!
# C72, C73, C89: reports about the system
-/

set_option linter.unusedVariables false

namespace Txstatsd
open Spec

section
variable [Rounding]

/-! ## C72: differences -/

/-- C72: the first report is empty. -/
theorem C72_first (d : Dict Num) : (({} : CounterGen).next (.ok d)).2 = .ok [] ∧
    (({} : CounterGen).next (.ok d)).1 = { last := some d } := ⟨rfl, rfl⟩

/-- C72: afterwards, if the reading has no key the previous one lacked, the report has exactly its keys, with
the difference to the previous reading. -/
theorem C72_difference (last new : Dict Num) (hn : new.Wf) (hk : ∀ k ∈ new.keys, k ∈ last.keys) :
    ∃ r, (({ last := some last } : CounterGen).next (.ok new)) = ({ last := some new }, .ok r) ∧
      ∀ k, r.find k = match new.find k, last.find k with
        | some v, some old => some (v.sub old)
        | _, _ => none := by
  obtain ⟨r, h1, h2⟩ := diffs_spec last new [] hn hk
  refine ⟨r, ?_, fun k => ?_⟩
  · unfold CounterGen.next
    simp [h1]
  · rw [h2]
    rcases hf : new.find k with _ | v
    · have hnone : List.find? (fun p : Str × Num => p.1 == k) new = none := by
        rw [List.find?_eq_none]
        intro p hp h
        rw [Dict.find_eq_none] at hf
        exact hf (List.mem_map.mpr ⟨p, hp, by simpa using h⟩)
      rw [hnone]
      rfl
    · have hkl := hk k (Dict.mem_keys_of_mem (Dict.mem_of_find hf))
      rw [← Dict.find_isSome_iff] at hkl
      rcases hl : last.find k with _ | old
      · rw [hl] at hkl; simp at hkl
      · have hsome : List.find? (fun p : Str × Num => p.1 == k) new = some (k, v) := by
          rcases hs : List.find? (fun p : Str × Num => p.1 == k) new with _ | p
          · rw [List.find?_eq_none] at hs
            exact absurd (by simp) (hs (k, v) (Dict.mem_of_find hf))
          · have hpk : p.1 = k := by simpa using List.find?_some hs
            have := Dict.find_of_mem hn (k := p.1) (v := p.2) (List.mem_of_find?_eq_some hs)
            rw [hpk, hf] at this
            cases this
            rw [← hpk]
        rw [hsome]
        rfl

/-- C72: over any run in which no reading has a key the previous one lacked, every report succeeds and the
reported differences of an integer counter sum to its last reading minus its first. -/
theorem C72_sum {k : Str} : ∀ (rs : List (Dict Num)) (r0 : Dict Num),
    List.IsChain (fun a b => ∀ k ∈ Dict.keys b, k ∈ Dict.keys a) (r0 :: rs) →
    (∀ r ∈ r0 :: rs, Dict.Wf r ∧ ∃ z, Dict.find r k = some (.int z)) →
    ∃ outs : List (Dict Num), ({} : CounterGen).run ((r0 :: rs).map .ok) = .ok [] :: outs.map .ok ∧
      (outs.map fun o => intAt o k).sum = intAt ((r0 :: rs).getLast (by simp)) k - intAt r0 k := by
  have key : ∀ (rs : List (Dict Num)) (r0 : Dict Num),
      List.IsChain (fun a b => ∀ k ∈ Dict.keys b, k ∈ Dict.keys a) (r0 :: rs) →
      (∀ r ∈ r0 :: rs, Dict.Wf r ∧ ∃ z, Dict.find r k = some (.int z)) →
      ∃ outs : List (Dict Num), ({ last := some r0 } : CounterGen).run (rs.map .ok) = outs.map .ok ∧
        (outs.map fun o => intAt o k).sum = intAt ((r0 :: rs).getLast (by simp)) k - intAt r0 k := by
    intro rs
    induction rs with
    | nil => intro r0 _ _; exact ⟨[], rfl, by simp⟩
    | cons r1 rs ih =>
      intro r0 hc hz
      rw [List.isChain_cons_cons] at hc
      obtain ⟨o, h1, h2⟩ := C72_difference r0 r1 (hz r1 (by simp)).1 hc.1
      obtain ⟨outs, h3, h4⟩ := ih r1 hc.2 fun r hr => hz r (by simp only [List.mem_cons] at hr ⊢; right; exact hr)
      refine ⟨o :: outs, ?_, ?_⟩
      · rw [List.map_cons, CounterGen.run, h1]
        simp only [List.map_cons]
        rw [h3]
      · obtain ⟨z0, hz0⟩ := (hz r0 (by simp)).2
        obtain ⟨z1, hz1⟩ := (hz r1 (by simp)).2
        have ho : intAt o k = z1 - z0 := by
          unfold intAt
          rw [h2, hz1, hz0]
          rfl
        rw [List.map_cons, List.sum_cons, h4, ho]
        have e1 : intAt r1 k = z1 := by unfold intAt; rw [hz1]
        have e0 : intAt r0 k = z0 := by unfold intAt; rw [hz0]
        have e : (r0 :: r1 :: rs).getLast (by simp) = (r1 :: rs).getLast (by simp) := rfl
        rw [e1, e0, e]
        ring
  intro rs r0 hc hz
  obtain ⟨outs, h1, h2⟩ := key rs r0 hc hz
  refine ⟨outs, ?_, h2⟩
  rw [List.map_cons, CounterGen.run]
  rw [show (({} : CounterGen).next (.ok r0)) = ({ last := some r0 }, .ok []) from rfl]
  simp only
  rw [h1]

/-- C72: a reading with a key the previous one lacked raises `KeyError`, and every later call raises
`StopIteration`, whatever the readings. -/
theorem C72_new_key (last new : Dict Num) {k : Str} (hk : k ∈ new.keys) (hl : k ∉ last.keys)
    (later : List (Except PyErr (Dict Num))) :
    ({ last := some last } : CounterGen).run (.ok new :: later)
      = .error .keyError :: later.map fun _ => .error .stopIteration := by
  have h : ({ last := some last } : CounterGen).next (.ok new)
      = ({ last := some last, dead := true }, .error .keyError) := by
    unfold CounterGen.next
    simp [diffs_new_key last new [] (k := k) hk hl]
  rw [CounterGen.run, h]
  simp only
  rw [run_dead _ rfl]

/-- C72: likewise one failure of the wrapped function is the last call that reaches it. -/
theorem C72_failure (last : Option (Dict Num)) (e : PyErr) (later : List (Except PyErr (Dict Num))) :
    ({ last := last } : CounterGen).run (.error e :: later)
      = .error e :: later.map fun _ => .error .stopIteration := by
  rw [CounterGen.run]
  have h : ({ last := last } : CounterGen).next (.error e) = ({ last := last, dead := true }, .error e) := rfl
  rw [h]
  simp only
  rw [run_dead _ rfl]

end

section
attribute [local instance] ratRounding

example : ({} : CounterGen).run [.ok [(c!"a", .int 5)], .ok [(c!"a", .int 7)], .ok [(c!"a", .int 12)]]
    = [.ok [], .ok [(c!"a", .int 2)], .ok [(c!"a", .int 5)]] := by rfl

example : ({} : CounterGen).run [.ok [(c!"a", .int 5)], .ok [(c!"a", .int 7), (c!"b", .int 1)],
      .ok [(c!"a", .int 12), (c!"b", .int 1)]]
    = [.ok [], .error .keyError, .error .stopIteration] := by rfl

end

/-! ## C73: /proc/meminfo and connections -/

/-- C73: if every line is about a known label, well formed, or about something else, the report has for each
known label the amount of its last line, in bytes, and nothing else. -/
theorem C73_meminfo (pre data : Str)
    (h : ∀ l ∈ splitOn '\n' data, OtherLine l ∨ ∃ label v, MemLine l label v) :
    ∃ r, parseMeminfo pre data = .ok r ∧
      (∀ label v, r.find (pre ++ c!"." ++ label) = some v ↔
        LastWith (fun l v => MemLine l label v) (splitOn '\n' data) v) ∧
      ∀ k ∈ r.keys, ∃ label ∈ memLabels, k = pre ++ c!"." ++ label := by
  obtain ⟨r, h1, h2, h3⟩ := memLoop_spec pre (splitOn '\n' data) [] h
  refine ⟨r, h1, fun label v => ?_, fun k hk => ?_⟩
  · rw [h2]
    simp
  · rcases h3 k hk with h | h
    · simp at h
    · exact h

theorem memEntry_fault {l : Str} {e : PyErr} (h : MemFault l e) : memEntry l = .error e := by
  have hkey : ∀ {label : Str}, label ∈ memLabels → label ++ c!":" ∈ meminfoKeys := by
    intro label h; rw [meminfoKeys_eq]; exact List.mem_map_of_mem h
  have hne : ∀ {l : Str} {w : Str} {ws : List Str}, fieldsOf (· == ' ') l = w :: ws → l ≠ [] := by
    rintro l w ws h rfl; rw [fieldsOf_nil] at h; cases h
  have hamt : ∀ {k n : Str} {rest : List Str}, (∀ z, ¬ Port n z) → memAmount (k :: n :: rest) = .error .valueError := by
    intro k n rest hz
    cases hp : parseInt n with
    | none => simp only [memAmount, hp]
    | some z =>
      have h1 : memAmount (k :: n :: rest) = .ok z := by simp only [memAmount, hp]
      obtain ⟨_, _, e, h⟩ := memAmount_ok.1 h1
      cases e
      exact absurd h (hz _)
  cases h with
  | blank h0 hb =>
    have : fieldsOf (· == ' ') l = [] := separated_space.1 (.blank _ hb)
    unfold memEntry; rw [if_neg h0, this]
  | bare label hl hs =>
    rw [separated_space] at hs
    unfold memEntry
    rw [if_neg (hne hs), hs]
    simp [hkey hl, memMultiple, memAmount]
  | unit label n u hl hs h1 h2 =>
    rw [separated_space] at hs
    unfold memEntry
    rw [if_neg (hne hs), hs]
    simp [hkey hl, memMultiple, multiplier, h1, h2]
  | number label n rest f hl hs hf hz =>
    rw [separated_space] at hs
    unfold memEntry
    rw [if_neg (hne hs), hs]
    simp [hkey hl, memMultiple_ok.2 hf, hamt hz]

/-- C73: the first line that cannot be read makes it fail, with its exception. -/
theorem C73_meminfo_error (pre data : Str) (a : List Str) (l : Str) (b : List Str) (hl : splitOn '\n' data = a ++ l :: b)
    (ha : ∀ l ∈ a, OtherLine l ∨ ∃ label v, MemLine l label v) (e : PyErr) (he : MemFault l e) :
    parseMeminfo pre data = .error e := by
  have key : ∀ (a : List Str) (r : Dict ℤ), (∀ l ∈ a, OtherLine l ∨ ∃ label v, MemLine l label v) →
      memLoop pre r (a ++ l :: b) = .error e := by
    intro a
    induction a with
    | nil => intro r _; simp [memLoop, memEntry_fault he]
    | cons x a ih =>
      intro r h
      rw [List.cons_append, memLoop]
      rcases h x (by simp) with hx | ⟨label, v, hx⟩
      · rw [memEntry_none.2 hx]; exact ih _ fun l hl => h l (by simp [hl])
      · rw [memEntry_some.2 hx]; exact ih _ fun l hl => h l (by simp [hl])
  unfold parseMeminfo
  rw [hl]
  exact key a [] ha

/-- C73: every line is of one of these sorts. -/
theorem C73_meminfo_lines (l : Str) : OtherLine l ∨ (∃ label v, MemLine l label v) ∨ ∃ e, MemFault l e := by
  by_cases h0 : l = []
  · exact Or.inl (Or.inl h0)
  obtain ⟨ws, hs⟩ : ∃ ws, Separated (· = ' ') l ws := ⟨_, separated_space.2 rfl⟩
  rcases ws with _ | ⟨k, ws⟩
  · refine Or.inr (Or.inr ⟨_, .blank l h0 ?_⟩)
    cases hs with
    | blank _ h => exact h
  · by_cases hk : ∃ label ∈ memLabels, k = label ++ c!":"
    · obtain ⟨label, hl, rfl⟩ := hk
      rcases ws with _ | ⟨n, rest⟩
      · exact Or.inr (Or.inr ⟨_, .bare l label hl hs⟩)
      · have hfac : (∃ f, Factor ((label ++ c!":") :: n :: rest) f) ∨ ∃ u, rest = [u] ∧ u ≠ c!"kB" ∧ u ≠ c!"mB" := by
          by_cases hlen : ((label ++ c!":") :: n :: rest).length = 3
          · rcases rest with _ | ⟨u, _ | ⟨u', rest⟩⟩ <;> simp at hlen
            by_cases h1 : u = c!"kB"
            · subst h1; exact Or.inl ⟨_, .kilo _ _⟩
            · by_cases h2 : u = c!"mB"
              · subst h2; exact Or.inl ⟨_, .mega _ _⟩
              · exact Or.inr ⟨u, rfl, h1, h2⟩
          · exact Or.inl ⟨_, .none _ hlen⟩
        rcases hfac with ⟨f, hf⟩ | ⟨u, rfl, h1, h2⟩
        · by_cases hz : ∃ z, Port n z
          · obtain ⟨z, hz⟩ := hz
            exact Or.inr (Or.inl ⟨label, z * f, hl, n, rest, z, f, hs, hf, hz, rfl⟩)
          · exact Or.inr (Or.inr ⟨_, .number l label n rest f hl hs hf (by simpa using hz)⟩)
        · exact Or.inr (Or.inr ⟨_, .unit l label n u hl hs h1 h2⟩)
    · exact Or.inl (Or.inr ⟨k, ws, hs, fun label hl e => hk ⟨label, hl, e⟩⟩)

/-- C73: each stream connection is counted once, under its status in lower case; statuses without one are not
reported. -/
theorem C73_connections (pre : Str) (conns : List (Bool × Str)) (status : Str) :
    (getNetStats pre (some conns)).find (pre ++ c!".status." ++ status)
      = (let n := (conns.filter fun c => c.1 = true ∧ c.2.map lowerChar = status).length
         if n = 0 then none else some n) := by
  have := netStats_find pre conns [] status
  unfold getNetStats
  simp only
  rw [this]
  simp

example : parseMeminfo c!"m" c!"MemTotal: 8 kB\nMemFree: x kB\nCached:\n" = .error .valueError := by decide +kernel
example : parseMeminfo c!"sys.mem" c!"MemTotal:  8 kB\nHuge: x\nMemFree: 3 mB\nCached: 7\n"
    = .ok [(c!"sys.mem.MemTotal", 8192), (c!"sys.mem.MemFree", 3145728), (c!"sys.mem.Cached", 7)] := by decide +kernel

example : MemLine c!"MemTotal:  8 kB" c!"MemTotal" 8192 :=
  ⟨by decide, c!"8", [c!"kB"], 8, 1024, separated_space.mpr (by decide), .kilo _ _, parseInt_iff.mp (by decide),
    by norm_num⟩

example : getNetStats c!"n" (some [(true, c!"ESTABLISHED"), (false, c!"X"), (true, c!"Established")])
    = [(c!"n.status.established", 2)] := by decide

/-! ## C89: /proc/loadavg and /proc/net/dev -/

section
variable [Rounding]

/-- C89: the first three words of `/proc/loadavg`, as floats, are the three averages. -/
theorem C89_loadavg (pre data a b c : Str) (rest : List Str) (x y z : PyFloat)
    (hs : Separated (fun c => isSpace c = true) data (a :: b :: c :: rest))
    (ha : parseFloat a = some x) (hb : parseFloat b = some y) (hc : parseFloat c = some z) :
    ∃ r, parseLoadavg pre data = .ok r ∧
      r.find (pre ++ c!".oneminute") = some x ∧ r.find (pre ++ c!".fiveminutes") = some y ∧
      r.find (pre ++ c!".fifthteenminutes") = some z ∧
      ∀ k ∈ r.keys, k = pre ++ c!".oneminute" ∨ k = pre ++ c!".fiveminutes" ∨ k = pre ++ c!".fifthteenminutes" := by
  have hne : ∀ a b : Str, a ≠ b → pre ++ a ≠ pre ++ b := fun a b h h' => h (List.append_cancel_left h')
  have hnd : [pre ++ c!".oneminute", pre ++ c!".fiveminutes", pre ++ c!".fifthteenminutes"].Nodup := by
    simp
  refine ⟨dictZip [pre ++ c!".oneminute", pre ++ c!".fiveminutes", pre ++ c!".fifthteenminutes"] [x, y, z], ?_,
    dictZip_find hnd (i := 0) rfl rfl, dictZip_find hnd (i := 1) rfl rfl, dictZip_find hnd (i := 2) rfl rfl, ?_⟩
  · unfold parseLoadavg
    rw [fieldsOf_of_separated hs]
    simp only [List.take_succ_cons, List.take_zero, floatsOf, ha, hb, hc]
  · intro k hk
    rw [← Dict.find_isSome_iff, Option.isSome_iff_exists] at hk
    obtain ⟨v, hv⟩ := hk
    obtain ⟨i, hi, -⟩ := dictZip_inv hnd hv
    have := List.mem_of_getElem? hi
    simpa using this

/-- C89: a first, second or third word that is no float makes it fail. -/
theorem C89_loadavg_error (pre data w : Str) (ws : List Str)
    (hs : Separated (fun c => isSpace c = true) data ws) (hw : w ∈ ws.take 3) (hf : parseFloat w = none) :
    parseLoadavg pre data = .error .valueError := by
  unfold parseLoadavg
  rw [fieldsOf_of_separated hs]
  have : ∀ l : List Str, w ∈ l → floatsOf l = .error .valueError := by
    intro l
    induction l with
    | nil => simp
    | cons y l ih =>
      intro h
      rw [floatsOf]
      rcases List.mem_cons.mp h with rfl | h
      · rw [hf]
      · split
        · rfl
        · rw [ih h]
  rw [this _ hw]

end

/-- C89: with a header of three parts, no column named twice and the four needed ones among them, and device
lines with a number in each column, the report has for each device the numbers of its last line. -/
theorem C89_netdev (pre first a r t : Str) (rs ts lines : List Str)
    (ha : '|' ∉ a) (hr : '|' ∉ r) (ht : '|' ∉ t)
    (hrs : Separated (fun c => isSpace c = true) r rs) (hts : Separated (fun c => isSpace c = true) t ts)
    (hn : rs.Nodup) (hn' : ts.Nodup) (hb : c!"bytes" ∈ rs) (hp : c!"packets" ∈ rs) (hb' : c!"bytes" ∈ ts)
    (hp' : c!"packets" ∈ ts)
    (hl : ∀ l ∈ lines, ':' ∉ l ∨ ∃ dev nums, DeviceLine l dev nums ∧ rs.length + ts.length ≤ nums.length) :
    ∃ res, parseNetdev pre (first :: (a ++ '|' :: (r ++ '|' :: t)) :: lines) = .ok res ∧
      ∀ dev suffix column v, NetName suffix column →
        (res.find (pre ++ c!"." ++ dev ++ suffix) = some v ↔
          ∃ nums, LastWith (fun l nums => DeviceLine l dev nums) lines nums ∧
            InColumn (rs.map (c!"recv_" ++ ·) ++ ts.map (c!"send_" ++ ·)) nums column v) := by
  have hnd : (rs.map (c!"recv_" ++ ·) ++ ts.map (c!"send_" ++ ·)).Nodup := by
    rw [List.nodup_append]
    refine ⟨hn.map fun x y h => List.append_cancel_left h, hn'.map fun x y h => List.append_cancel_left h, ?_⟩
    rintro x hx y hy rfl
    obtain ⟨u, -, hu⟩ := List.mem_map.mp hx
    obtain ⟨w, -, hw⟩ := List.mem_map.mp hy
    rw [← hw] at hu
    simp at hu
  have hcols : ∀ s c, NetName s c → c ∈ rs.map (c!"recv_" ++ ·) ++ ts.map (c!"send_" ++ ·) := by
    intro s c h
    rw [List.mem_append]
    cases h
    · exact Or.inl (List.mem_map.mpr ⟨_, hb, rfl⟩)
    · exact Or.inr (List.mem_map.mpr ⟨_, hb', rfl⟩)
    · exact Or.inl (List.mem_map.mpr ⟨_, hp, rfl⟩)
    · exact Or.inr (List.mem_map.mpr ⟨_, hp', rfl⟩)
  obtain ⟨res, h1, h2⟩ := netLoop_spec pre hnd hcols lines [] fun l hl' => by
    simpa [List.length_append] using hl l hl'
  refine ⟨res, ?_, fun dev s c v hs => ?_⟩
  · rw [parseNetdev, netColumns_spec ha hr ht hrs hts]
    exact h1
  · have := h2 dev s c v hs
    simpa using this

/-- C89: a line with two colons (an interface alias) makes the whole report fail. -/
theorem C89_netdev_alias (pre : Str) (columns : List Str) (r : Dict ℤ) (a b c : Str) (ha : ':' ∉ a) (hb : ':' ∉ b)
    (hc : ':' ∉ c) : netLine pre columns r (a ++ ':' :: (b ++ ':' :: c)) = .error .valueError := by
  unfold netLine
  rw [splitOn_append ha, splitOn_append hb, splitOn_of_not_mem hc]

/-- C89: exactly when it fails, and with which exception: too few lines, a header that is not of three parts, or a first line with a
fault. -/
theorem C89_netdev_error (pre : Str) (lines : List Str) (e : PyErr) : parseNetdev pre lines = .error e ↔ NetError lines e := by
  rcases lines with _ | ⟨first, _ | ⟨header, rest⟩⟩
  · constructor
    · intro h; cases h; exact .short _ (by simp)
    · intro h
      cases h
      rfl
  · constructor
    · intro h; cases h; exact .short _ (by simp)
    · intro h
      cases h
      rfl
  · rw [parseNetdev]
    rcases netColumns_cases header with ⟨columns, hh, hc⟩ | ⟨hn, hc⟩
    · rw [hc]
      simp only
      rw [netLoop_error]
      constructor
      · rintro ⟨a, l, b, rfl, h1, h2⟩
        exact .line _ _ _ a l b e hh h1 h2
      · intro h
        cases h with
        | short _ h => simp only [List.length_cons] at h; omega
        | header _ _ _ h => exact absurd (headerLine_count hh).1 h
        | line _ _ columns' a l b _ hh' h1 h2 =>
          have := (headerLine_count hh').2
          rw [hc] at this
          cases this
          exact ⟨a, l, b, rfl, h1, h2⟩
    · rw [hc]
      constructor
      · intro h; cases h; exact .header _ _ _ hn
      · intro h
        cases h with
        | short _ h => simp only [List.length_cons] at h; omega
        | header _ _ _ h => rfl
        | line _ _ columns' a l b _ hh' h1 h2 => exact absurd (headerLine_count hh').1 hn

example : NetError [c!"Inter-| x | y", c!" face |bytes packets|bytes packets", c!" lo: 1 2 3 4", c!"eth0: 1 2 3", c!"x:y:z"] .keyError := by
  rw [← C89_netdev_error c!"sys.net"]; decide +kernel
example : parseNetdev c!"sys.net" [c!"Inter-| x | y", c!" face |bytes packets|bytes packets", c!" lo: 1 2 3 4", c!""]
    = .ok [(c!"sys.net.lo.bytes.received", 1), (c!"sys.net.lo.bytes.sent", 3), (c!"sys.net.lo.packets.received", 2),
      (c!"sys.net.lo.packets.sent", 4)] := by decide +kernel

section
attribute [local instance] ratRounding

example : parseLoadavg c!"l" c!"0.5 1 2 3/4 5\n"
    = .ok [(c!"l.oneminute", .fin (1 / 2)), (c!"l.fiveminutes", .fin 1), (c!"l.fifthteenminutes", .fin 2)] := by
  decide +kernel

end

end Txstatsd
