import Verif.Spec.Files
import Verif.Lemmas.System
import Verif.Props.System

set_option linter.unusedSectionVars false
set_option linter.unusedSimpArgs false
set_option linter.unusedVariables false

namespace Txstatsd
open Spec

/-! ## Lines -/

theorem splitLines_unbroken {l : Str} (h : Unbroken l) (hl : l ≠ []) : splitLines l = [l] := by
  induction l with
  | nil => exact absurd rfl hl
  | cons c cs ih =>
    have h1 : c ≠ '\n' := fun e => h.1 (by simp [e])
    have h2 : c ≠ '\r' := fun e => h.2 (by simp [e])
    rw [splitLines, if_neg h1, if_neg h2]
    cases cs with
    | nil => rfl
    | cons d ds =>
      rw [ih ⟨fun e => h.1 (List.mem_cons_of_mem _ e), fun e => h.2 (List.mem_cons_of_mem _ e)⟩ (by simp)]

theorem splitLines_line {l s : Str} {ws : List Str} (h : Unbroken l) (hs : splitLines s = [] :: ws) :
    splitLines (l ++ s) = l :: ws := by
  induction l with
  | nil => exact hs
  | cons c cs ih =>
    have h1 : c ≠ '\n' := fun e => h.1 (by simp [e])
    have h2 : c ≠ '\r' := fun e => h.2 (by simp [e])
    rw [List.cons_append, splitLines, if_neg h1, if_neg h2,
      ih ⟨fun e => h.1 (List.mem_cons_of_mem _ e), fun e => h.2 (List.mem_cons_of_mem _ e)⟩]

theorem splitLines_of_textLines {s : Str} {ls : List Str} (h : TextLines s ls) : splitLines s = ls := by
  induction h with
  | empty => rfl
  | last l hl h => exact splitLines_unbroken h hl
  | line l e rest ls hl he _ ih =>
    rw [List.append_assoc]
    apply splitLines_line hl
    rcases he with rfl | rfl | ⟨rfl, hr⟩
    · simp [splitLines, ih]
    · simp [splitLines, ih]
    · simp [splitLines, ih, hr]

theorem textLines_exists (s : Str) : ∃ ls, TextLines s ls := by
  induction hn : s.length using Nat.strong_induction_on generalizing s with
  | _ n ih =>
    subst hn
    -- the first line end
    have key : ∀ s : Str, Unbroken s ∨ ∃ l c rest, s = l ++ c :: rest ∧ Unbroken l ∧ (c = '\n' ∨ c = '\r') := by
      intro s
      induction s with
      | nil => left; simp [Unbroken]
      | cons c cs ih =>
        by_cases hc : c = '\n' ∨ c = '\r'
        · exact Or.inr ⟨[], c, cs, rfl, by simp [Unbroken], hc⟩
        · rw [not_or] at hc
          rcases ih with h | ⟨l, d, rest, rfl, h, hd⟩
          · left
            simp only [Unbroken, List.mem_cons, not_or]
            exact ⟨⟨Ne.symm hc.1, h.1⟩, Ne.symm hc.2, h.2⟩
          · right
            refine ⟨c :: l, d, rest, rfl, ?_, hd⟩
            simp only [Unbroken, List.mem_cons, not_or]
            exact ⟨⟨Ne.symm hc.1, h.1⟩, Ne.symm hc.2, h.2⟩
    rcases key s with h | ⟨l, c, rest, rfl, h, hc⟩
    · by_cases hs : s = []
      · exact ⟨[], hs ▸ .empty⟩
      · exact ⟨[s], .last s hs h⟩
    · rcases hc with rfl | rfl
      · obtain ⟨ls, hls⟩ := ih rest.length (by simp; omega) rest rfl
        refine ⟨l :: ls, ?_⟩
        have := TextLines.line l ['\n'] rest ls h (Or.inl rfl) hls
        simpa using this
      · by_cases hr : rest.head? = some '\n'
        · cases rest with
          | nil => cases hr
          | cons d rest =>
            obtain rfl : d = '\n' := by simpa using hr
            obtain ⟨ls, hls⟩ := ih rest.length (by simp; omega) rest rfl
            refine ⟨l :: ls, ?_⟩
            have := TextLines.line l ['\r', '\n'] rest ls h (Or.inr (Or.inl rfl)) hls
            simpa using this
        · obtain ⟨ls, hls⟩ := ih rest.length (by simp; omega) rest rfl
          refine ⟨l :: ls, ?_⟩
          have := TextLines.line l ['\r'] rest ls h (Or.inr (Or.inr ⟨rfl, hr⟩)) hls
          simpa using this

theorem textLines_iff {s : Str} {ls : List Str} : TextLines s ls ↔ splitLines s = ls := by
  refine ⟨splitLines_of_textLines, fun h => ?_⟩
  obtain ⟨ls', h'⟩ := textLines_exists s
  rw [← h, splitLines_of_textLines h']
  exact h'

/-! ## Keys -/

theorem asNums_ok {V : Type} {f : V → Num} {x : Except PyErr (Dict V)} {r : Dict Num} (h : asNums f x = .ok r) :
    ∃ d, x = .ok d ∧ r = d.map fun p => (p.1, f p.2) := by
  cases x with
  | error e => cases h
  | ok d => exact ⟨d, rfl, by cases h; rfl⟩

theorem reportFile_ok {V : Type} {name : Str} {parser : Str → Except PyErr (Dict V)} {fs : Files} {r : Dict V}
    (h : reportFile name parser fs = .ok r) : ∃ text, fs name = some text ∧ parser text = .ok r := by
  unfold reportFile loadFile at h
  cases hf : fs name with
  | none => rw [hf] at h; cases h
  | some t => rw [hf] at h; exact ⟨t, rfl, h⟩

theorem foldl_put_keys {V : Type} (l : List (Str × V)) (d : Dict V) (k : Str) (h : k ∈ (l.foldl (fun d p => d.put p.1 p.2) d).keys) :
    k ∈ l.map Prod.fst ∨ k ∈ d.keys := by
  induction l generalizing d with
  | nil => exact Or.inr h
  | cons p l ih =>
    rcases ih _ h with h | h
    · left; simp only [List.map_cons, List.mem_cons]; exact Or.inr h
    · rw [Dict.mem_keys_put] at h
      rcases h with h | h
      · left; simp [h]
      · exact Or.inr h

theorem foldl_put_wf {V : Type} (l : List (Str × V)) (d : Dict V) (h : d.Wf) : (l.foldl (fun d p => d.put p.1 p.2) d).Wf := by
  induction l generalizing d with
  | nil => exact h
  | cons p l ih => exact ih _ (Dict.wf_put h _ _)

theorem memLoop_keys (pre : Str) : ∀ (lines : List Str) (r r' : Dict ℤ), memLoop pre r lines = .ok r' → ∀ k ∈ r'.keys,
    k ∈ r.keys ∨ (pre ++ c!".") <+: k
  | [], r, r', h, k, hk => by cases h; exact Or.inl hk
  | l :: ls, r, r', h, k, hk => by
    unfold memLoop at h
    split at h
    · cases h
    · exact memLoop_keys pre ls r r' h k hk
    · rename_i label amount _
      rcases memLoop_keys pre ls _ r' h k hk with h | h
      · rw [Dict.mem_keys_put] at h
        rcases h with rfl | h
        · exact Or.inr ⟨label, by simp⟩
        · exact Or.inl h
      · exact Or.inr h

theorem netEntries_keys {pre device : Str} {data : Dict ℤ} {es : List (Str × ℤ)} (h : netEntries pre device data = .ok es) :
    ∀ k ∈ es.map Prod.fst, ∃ s c, NetName s c ∧ k = pre ++ c!"." ++ device ++ s := by
  unfold netEntries at h
  cases h1 : getKey data c!"recv_bytes" with
  | error e => rw [h1] at h; cases h
  | ok a =>
    cases h2 : getKey data c!"send_bytes" with
    | error e => rw [h1, h2] at h; cases h
    | ok b =>
      cases h3 : getKey data c!"recv_packets" with
      | error e => rw [h1, h2, h3] at h; cases h
      | ok c =>
        cases h4 : getKey data c!"send_packets" with
        | error e => rw [h1, h2, h3, h4] at h; cases h
        | ok d =>
          rw [h1, h2, h3, h4] at h
          cases h
          intro k hk
          simp only [List.map_cons, List.map_nil, List.mem_cons, List.not_mem_nil, or_false] at hk
          rcases hk with rfl | rfl | rfl | rfl
          · exact ⟨_, _, .recvBytes, rfl⟩
          · exact ⟨_, _, .sendBytes, rfl⟩
          · exact ⟨_, _, .recvPackets, rfl⟩
          · exact ⟨_, _, .sendPackets, rfl⟩

theorem netLine_ok {pre : Str} {columns : List Str} {r r' : Dict ℤ} {line : Str} (h : netLine pre columns r line = .ok r') :
    (r.Wf → r'.Wf) ∧ ∀ k ∈ r'.keys, k ∈ r.keys ∨ ∃ dev nums s c, DeviceLine line dev nums ∧ NetName s c ∧ k = pre ++ c!"." ++ dev ++ s := by
  unfold netLine at h
  split at h
  · cases h; exact ⟨id, fun k hk => Or.inl hk⟩
  · rename_i device data hs
    split at h
    · cases h
    · rename_i zs hz
      split at h
      · cases h
      · rename_i es he
        cases h
        refine ⟨fun hw => foldl_put_wf es r hw, fun k hk => ?_⟩
        rcases foldl_put_keys es r k hk with h | h
        · right
          obtain ⟨s, c, h1, h2⟩ := netEntries_keys he k h
          refine ⟨strip device, zs, s, c, ?_, h1, h2⟩
          have hj := join_splitOn ':' line
          have hp := splitOn_parts ':' line
          rw [hs] at hj hp
          exact ⟨device, data, _, by rw [← hj]; simp [joinWith], hp device (by simp), hp data (by simp), strip_spec device, separated_iff.2 rfl, intsOf_iff.1 hz⟩
        · exact Or.inl h
  · cases h

theorem netLoop_ok {pre : Str} {columns : List Str} : ∀ (lines : List Str) (r r' : Dict ℤ), netLoop pre columns r lines = .ok r' →
    (r.Wf → r'.Wf) ∧ ∀ k ∈ r'.keys, k ∈ r.keys ∨ ∃ l ∈ lines, ∃ dev nums s c, DeviceLine l dev nums ∧ NetName s c ∧ k = pre ++ c!"." ++ dev ++ s
  | [], r, r', h => by cases h; exact ⟨id, fun k hk => Or.inl hk⟩
  | l :: ls, r, r', h => by
    unfold netLoop at h
    split at h
    · cases h
    · rename_i r1 h1
      obtain ⟨w1, k1⟩ := netLine_ok h1
      obtain ⟨w2, k2⟩ := netLoop_ok ls r1 r' h
      refine ⟨fun hw => w2 (w1 hw), fun k hk => ?_⟩
      rcases k2 k hk with h | ⟨l', hl', h⟩
      · rcases k1 k h with h | h
        · exact Or.inl h
        · exact Or.inr ⟨l, by simp, h⟩
      · exact Or.inr ⟨l', by simp [hl'], h⟩

theorem parseNetdev_ok {pre : Str} {lines : List Str} {r : Dict ℤ} (h : parseNetdev pre lines = .ok r) :
    r.Wf ∧ ∀ k ∈ r.keys, ∃ l ∈ lines.drop 2, ∃ dev nums s c, DeviceLine l dev nums ∧ NetName s c ∧ k = pre ++ c!"." ++ dev ++ s := by
  unfold parseNetdev at h
  split at h
  · split at h
    · cases h
    · rename_i header ls _ columns _
      obtain ⟨h1, h2⟩ := netLoop_ok ls [] r h
      refine ⟨h1 Dict.wf_nil, fun k hk => ?_⟩
      rcases h2 k hk with h | h
      · cases h
      · exact h
  · cases h

theorem diffs_keys [Rounding] (last : Dict Num) : ∀ (l : List (Str × Num)) (r out : Dict Num), diffs last r l = .ok out → ∀ k ∈ out.keys,
    k ∈ r.keys ∨ k ∈ l.map Prod.fst
  | [], r, out, h, k, hk => by cases h; exact Or.inl hk
  | (key, v) :: l, r, out, h, k, hk => by
    unfold diffs at h
    split at h
    · cases h
    · rcases diffs_keys last l _ out h k hk with h | h
      · rw [Dict.mem_keys_put] at h
        rcases h with rfl | h
        · right; simp
        · exact Or.inl h
      · right; simp only [List.map_cons, List.mem_cons]; exact Or.inr h

theorem next_keys [Rounding] (g : CounterGen) (x : Except PyErr (Dict Num)) (r : Dict Num) (h : (g.next x).2 = .ok r) (k : Str)
    (hk : k ∈ r.keys) : ∃ d, x = .ok d ∧ k ∈ d.keys := by
  unfold CounterGen.next at h
  split at h
  · cases h
  · split at h
    · cases h
    · rename_i new
      split at h
      · cases h; cases hk
      · split at h
        · cases h
        · rename_i out ho
          cases h
          rcases diffs_keys _ _ _ _ ho k hk with h | h
          · cases h
          · exact ⟨new, rfl, h⟩

theorem putModes_keys (pre : Str) (times : List (Str × Num)) (r : Dict Num) (k : Str) (h : k ∈ (putModes pre r times).keys) :
    k ∈ r.keys ∨ pre <+: k := by
  unfold putModes at h
  induction times generalizing r with
  | nil => exact Or.inl h
  | cons p ts ih =>
    rcases ih _ h with h | h
    · rw [Dict.mem_keys_put] at h
      rcases h with rfl | h
      · exact Or.inr ⟨p.1, rfl⟩
      · exact Or.inl h
    · exact Or.inr h

theorem netStat_keys (pre : Str) (cs : List (Bool × Str)) (r : Dict ℕ) (k : Str) (h : k ∈ (cs.foldl (netStat pre) r).keys) :
    k ∈ r.keys ∨ (pre ++ c!".") <+: k := by
  induction cs generalizing r with
  | nil => exact Or.inl h
  | cons c cs ih =>
    rcases ih _ h with h | h
    · unfold netStat at h
      split at h
      · have : k = pre ++ c!".status." ++ c.2.map lowerChar ∨ k ∈ r.keys := by
          dsimp only at h
          split at h <;> exact (Dict.mem_keys_put _ _ _ _).1 h
        rcases this with rfl | h
        · exact Or.inr ⟨c!"status." ++ c.2.map lowerChar, by simp⟩
        · exact Or.inl h
      · exact Or.inl h
    · exact Or.inr h

theorem dictZip_keys {V : Type} (keys : List Str) (vals : List V) (k : Str) (h : k ∈ (dictZip keys vals).keys) : k ∈ keys := by
  unfold dictZip at h
  rcases foldl_put_keys _ _ k h with h | h
  · obtain ⟨p, hp, rfl⟩ := List.mem_map.1 h
    exact (List.of_mem_zip hp).1
  · cases h

theorem asNums_keys {V : Type} {f : V → Num} {d : Dict V} : Dict.keys (d.map fun p => (p.1, f p.2)) = d.keys :=
  Dict.keys_map d fun _ v => f v

/-! ## Devices -/

theorem lastWith_any {α β : Type} (P : α → β → Prop) (lines : List α) (h : ∃ l ∈ lines, ∃ v, P l v) : ∃ v, LastWith P lines v := by
  classical
  induction lines with
  | nil => obtain ⟨l, hl, _⟩ := h; cases hl
  | cons a ls ih =>
    by_cases hls : ∃ l ∈ ls, ∃ v, P l v
    · obtain ⟨v, p, l, b, rfl, h1, h2⟩ := ih hls
      exact ⟨v, a :: p, l, b, rfl, h1, h2⟩
    · obtain ⟨l, hl, v, hv⟩ := h
      rcases List.mem_cons.1 hl with rfl | hl
      · exact ⟨v, [], l, ls, rfl, hv, fun l' hl' v' hv' => hls ⟨l', hl', v', hv'⟩⟩
      · exact absurd ⟨l, hl, v, hv⟩ hls

/-- What the code reads from such a text. -/
theorem netText_parse {text : Str} {columns lines : List Str} (h : NetText text columns lines) (pre : Str) :
    ∃ res, parseNetdev pre (splitLines text) = .ok res ∧ res.Wf ∧
      (∀ dev s c v, NetName s c → (res.find (pre ++ c!"." ++ dev ++ s) = some v ↔
          ∃ nums, LastWith (fun l nums => DeviceLine l dev nums) lines nums ∧ InColumn columns nums c v)) ∧
      (∀ k ∈ res.keys, ∃ dev s c, NetName s c ∧ k = pre ++ c!"." ++ dev ++ s ∧ ∃ l ∈ lines, ∃ nums, DeviceLine l dev nums) ∧
      (∀ dev s c, NetName s c → (∃ l ∈ lines, ∃ nums, DeviceLine l dev nums) → ∃ v, res.find (pre ++ c!"." ++ dev ++ s) = some v) := by
  obtain ⟨first, a, r, t, rs, ts, ht, ha, hr, htt, hrs, hts, hn, hn', hb, hp, hb', hp', rfl, hl⟩ := h
  obtain ⟨res, h1, h2⟩ := C89_netdev pre first a r t rs ts lines ha hr htt hrs hts hn hn' hb hp hb' hp' hl
  rw [splitLines_of_textLines ht]
  obtain ⟨h3, h4⟩ := parseNetdev_ok h1
  refine ⟨res, h1, h3, h2, fun k hk => ?_, fun dev s c hs hd => ?_⟩
  · obtain ⟨l, hl, dev, nums, s, c, g1, g2, g3⟩ := h4 k hk
    exact ⟨dev, s, c, g2, g3, l, by simpa using hl, nums, g1⟩
  · obtain ⟨nums, hlast⟩ := lastWith_any (fun l nums => DeviceLine l dev nums) lines hd
    have hcol : c ∈ rs.map (c!"recv_" ++ ·) ++ ts.map (c!"send_" ++ ·) := by
      rw [List.mem_append]
      cases hs
      · exact Or.inl (List.mem_map.mpr ⟨_, hb, rfl⟩)
      · exact Or.inr (List.mem_map.mpr ⟨_, hb', rfl⟩)
      · exact Or.inl (List.mem_map.mpr ⟨_, hp, rfl⟩)
      · exact Or.inr (List.mem_map.mpr ⟨_, hp', rfl⟩)
    obtain ⟨i, hi⟩ := List.mem_iff_getElem?.1 hcol
    have hlen : rs.length + ts.length ≤ nums.length := by
      obtain ⟨p, l, q, rfl, g1, g2⟩ := hlast
      rcases hl l (by simp) with h | ⟨d, ns, h, hle⟩
      · exact absurd (deviceLine_colon g1) h
      · rw [(deviceLine_unique g1 h).2]; exact hle
    have hil : i < nums.length := by
      have := (List.getElem?_eq_some_iff.1 hi).1
      simp only [List.length_append, List.length_map] at this
      omega
    exact ⟨nums[i], (h2 dev s c _ hs).2 ⟨nums, hlast, i, hi, List.getElem?_eq_getElem hil⟩⟩

theorem netText_unique {text : Str} {c1 c2 l1 l2 : List Str} (h1 : NetText text c1 l1) (h2 : NetText text c2 l2) : c1 = c2 ∧ l1 = l2 := by
  obtain ⟨f1, a1, r1, t1, rs1, ts1, ht1, ha1, hr1, htt1, hrs1, hts1, -, -, -, -, -, -, rfl, -⟩ := h1
  obtain ⟨f2, a2, r2, t2, rs2, ts2, ht2, ha2, hr2, htt2, hrs2, hts2, -, -, -, -, -, -, rfl, -⟩ := h2
  have e := splitLines_of_textLines ht1
  rw [splitLines_of_textLines ht2] at e
  simp only [List.cons.injEq] at e
  obtain ⟨-, e, rfl⟩ := e
  have := netColumns_spec ha1 hr1 htt1 hrs1 hts1
  rw [← e, netColumns_spec ha2 hr2 htt2 hrs2 hts2] at this
  exact ⟨(Except.ok.inj this).symm, rfl⟩

end Txstatsd
