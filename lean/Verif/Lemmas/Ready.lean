import Verif.Spec.Ready
import Verif.Lemmas.Client
import Mathlib.Data.List.Induction

set_option linter.unusedSectionVars false
set_option linter.unusedSimpArgs false
set_option linter.unusedVariables false

/-!
# Routers that wait for their redirects
-/

namespace Txstatsd
open Spec
namespace RouterReady

/-! ## The waiting -/

theorem advance_range (f : Nat → Bool) (m : Nat) : ∀ k, (∀ i < k, f i = true) →
    ((advance f (List.range' k m)).1 = none → (advance f (List.range' k m)).2 = [] ∧ ∀ i < k + m, f i = true) ∧
    (∀ j, (advance f (List.range' k m)).1 = some j → j < k + m ∧ f j = false ∧
      (advance f (List.range' k m)).2 = List.range' (j + 1) (k + m - (j + 1)) ∧ ∀ i < j, f i = true) := by
  induction m with
  | zero =>
    intro k hk
    refine ⟨fun _ => ⟨rfl, hk⟩, fun j hj => ?_⟩
    cases hj
  | succ m ih =>
    intro k hk
    rw [List.range'_succ]
    unfold advance
    by_cases h : f k = true
    · rw [if_pos h]
      have := ih (k + 1) (fun i hi => by
        rcases Nat.lt_succ_iff_lt_or_eq.1 hi with h' | h'
        · exact hk i h'
        · rw [h']; exact h)
      rw [show k + 1 + m = k + (m + 1) by omega] at this
      exact this
    · rw [if_neg h]
      refine ⟨fun h' => (by cases h'), fun j hj => ?_⟩
      simp only [Option.some.injEq] at hj
      subst hj
      refine ⟨by omega, by simpa using h, ?_, hk⟩
      rw [show k + (m + 1) - (k + 1) = m by omega]

/-- What `ready` waits for: the first Deferred that has not fired. -/
structure Waits (r : RouterReady) : Prop where
  rest : r.waiting = none → r.callbacks = [] ∧ ∀ i < r.redirects.length, r.hasFired i = true
  held : ∀ j, r.waiting = some j → j < r.redirects.length ∧ r.hasFired j = false ∧
    r.callbacks = List.range' (j + 1) (r.redirects.length - (j + 1)) ∧ ∀ i < j, r.hasFired i = true

theorem settle_waits {r : RouterReady} (hw : r.waiting = none) {k : Nat} (hk : k ≤ r.redirects.length)
    (hc : r.callbacks = List.range' k (r.redirects.length - k)) (hf : ∀ i < k, r.hasFired i = true) : Waits r.settle := by
  have h := advance_range r.hasFired (r.redirects.length - k) k hf
  rw [← hc, show k + (r.redirects.length - k) = r.redirects.length by omega] at h
  have e : r.settle = { r with waiting := (advance r.hasFired r.callbacks).1, callbacks := (advance r.hasFired r.callbacks).2 } := by
    unfold settle; rw [hw]
  rw [e]
  exact ⟨h.1, h.2⟩

theorem settle_redirects (r : RouterReady) : r.settle.redirects = r.redirects := by
  unfold settle; split <;> rfl

theorem settle_called (r : RouterReady) : r.settle.alreadyCalled = r.alreadyCalled := by
  unfold settle; split <;> rfl

theorem hasFired_of {r s : RouterReady} (h : r.redirects = s.redirects) : r.hasFired = s.hasFired := by
  funext i; unfold hasFired; rw [h]

theorem waits_congr {r s : RouterReady} (h : Waits r) (hl : s.redirects.length = r.redirects.length) (hf : s.hasFired = r.hasFired)
    (hw : s.waiting = r.waiting) (hc : s.callbacks = r.callbacks) : Waits s := by
  refine ⟨fun h' => ?_, fun j hj => ?_⟩
  · rw [hw] at h'; rw [hc, hl, hf]; exact h.rest h'
  · rw [hw] at hj; rw [hc, hl, hf]; exact h.held j hj

theorem add_waits {r : RouterReady} (h : Waits r) (d : RedirectWait) : Waits (r.add d) := by
  have hf : ∀ x : RouterReady, x.redirects = r.redirects ++ [d] → ∀ i < r.redirects.length, x.hasFired i = r.hasFired i := by
    intro x hx i hi
    unfold hasFired
    rw [hx, List.getElem?_append_left hi]
  have hcase : r.waiting = none ∨ ∃ j, r.waiting = some j := by cases r.waiting <;> simp
  rcases hcase with hw | ⟨j, hw⟩
  · obtain ⟨h1, h2⟩ := h.rest hw
    apply settle_waits (k := r.redirects.length)
    · exact hw
    · simp
    · simp [h1]
    · intro i hi; rw [hf _ rfl i hi]; exact h2 i hi
  · obtain ⟨h1, h2, h3, h4⟩ := h.held j hw
    have e : r.add d = { r with redirects := r.redirects ++ [d], callbacks := r.callbacks ++ [r.redirects.length] } := by
      unfold add settle; simp only [hw]
    rw [e]
    refine ⟨fun h' => by simp [hw] at h', fun j' hj' => ?_⟩
    simp only [hw, Option.some.injEq] at hj'
    subst hj'
    refine ⟨by simp; omega, by rw [hf _ rfl _ h1]; exact h2, ?_, fun i hi => by rw [hf _ rfl i (by omega)]; exact h4 i hi⟩
    simp only [h3, List.length_append, List.length_cons, List.length_nil]
    rw [show r.redirects.length + (0 + 1) - (j + 1) = (r.redirects.length - (j + 1)) + 1 by omega, List.range'_concat]
    congr 2
    omega

theorem modify_fired {r : RouterReady} {i : Nat} (hi : i < r.redirects.length) (j : Nat) :
    ({ r with redirects := r.redirects.modify i fun d => { d with fired := true } } : RouterReady).hasFired j = (r.hasFired j || decide (j = i)) := by
  unfold hasFired
  by_cases h : j = i
  · subst h
    simp [List.getElem?_modify, List.getElem?_eq_getElem hi]
  · simp only [List.getElem?_modify, if_neg (Ne.symm h), decide_eq_false h, Bool.or_false]
    simp

theorem fire_fresh {r : RouterReady} {i : Nat} (hf : r.hasFired i = false) : r.fire i =
    settle (if r.waiting = some i then
      { r with redirects := r.redirects.modify i fun d => { d with fired := true }, waiting := none }
      else { r with redirects := r.redirects.modify i fun d => { d with fired := true } }) := by
  unfold fire
  rw [if_neg (by simp [hf])]

theorem fire_waits {r : RouterReady} (h : Waits r) {i : Nat} (hi : i < r.redirects.length) : Waits (r.fire i) := by
  by_cases hf : r.hasFired i = true
  · have e : r.fire i = { r with alreadyCalled := r.alreadyCalled + 1 } := by unfold fire; rw [if_pos hf]
    rw [e]
    exact waits_congr h rfl rfl rfl rfl
  · rw [fire_fresh (by simpa using hf)]
    by_cases hw : r.waiting = some i
    · rw [if_pos hw]
      obtain ⟨h1, h2, h3, h4⟩ := h.held i hw
      apply settle_waits (k := i + 1)
      · rfl
      · simpa [Nat.succ_le_iff] using hi
      · simpa using h3
      · intro j hj
        have := modify_fired hi j
        refine (congrFun (hasFired_of (s := { r with redirects := r.redirects.modify i fun d => { d with fired := true } }) rfl) j).trans (this.trans ?_)
        by_cases hji : j = i
        · simp [hji]
        · rw [h4 j (by omega)]; rfl
    · rw [if_neg hw]
      have hcase : r.waiting = none ∨ ∃ j, r.waiting = some j := by cases r.waiting <;> simp
      rcases hcase with hw2 | ⟨j, hw2⟩
      · exact absurd ((h.rest hw2).2 i hi) hf
      · have hji : j ≠ i := fun e => hw (by rw [hw2, e])
        obtain ⟨h1, h2, h3, h4⟩ := h.held j hw2
        have e : settle { r with redirects := r.redirects.modify i fun d => { d with fired := true } } =
            { r with redirects := r.redirects.modify i fun d => { d with fired := true } } := by
          unfold settle; simp only [hw2]
        rw [e]
        refine ⟨fun h' => by simp [hw2] at h', fun j' hj' => ?_⟩
        simp only [hw2, Option.some.injEq] at hj'
        subst hj'
        refine ⟨by simpa using h1, by rw [modify_fired hi, h2, decide_eq_false hji]; rfl, by simpa using h3, ?_⟩
        intro i' hi'
        rw [modify_fired hi, h4 i' hi']; rfl

theorem fire_get {r : RouterReady} {i : Nat} (hf : r.hasFired i = false) (j : Nat) :
    (r.fire i).redirects[j]? = (r.redirects[j]?).map fun d => if j = i then { d with fired := true } else d := by
  rw [fire_fresh hf, settle_redirects]
  have e : (if r.waiting = some i then
      ({ r with redirects := r.redirects.modify i fun d => { d with fired := true }, waiting := none } : RouterReady)
      else { r with redirects := r.redirects.modify i fun d => { d with fired := true } }).redirects =
      r.redirects.modify i fun d => { d with fired := true } := by
    by_cases h : r.waiting = some i
    · rw [if_pos h]
    · rw [if_neg h]
  rw [e]
  simp only [List.getElem?_modify]
  by_cases h : i = j
  · simp [h]
  · simp [h, Ne.symm h]

theorem fire_called {r : RouterReady} {i : Nat} : (r.fire i).alreadyCalled = r.alreadyCalled + if r.hasFired i then 1 else 0 := by
  by_cases hf : r.hasFired i = true
  · unfold fire; simp [hf]
  · rw [fire_fresh (by simpa using hf), settle_called]
    rw [if_neg hf, Nat.add_zero]
    by_cases h : r.waiting = some i
    · rw [if_pos h]
    · rw [if_neg h]

theorem fire_again {r : RouterReady} {i : Nat} (hf : r.hasFired i = true) : (r.fire i).redirects = r.redirects := by
  unfold fire; rw [if_pos hf]

theorem add_redirects (r : RouterReady) (d : RedirectWait) : (r.add d).redirects = r.redirects ++ [d] := settle_redirects _
theorem add_called (r : RouterReady) (d : RedirectWait) : (r.add d).alreadyCalled = r.alreadyCalled := settle_called _

/-! ## Each redirect -/

/-- The state of redirect `i` by what happened since it was built. -/
def Course (es : List Ev) (i : Nat) (d : RedirectWait) : Prop :=
  ∃ pre e post, es = pre ++ e :: post ∧ (builtRedirects pre).length = i ∧
    ((e = .udp true ∧ d = ⟨false, false, false, true⟩) ∨
     (e = .udp false ∧ d = ⟨false, true, false, false⟩ ∧ .resolved i ∉ post) ∨
     (e = .udp false ∧ d = ⟨false, false, false, true⟩ ∧ .resolved i ∈ post) ∨
     (e = .tcp ∧ d = ⟨true, true, false, false⟩ ∧ .connected i ∉ post) ∨
     (e = .tcp ∧ d = ⟨true, false, true, false⟩ ∧ ∃ a b, post = a ++ .connected i :: b ∧ .connected i ∉ a ∧ .turn i ∉ b) ∨
     (e = .tcp ∧ d = ⟨true, false, false, true⟩ ∧ ∃ a b, post = a ++ b ∧ .connected i ∈ a ∧ .turn i ∈ b))

/-- The kind of a build event. -/
def kindOf : Ev → Option (Bool × Bool)
  | .udp isIp => some (false, isIp)
  | .tcp => some (true, false)
  | _ => none

theorem built_cons (e : Ev) (es : List Ev) : builtRedirects (e :: es) = (kindOf e).toList ++ builtRedirects es := by
  cases e <;> rfl

theorem built_append (a b : List Ev) : builtRedirects (a ++ b) = builtRedirects a ++ builtRedirects b := by
  simp [builtRedirects]

theorem built_at {es pre post : List Ev} {e : Ev} {p : Bool × Bool} (h : es = pre ++ e :: post) (hk : kindOf e = some p) :
    (builtRedirects es)[(builtRedirects pre).length]? = some p := by
  rw [h, built_append, built_cons, hk]
  simp

/-- The place where redirect `i` was built is unique. -/
theorem split_unique {pre pre' post post' : List Ev} {e e' : Ev} (h : pre ++ e :: post = pre' ++ e' :: post')
    (hl : (builtRedirects pre).length = (builtRedirects pre').length) (he : (kindOf e).isSome) (he' : (kindOf e').isSome) :
    pre = pre' ∧ e = e' ∧ post = post' := by
  have key : ∀ {a b c d : List Ev} {x y : Ev}, a ++ x :: b = c ++ y :: d → (builtRedirects a).length = (builtRedirects c).length →
      (kindOf x).isSome → ∀ z, c = a ++ z → z = [] := by
    intro a b c d x y hh hl hx z hz
    cases z with
    | nil => rfl
    | cons w z =>
      rw [hz, List.append_assoc] at hh
      have := List.append_cancel_left hh
      simp only [List.cons_append, List.cons.injEq] at this
      obtain ⟨rfl, _⟩ := this
      rw [hz, built_append, built_cons] at hl
      obtain ⟨p, hp⟩ := Option.isSome_iff_exists.1 hx
      rw [hp] at hl
      simp at hl
  have : pre = pre' := by
    rcases List.append_eq_append_iff.1 h with ⟨z, h1, _⟩ | ⟨z, h1, _⟩
    · rw [h1, key h hl he z h1, List.append_nil]
    · rw [h1, key h.symm hl.symm he' z h1, List.append_nil]
  subst this
  have := List.append_cancel_left h
  simp only [List.cons.injEq] at this
  exact ⟨rfl, this.1, this.2⟩

theorem course_up {es : List Ev} {i : Nat} {d : RedirectWait} (h : Course es i d) : d.fired = true ↔ IsUp es i := by
  obtain ⟨pre, e, post, h1, h2, h3⟩ := h
  constructor
  · intro hf
    refine ⟨pre, e, post, h1, h2, ?_⟩
    rcases h3 with ⟨he, _⟩ | ⟨_, hd, _⟩ | ⟨he, _, hr⟩ | ⟨_, hd, _⟩ | ⟨_, hd, _⟩ | ⟨he, _, hr⟩
    · exact .inl he
    · rw [hd] at hf; cases hf
    · exact .inr (.inl ⟨he, hr⟩)
    · rw [hd] at hf; cases hf
    · rw [hd] at hf; cases hf
    · exact .inr (.inr ⟨he, hr⟩)
  · rintro ⟨pre', e', post', h1', h2', h3'⟩
    have ke : (kindOf e).isSome := by
      rcases h3 with ⟨he, _⟩ | ⟨he, _⟩ | ⟨he, _⟩ | ⟨he, _⟩ | ⟨he, _⟩ | ⟨he, _⟩ <;> rw [he] <;> rfl
    have ke' : (kindOf e').isSome := by
      rcases h3' with he | ⟨he, _⟩ | ⟨he, _⟩ <;> rw [he] <;> rfl
    obtain ⟨rfl, rfl, rfl⟩ := split_unique (h1.symm.trans h1') (h2.trans h2'.symm) ke ke'
    rcases h3 with ⟨_, hd⟩ | ⟨he, hd, hn⟩ | ⟨_, hd, _⟩ | ⟨he, hd, hn⟩ | ⟨he, hd, a, b, hp, ha, hb⟩ | ⟨_, hd, _⟩
    · rw [hd]
    · exfalso
      rcases h3' with he' | ⟨_, hr⟩ | ⟨he', _⟩
      · rw [he] at he'; cases he'
      · exact hn hr
      · rw [he] at he'; cases he'
    · rw [hd]
    · exfalso
      rcases h3' with he' | ⟨he', _⟩ | ⟨_, a, b, hp, ha, _⟩
      · rw [he] at he'; cases he'
      · rw [he] at he'; cases he'
      · exact hn (by rw [hp]; simp [ha])
    · exfalso
      rcases h3' with he' | ⟨he', _⟩ | ⟨_, a', b', hp', ha', hb'⟩
      · rw [he] at he'; cases he'
      · rw [he] at he'; cases he'
      · rw [hp] at hp'
        rcases List.append_eq_append_iff.1 hp' with ⟨z, h1, h2⟩ | ⟨z, h1, h2⟩
        · cases z with
          | nil => simp at h1; subst h1; exact ha ha'
          | cons w z =>
            simp only [List.cons_append, List.cons.injEq] at h2
            exact hb (by rw [h2.2]; simp [hb'])
        · exact ha (by rw [h1]; simp [ha'])
    · rw [hd]

/-- What one event does to redirect `i`. -/
def stepOne (i : Nat) (d : RedirectWait) : Ev → RedirectWait
  | .resolved j => if j = i ∧ d.tcp = false ∧ d.armed = true then { d with armed := false, fired := true } else d
  | .connected j => if j = i ∧ d.tcp = true ∧ d.armed = true then { d with armed := false, scheduled := true } else d
  | .turn j => if j = i ∧ d.scheduled = true then { d with scheduled := false, fired := true } else d
  | _ => d

theorem course_step {es : List Ev} {i : Nat} {d : RedirectWait} (h : Course es i d) (x : Ev) : Course (es ++ [x]) i (stepOne i d x) := by
  obtain ⟨pre, e, post, h1, h2, h3⟩ := h
  refine ⟨pre, e, post ++ [x], by rw [h1]; simp, h2, ?_⟩
  rcases h3 with ⟨he, hd⟩ | ⟨he, hd, hn⟩ | ⟨he, hd, hn⟩ | ⟨he, hd, hn⟩ | ⟨he, hd, a, b, hp, ha, hb⟩ | ⟨he, hd, a, b, hp, ha, hb⟩
  · left; refine ⟨he, ?_⟩; rw [hd]; cases x <;> simp [stepOne]
  · by_cases hx : x = .resolved i
    · right; right; left; refine ⟨he, ?_, by simp [hx]⟩; rw [hd, hx]; simp [stepOne]
    · right; left
      refine ⟨he, ?_, by simp [hn, Ne.symm hx]⟩
      rw [hd]; cases x <;> simp [stepOne]
      rename_i j
      intro hj; exact hx (by rw [hj])
  · right; right; left; refine ⟨he, ?_, by simp [hn]⟩; rw [hd]; cases x <;> simp [stepOne]
  · by_cases hx : x = .connected i
    · right; right; right; right; left
      refine ⟨he, ?_, post, [], by rw [hx], hn, by simp⟩
      rw [hd, hx]; simp [stepOne]
    · right; right; right; left
      refine ⟨he, ?_, by simp [hn, Ne.symm hx]⟩
      rw [hd]; cases x <;> simp [stepOne]
      rename_i j
      intro hj; exact hx (by rw [hj])
  · by_cases hx : x = .turn i
    · right; right; right; right; right
      refine ⟨he, ?_, a ++ .connected i :: b, [x], by rw [hp], by simp, by simp [hx]⟩
      rw [hd, hx]; simp [stepOne]
    · right; right; right; right; left
      refine ⟨he, ?_, a, b ++ [x], by rw [hp]; simp, ha, by simp [hb, Ne.symm hx]⟩
      rw [hd]; cases x <;> simp [stepOne]
      rename_i j
      intro hj; exact hx (by rw [hj])
  · right; right; right; right; right
    refine ⟨he, ?_, a, b ++ [x], by rw [hp]; simp, ha, by simp [hb]⟩
    rw [hd]; cases x <;> simp [stepOne]

/-! ## The whole -/

/-- The router after a history. -/
structure Good (es : List Ev) (r : RouterReady) : Prop where
  len : r.redirects.length = (builtRedirects es).length
  course : ∀ i d, r.redirects[i]? = some d → Course es i d
  waits : Waits r
  called : r.alreadyCalled = (builtRedirects es).count (false, true)

theorem run_snoc (es : List Ev) (x : Ev) : run (es ++ [x]) = (run es).step x := by simp [run]

theorem good_run (es : List Ev) : Good es (run es) := by
  induction es using List.reverseRecOn with
  | nil =>
    refine ⟨rfl, ?_, ⟨?_, ?_⟩, rfl⟩
    · intro i d h; simp [run] at h
    · intro _; refine ⟨rfl, ?_⟩; intro i hi; simp [run] at hi
    · intro j hj; simp [run] at hj
  | append_singleton es x ih =>
    rw [run_snoc]
    set r := run es with hr
    obtain ⟨hlen, hcourse, hwaits, hcalled⟩ := ih
    have old : ∀ i d, r.redirects[i]? = some d → (kindOf x).isSome → Course (es ++ [x]) i d := by
      intro i d hd hx
      have := course_step (hcourse i d hd) x
      cases x <;> simp [kindOf] at hx <;> simpa [stepOne] using this
    have hnew : ∀ {i d}, i = r.redirects.length → (kindOf x).isSome →
        ((x = .udp true ∧ d = ⟨false, false, false, true⟩) ∨ (x = .udp false ∧ d = ⟨false, true, false, false⟩) ∨ (x = .tcp ∧ d = ⟨true, true, false, false⟩)) →
        Course (es ++ [x]) i d := by
      intro i d hi _ hx
      refine ⟨es, x, [], by simp, by rw [hi, hlen], ?_⟩
      rcases hx with ⟨a, b⟩ | ⟨a, b⟩ | ⟨a, b⟩
      · exact .inl ⟨a, b⟩
      · exact .inr (.inl ⟨a, b, by simp⟩)
      · exact .inr (.inr (.inr (.inl ⟨a, b, by simp⟩)))
    have snoc_get : ∀ (l : List RedirectWait) (y d : RedirectWait) (i : Nat), (l ++ [y])[i]? = some d → l[i]? = some d ∨ (i = l.length ∧ d = y) := by
      intro l y d i h
      rcases Nat.lt_trichotomy i l.length with h' | h' | h'
      · left; rwa [List.getElem?_append_left h'] at h
      · right; subst h'; simp at h; exact ⟨rfl, h.symm⟩
      · rw [List.getElem?_eq_none (by simp; omega)] at h; cases h
    -- the events that change one redirect and fire it
    have firing : ∀ {i d} (f : RedirectWait → RedirectWait), r.redirects[i]? = some d → d.fired = false → (∀ y, (f y).fired = y.fired) →
        ({ f d with fired := true } : RedirectWait) = stepOne i d x → kindOf x = none → (∀ j y, j ≠ i → stepOne j y x = y) →
        Good (es ++ [x]) (({ r with redirects := r.redirects.modify i f } : RouterReady).fire i) := by
      intro i d f hd hnf hff hst hk hother
      have hi : i < r.redirects.length := (List.getElem?_eq_some_iff.1 hd).1
      set r' : RouterReady := { r with redirects := r.redirects.modify i f } with hr'
      have hget : ∀ j, r'.redirects[j]? = (r.redirects[j]?).map fun y => if j = i then f y else y := by
        intro j
        simp only [hr', List.getElem?_modify]
        by_cases h : i = j
        · simp [h]
        · simp [h, Ne.symm h]
      have hfe : r'.hasFired = r.hasFired := by
        funext j; unfold hasFired; rw [hget]
        cases r.redirects[j]? with
        | none => rfl
        | some y => simp only [Option.map_some, Option.getD_some]; split_ifs <;> simp [hff]
      have hnf' : r'.hasFired i = false := by rw [hfe]; unfold hasFired; rw [hd]; exact hnf
      have hb : builtRedirects (es ++ [x]) = builtRedirects es := by rw [built_append, built_cons, hk]; simp [builtRedirects]
      have hl : (r'.fire i).redirects.length = r.redirects.length := by
        have : ∀ l : List RedirectWait, ∀ n, (∀ j, l[j]? = none ↔ n ≤ j) → l.length = n := by
          intro l n h
          apply le_antisymm
          · have := (h n).2 (le_refl _); exact List.getElem?_eq_none_iff.1 this
          · exact (h l.length).1 (List.getElem?_eq_none_iff.2 (le_refl _))
        apply this
        intro j
        rw [fire_get hnf', hget]
        simp
      refine ⟨by rw [hl, hb, hlen], ?_, ?_, ?_⟩
      · intro j y hy
        rw [fire_get hnf', hget] at hy
        cases hz : r.redirects[j]? with
        | none => rw [hz] at hy; cases hy
        | some z =>
          rw [hz] at hy
          simp only [Option.map_some, Option.some.injEq] at hy
          have hc := course_step (hcourse j z hz) x
          by_cases hji : j = i
          · subst hji
            rw [hd] at hz
            simp only [Option.some.injEq] at hz
            subst hz
            simp only [if_true] at hy
            rw [← hy, hst]; exact hc
          · rw [if_neg hji, if_neg hji] at hy
            rw [hother j z hji] at hc
            rw [← hy]; exact hc
      · apply fire_waits
        · exact waits_congr hwaits (by simp [hr']) hfe rfl rfl
        · simpa [hr'] using hi
      · rw [fire_called, hnf', hb, ← hcalled]; simp [hr']
    have noop : kindOf x = none → (∀ j y, r.redirects[j]? = some y → stepOne j y x = y) → Good (es ++ [x]) r := by
      intro hk h
      have hb : builtRedirects (es ++ [x]) = builtRedirects es := by rw [built_append, built_cons, hk]; simp [builtRedirects]
      refine ⟨by rw [hb, hlen], ?_, hwaits, by rw [hb, hcalled]⟩
      intro j y hy
      have := course_step (hcourse j y hy) x
      rwa [h j y hy] at this
    -- the fields of a redirect of a given course
    have shape : ∀ {i : Nat} {d : RedirectWait}, r.redirects[i]? = some d → (d.armed = true → d.fired = false) ∧ (d.scheduled = true → d.fired = false) := by
      intro i d hd
      obtain ⟨pre, e, post, h1, h2, h3⟩ := hcourse i d hd
      rcases h3 with ⟨_, hd⟩ | ⟨_, hd, _⟩ | ⟨_, hd, _⟩ | ⟨_, hd, _⟩ | ⟨_, hd, _⟩ | ⟨_, hd, _⟩ <;> rw [hd] <;> simp
    cases x with
    | udp isIp =>
      have hb : builtRedirects (es ++ [.udp isIp]) = builtRedirects es ++ [(false, isIp)] := by rw [built_append]; rfl
      cases isIp with
      | false =>
        refine ⟨?_, ?_, add_waits hwaits _, ?_⟩
        · show (r.add _).redirects.length = _
          rw [add_redirects, hb]; simp [hlen]
        · intro i d h
          have h : (r.add { tcp := false }).redirects[i]? = some d := h
          rw [add_redirects] at h
          rcases snoc_get _ _ _ _ h with h | ⟨h, h'⟩
          · exact old i d h rfl
          · exact hnew h rfl (.inr (.inl ⟨rfl, h'⟩))
        · show (r.add _).alreadyCalled = _
          rw [add_called, hb, hcalled]; simp
      | true =>
        set s := r.add { tcp := false, armed := false } with hs
        have hsr : s.redirects = r.redirects ++ [⟨false, false, false, false⟩] := add_redirects _ _
        have hsf : s.hasFired r.redirects.length = false := by unfold hasFired; rw [hsr]; simp
        have hget := fire_get hsf
        have hf2 : (s.fire r.redirects.length).hasFired r.redirects.length = true := by
          unfold hasFired; rw [hget, hsr]; simp
        have hred : ((s.fire r.redirects.length).fire r.redirects.length).redirects = (s.fire r.redirects.length).redirects := fire_again hf2
        have hlen2 : (s.fire r.redirects.length).redirects.length = r.redirects.length + 1 := by
          apply le_antisymm
          · have : (s.fire r.redirects.length).redirects[r.redirects.length + 1]? = none := by
              rw [hget, hsr, List.getElem?_eq_none (by simp)]; rfl
            exact List.getElem?_eq_none_iff.1 this
          · by_contra hc
            have : (s.fire r.redirects.length).redirects[r.redirects.length]? = none := List.getElem?_eq_none_iff.2 (by omega)
            rw [hget, hsr] at this; simp at this
        refine ⟨?_, ?_, ?_, ?_⟩
        · show ((s.fire _).fire _).redirects.length = _
          rw [hred, hlen2, hb]; simp [hlen]
        · intro i d h
          have h : ((s.fire r.redirects.length).fire r.redirects.length).redirects[i]? = some d := h
          rw [hred, hget, hsr] at h
          cases hz : (r.redirects ++ [(⟨false, false, false, false⟩ : RedirectWait)])[i]? with
          | none => rw [hz] at h; cases h
          | some z =>
            rw [hz] at h
            simp only [Option.map_some, Option.some.injEq] at h
            rcases snoc_get _ _ _ _ hz with h' | ⟨h', h''⟩
            · have : i ≠ r.redirects.length := by have := (List.getElem?_eq_some_iff.1 h').1; omega
              rw [if_neg this] at h
              rw [← h]; exact old i z h' rfl
            · rw [if_pos h'] at h
              exact hnew h' rfl (.inl ⟨rfl, by rw [← h, h'']⟩)
        · apply fire_waits
          · apply fire_waits
            · exact add_waits hwaits _
            · rw [hsr]; simp
          · rw [hlen2]; omega
        · show ((s.fire _).fire _).alreadyCalled = _
          rw [fire_called, fire_called, hsf, hf2, hs, add_called, hb, hcalled]; simp
    | tcp =>
      have hb : builtRedirects (es ++ [.tcp]) = builtRedirects es ++ [(true, false)] := by rw [built_append]; rfl
      refine ⟨?_, ?_, add_waits hwaits _, ?_⟩
      · show (r.add _).redirects.length = _
        rw [add_redirects, hb]; simp [hlen]
      · intro i d h
        have h : (r.add { tcp := true }).redirects[i]? = some d := h
        rw [add_redirects] at h
        rcases snoc_get _ _ _ _ h with h | ⟨h, h'⟩
        · exact old i d h rfl
        · exact hnew h rfl (.inr (.inr ⟨rfl, h'⟩))
      · show (r.add _).alreadyCalled = _
        rw [add_called, hb, hcalled]; simp
    | resolved i =>
      cases hd : r.redirects[i]? with
      | none =>
        have e : r.step (.resolved i) = r := by simp only [step, hd]
        rw [e]
        refine noop rfl fun j y hy => ?_
        have : i ≠ j := fun e => by rw [e, hy] at hd; cases hd
        simp [stepOne, this]
      | some d =>
        have e : r.step (.resolved i) = if d.tcp = false ∧ d.armed = true then ({ r with redirects := r.redirects.modify i fun d => { d with armed := false } } : RouterReady).fire i else r := by
          simp only [step, hd]
        rw [e]
        by_cases hc : d.tcp = false ∧ d.armed = true
        · rw [if_pos hc]
          exact firing _ hd ((shape hd).1 hc.2) (fun _ => rfl) (by simp [stepOne, hc]) rfl
            (fun j y hj => by simp [stepOne, Ne.symm hj])
        · rw [if_neg hc]
          refine noop rfl fun j y hy => ?_
          simp only [stepOne]
          rw [if_neg]
          rintro ⟨rfl, h⟩
          rw [hd] at hy
          simp only [Option.some.injEq] at hy
          exact hc (hy ▸ h)
    | connected i =>
      cases hd : r.redirects[i]? with
      | none =>
        have e : r.step (.connected i) = r := by simp only [step, hd]
        rw [e]
        refine noop rfl fun j y hy => ?_
        have : i ≠ j := fun e => by rw [e, hy] at hd; cases hd
        simp [stepOne, this]
      | some d =>
        have e : r.step (.connected i) = if d.tcp = true ∧ d.armed = true then ({ r with redirects := r.redirects.modify i fun d => { d with armed := false, scheduled := true } } : RouterReady) else r := by
          simp only [step, hd]
        rw [e]
        by_cases hc : d.tcp = true ∧ d.armed = true
        · rw [if_pos hc]
          have hget : ∀ j, (r.redirects.modify i fun d => { d with armed := false, scheduled := true })[j]? =
              (r.redirects[j]?).map fun y => if j = i then { y with armed := false, scheduled := true } else y := by
            intro j
            simp only [List.getElem?_modify]
            by_cases h : i = j
            · simp [h]
            · simp [h, Ne.symm h]
          have hb : builtRedirects (es ++ [.connected i]) = builtRedirects es := by rw [built_append]; simp [builtRedirects]
          refine ⟨by rw [hb, ← hlen]; simp, ?_, ?_, by rw [hb, ← hcalled]⟩
          · intro j y hy
            have hy : (r.redirects.modify i fun d => { d with armed := false, scheduled := true })[j]? = some y := hy
            rw [hget] at hy
            cases hz : r.redirects[j]? with
            | none => rw [hz] at hy; cases hy
            | some z =>
              rw [hz] at hy
              simp only [Option.map_some, Option.some.injEq] at hy
              have hcs := course_step (hcourse j z hz) (.connected i)
              by_cases hji : j = i
              · subst hji
                rw [hd] at hz
                simp only [Option.some.injEq] at hz
                subst hz
                rw [if_pos rfl] at hy
                simp only [stepOne, hc, and_self, if_true] at hcs
                rw [← hy]
                simpa [hc] using hcs
              · rw [if_neg hji] at hy
                simp only [stepOne] at hcs
                rw [if_neg (by rintro ⟨h, _⟩; exact hji h.symm)] at hcs
                rw [← hy]; exact hcs
          · refine waits_congr hwaits (by simp) ?_ rfl rfl
            funext j; unfold hasFired; rw [hget]
            cases r.redirects[j]? with
            | none => rfl
            | some y => simp only [Option.map_some, Option.getD_some]; split_ifs <;> rfl
        · rw [if_neg hc]
          refine noop rfl fun j y hy => ?_
          simp only [stepOne]
          rw [if_neg]
          rintro ⟨rfl, h⟩
          rw [hd] at hy
          simp only [Option.some.injEq] at hy
          exact hc (hy ▸ h)
    | turn i =>
      cases hd : r.redirects[i]? with
      | none =>
        have e : r.step (.turn i) = r := by simp only [step, hd]
        rw [e]
        refine noop rfl fun j y hy => ?_
        have : i ≠ j := fun e => by rw [e, hy] at hd; cases hd
        simp [stepOne, this]
      | some d =>
        have e : r.step (.turn i) = if d.scheduled = true then ({ r with redirects := r.redirects.modify i fun d => { d with scheduled := false } } : RouterReady).fire i else r := by
          simp only [step, hd]
        rw [e]
        by_cases hc : d.scheduled = true
        · rw [if_pos hc]
          exact firing _ hd ((shape hd).2 hc) (fun _ => rfl) (by simp [stepOne, hc]) rfl
            (fun j y hj => by simp [stepOne, Ne.symm hj])
        · rw [if_neg hc]
          refine noop rfl fun j y hy => ?_
          simp only [stepOne]
          rw [if_neg]
          rintro ⟨rfl, h⟩
          rw [hd] at hy
          simp only [Option.some.injEq] at hy
          exact hc (hy ▸ h)

end RouterReady
end Txstatsd
