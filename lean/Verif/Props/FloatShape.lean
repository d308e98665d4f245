import Verif.Lemmas.FloatShape
import Verif.Props.FloatStr

/-!
# The texts of floats: C116, their shape
-/

namespace Txstatsd
open Spec

/-- C116: the text is a plain decimal where the number shown is zero or from 0.0001 to below 10^11, and has an exponent elsewhere; in both
shapes no digit could be left out. -/
theorem C116_shape (x : ℚ) : ∃ y, Nearest12 x y ∧
    Signed (x < 0) (if y = 0 ∨ (1 / 10 ^ 4 ≤ |y| ∧ |y| < 10 ^ 11) then PlainShape else ExpShape 11) (pyStr (.fin x)) := by
  refine ⟨shownAs x, shownAs_nearest x, ?_⟩
  rcases lt_trichotomy x 0 with h | rfl | h
  · refine Or.inl ⟨h, posText (-x), by simp [pyStr, h], ?_⟩
    have hx : 0 < -x := by linarith
    have e : shownAs x = -dec12 (-x) := by
      rw [← shownAs_pos hx, shownAs_neg, neg_neg]
    have hp := dec12_pos hx
    have := posText_shape hx
    rw [e, abs_neg, abs_of_pos hp]
    by_cases hc : 1 / 10 ^ 4 ≤ dec12 (-x) ∧ dec12 (-x) < 10 ^ 11
    · rw [if_pos hc] at this
      rw [if_pos (Or.inr hc)]; exact this
    · rw [if_neg hc] at this
      rw [if_neg]
      · exact this
      · rintro (h3 | h3)
        · linarith
        · exact hc h3
  · refine Or.inr ⟨by simp, ?_⟩
    rw [shownAs_zero, if_pos (Or.inl rfl)]
    exact ⟨['0'], ['0'], by decide +kernel, by simp, by simp, by decide, Or.inl rfl, Or.inl rfl⟩
  · refine Or.inr ⟨by linarith, ?_⟩
    have hp := dec12_pos h
    have := posText_shape h
    have e2 : pyStr (.fin x) = posText x := by simp only [pyStr]; rw [if_neg (by linarith)]
    rw [shownAs_pos h, abs_of_pos hp, e2]
    by_cases hc : 1 / 10 ^ 4 ≤ dec12 x ∧ dec12 x < 10 ^ 11
    · rw [if_pos hc] at this
      rw [if_pos (Or.inr hc)]; exact this
    · rw [if_neg hc] at this
      rw [if_neg]
      · exact this
      · rintro (h3 | h3)
        · linarith
        · exact hc h3

example : PlainShape c!"123.45" :=
  ⟨c!"123", c!"45", rfl, by simp, by simp, by decide, Or.inr (by decide), Or.inr (by decide)⟩
example : ExpShape 11 c!"1.25e-05" :=
  ⟨'1', c!"25", '-', c!"05", rfl, by decide, by decide, by decide, by decide, by decide, Or.inr rfl, by decide, by decide, Or.inl rfl⟩
end Txstatsd
