import Verif.Model.Base

/-!
# Shell patterns with character classes
-/

namespace Txstatsd.Spec

/-- An element of a shell pattern. -/
inductive PatternPart
  | any
  | one
  | char (c : Char)
  | oneOf (neg : Bool) (ranges : List (Char × Char))
  deriving DecidableEq

/-- The text between brackets lists these ranges: `a-z` is a range, and any other character, also a hyphen at the end, is itself. -/
inductive ClassText : Str → List (Char × Char) → Prop
  | nil : ClassText [] []
  | range (a b : Char) (r : Str) (rs : List (Char × Char)) (h : ClassText r rs) : ClassText (a :: '-' :: b :: r) ((a, b) :: rs)
  | single (a : Char) (r : Str) (rs : List (Char × Char)) (hr : ∀ b r', r ≠ '-' :: b :: r') (h : ClassText r rs) :
      ClassText (a :: r) ((a, a) :: rs)

/-- What can stand between `[` (or `[!`) and the closing bracket: a bracket only in front. -/
def ClassBody (neg : Bool) (body : Str) : Prop := body ≠ [] ∧ ']' ∉ body.tail ∧ (neg = false → body.head? ≠ some '!')

/-- The inside of a class, its closing bracket, and the rest of the pattern. -/
def classAnd (neg : Bool) (body rest : Str) : Str := (if neg then ['!'] else []) ++ body ++ ']' :: rest

/-- The pattern consists of these elements. -/
inductive Reads : Str → List PatternPart → Prop
  | nil : Reads [] []
  | any (p : Str) (ps : List PatternPart) (h : Reads p ps) : Reads ('*' :: p) (.any :: ps)
  | one (p : Str) (ps : List PatternPart) (h : Reads p ps) : Reads ('?' :: p) (.one :: ps)
  | char (c : Char) (p : Str) (ps : List PatternPart) (hc : c ∉ ['*', '?', '[']) (h : Reads p ps) : Reads (c :: p) (.char c :: ps)
  | oneOf (neg : Bool) (body : Str) (rs : List (Char × Char)) (p : Str) (ps : List PatternPart) (hb : ClassBody neg body)
      (ht : ClassText body rs) (h : Reads p ps) : Reads ('[' :: classAnd neg body p) (.oneOf neg rs :: ps)
  | bracket (p : Str) (ps : List PatternPart) (hn : ∀ neg body q, ClassBody neg body → p ≠ classAnd neg body q) (h : Reads p ps) :
      Reads ('[' :: p) (.char '[' :: ps)

/-- The text fits the elements. -/
inductive Fits : List PatternPart → Str → Prop
  | nil : Fits [] []
  | any (a s : Str) (ps : List PatternPart) (h : Fits ps s) : Fits (.any :: ps) (a ++ s)
  | one (c : Char) (s : Str) (ps : List PatternPart) (h : Fits ps s) : Fits (.one :: ps) (c :: s)
  | char (c : Char) (s : Str) (ps : List PatternPart) (h : Fits ps s) : Fits (.char c :: ps) (c :: s)
  | oneOf (neg : Bool) (rs : List (Char × Char)) (c : Char) (s : Str) (ps : List PatternPart)
      (hc : (∃ r ∈ rs, r.1 ≤ c ∧ c ≤ r.2) ↔ neg = false) (h : Fits ps s) : Fits (.oneOf neg rs :: ps) (c :: s)

/-- Some range of a class is in the wrong order. -/
def Disordered (ps : List PatternPart) : Prop := ∃ neg rs, .oneOf neg rs ∈ ps ∧ ∃ r ∈ rs, r.2 < r.1

/-- The text matches the shell pattern. -/
def ShellMatch (p s : Str) : Prop := ∃ ps, Reads p ps ∧ Fits ps s

/-- No class of the pattern has a range in the wrong order. -/
def GoodPattern (p : Str) : Prop := ∀ ps, Reads p ps → ¬ Disordered ps

end Txstatsd.Spec
