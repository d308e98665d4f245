import Verif.Model.Base

/-!
# `fnmatch.fnmatch` (Python standard library), as used by router.py:234 and twisted/plugins/sli_plugin.py:52

On POSIX `os.path.normcase` is the identity, so `fnmatch(name, pat)` is
`re.compile(translate(pat)).match(name)`, with `translate` ending in `\Z(?ms)`: the whole name must
match, and `.` matches newlines.
-/

namespace Txstatsd

/-- One element of a translated pattern (server/router.py:234; twisted/plugins/sli_plugin.py:52). -/
inductive Glob
  /-- `*` becomes `.*`. -/
  | star
  /-- `?` becomes `.`. -/
  | one
  /-- Any other character is escaped. -/
  | lit (c : Char)
  /-- `[...]`; `ranges = none` is a class `re` refuses ("bad character range"). -/
  | set (neg : Bool) (ranges : Option (List (Char × Char)))
  deriving DecidableEq, Repr

/-- `if j < n and pat[j] == c: j = j+1`: the character skipped (if any) and the rest
(server/router.py:234; twisted/plugins/sli_plugin.py:52). -/
def skipChar (c : Char) (p : Str) : Str × Str := if p.head? = some c then ([c], p.tail) else ([], p)

/-- The text between the brackets and the text after them, when the `[` just read opens a class:
a leading `!` and then a leading `]` belong to the class (fnmatch.translate, branch `c == '['`)
(server/router.py:234; twisted/plugins/sli_plugin.py:52). -/
def closeBracket (p : Str) : Option (Str × Str) :=
  let a := skipChar '!' p
  let b := skipChar ']' a.2
  match split1 ']' b.2 with
  | none => none
  | some (m, rest) => some (a.1 ++ b.1 ++ m, rest)

/-- The class members: single characters and ranges `a-b`; a `-` at the end is itself
(sre_parse, with the backslash escaped by `translate`). `none` is a range in the wrong order
(server/router.py:234; twisted/plugins/sli_plugin.py:52). -/
def classRanges : Str → Option (List (Char × Char))
  | [] => some []
  | [c] => some [(c, c)]
  | [c, d] => if d = '-' then some [(c, c), ('-', '-')]
      else some [(c, c), (d, d)]
  | c :: '-' :: d :: rest =>
    if d < c then none else (classRanges rest).map ((c, d) :: ·)
  | c :: rest => (classRanges rest).map ((c, c) :: ·)

/-- A class from the text between the brackets (server/router.py:234; twisted/plugins/sli_plugin.py:52). -/
def classOf : Str → Glob
  | '!' :: r => .set true (classRanges r)
  | r => .set false (classRanges r)

/-- `fnmatch.translate`; `skip` is the number of characters already consumed by a class
(server/router.py:234; twisted/plugins/sli_plugin.py:52). -/
def globs : Nat → Str → List Glob
  | _, [] => []
  | n + 1, _ :: cs => globs n cs
  | 0, c :: cs =>
    if c = '*' then .star :: globs 0 cs
    else if c = '?' then .one :: globs 0 cs
    else if c = '[' then
      match closeBracket cs with
      | none => .lit '[' :: globs 0 cs
      | some (stuff, rest) => classOf stuff :: globs (cs.length - rest.length) cs
    else .lit c :: globs 0 cs

/-- Does `re.compile` refuse this element? (server/router.py:234; twisted/plugins/sli_plugin.py:52). -/
def Glob.bad : Glob → Bool
  | .set _ none => true
  | _ => false

/-- Does the character belong to the class? (server/router.py:234; twisted/plugins/sli_plugin.py:52). -/
def inClass (neg : Bool) (ranges : List (Char × Char)) (c : Char) : Bool :=
  (ranges.any fun r => r.1 ≤ c && c ≤ r.2) != neg

/-- Matching the whole name against the translated pattern (server/router.py:234; twisted/plugins/sli_plugin.py:52). -/
def globMatch : List Glob → Str → Bool
  | [], s => s.isEmpty
  | .star :: g, s => s.tails.any fun t => globMatch g t
  | .one :: _, [] => false
  | .one :: g, _ :: s => globMatch g s
  | .lit _ :: _, [] => false
  | .lit c :: g, d :: s => c == d && globMatch g s
  | .set _ _ :: _, [] => false
  | .set neg rs :: g, c :: s => inClass neg (rs.getD []) c && globMatch g s

/-- `fnmatch.fnmatch(name, pat)` (server/router.py:234; twisted/plugins/sli_plugin.py:52). -/
def fnmatch (name pat : Str) : Except PyErr Bool :=
  let g := globs 0 pat
  if g.any Glob.bad then .error .otherError   -- re.error
  else .ok (globMatch g name)

end Txstatsd
