import Verif.Model.Ini
import Verif.Spec.Options
import Verif.Spec.Getopt
import Verif.Spec.Text

/-! What the claims about configuration files talk about: how one may write them, and what they then mean. -/

namespace Txstatsd.Spec

/-- A blank line, or a comment. -/
def Noise (l : Str) : Prop :=
  '\n' ∉ l ∧ ((∀ c ∈ l, White c) ∨ l.head? = some '#' ∨ l.head? = some ';' ∨
    ∃ r rest, l = r ++ rest ∧ r.map Char.toLower = c!"rem" ∧ ∀ c, rest.head? = some c → White c)

/-- The line begins a section. -/
def Header (l name : Str) : Prop := '\n' ∉ l ∧ name ≠ [] ∧ ']' ∉ name ∧ ∃ rest, l = '[' :: name ++ ']' :: rest

/-- A `;` after white space, before which there is no other. -/
def Comment (rest x : Str) : Prop := (∃ y, rest = x ++ ';' :: y) ∧ ';' ∉ x ∧ ∃ c, x.getLast? = some c ∧ White c

/-- What the text after the separator and white space means: itself without white space at the end, unless it has a comment, which is a
first `;` that follows white space. -/
inductive Meaning (rest : Str) : Str → Prop
  | plain {v : Str} : (∀ x, ¬ Comment rest x) → (rest.head? = some ';' → ∃ c, rest.getLast? = some c ∧ ¬ White c) → Stripped rest v →
      Meaning rest v
  | cut {x v : Str} : Comment rest x → Stripped x v → Meaning rest v
  | empty {c : Char} : rest.head? = some ';' → rest.getLast? = some c → White c → Meaning rest []

/-- A quoted empty text is empty. -/
def unquoted (v : Str) : Str := if v = c!"\"\"" then [] else v

/-- The line gives an option a value (or the first line of one): a name without white space, `:` or `=`, and the value. -/
def Assigns (l name value : Str) : Prop :=
  '\n' ∉ l ∧ ∃ n a c b rest v, l = n ++ a ++ c :: (b ++ rest) ∧ n ≠ [] ∧ (∀ x ∈ n, ¬ White x ∧ x ≠ ':' ∧ x ≠ '=') ∧
    (∀ x, n.head? = some x → x ≠ '#' ∧ x ≠ ';' ∧ x ≠ '[') ∧ (∀ x ∈ a, White x) ∧ (∀ x ∈ b, White x) ∧ (c = ':' ∨ c = '=') ∧
    (∀ x, rest.head? = some x → ¬ White x) ∧ name = n.map Char.toLower ∧ (name = c!"rem" → a = []) ∧ name ≠ c!"__name__" ∧
    Meaning rest v ∧ value = unquoted v

/-- The line continues the value of an option. -/
def Continues (l v : Str) : Prop := '\n' ∉ l ∧ Stripped l v ∧ v ≠ [] ∧ ∃ c, l.head? = some c ∧ White c

/-- Lines that continue a value, blank ones and comments between them. -/
inductive ContLines : List Str → List Str → Prop
  | nil : ContLines [] []
  | noise {l ls vs} : Noise l → ContLines ls vs → ContLines (l :: ls) vs
  | cont {l v ls vs} : Continues l v → ContLines ls vs → ContLines (l :: ls) (v :: vs)

/-- The lines of a section after its header; the options are given with the lines of their values. -/
inductive EntryLines : List Str → List (Str × List Str) → Prop
  | nil : EntryLines [] []
  | noise {l ls es} : Noise l → EntryLines ls es → EntryLines (l :: ls) es
  | option {l name v ls vs ls' es} : Assigns l name v → ContLines ls vs → EntryLines ls' es →
      EntryLines (l :: (ls ++ ls')) ((name, v :: vs) :: es)

/-- The lines of a file. -/
inductive FileLines : List Str → List (Str × List (Str × List Str)) → Prop
  | nil : FileLines [] []
  | noise {l ls secs} : Noise l → FileLines ls secs → FileLines (l :: ls) secs
  | sect {l name ls es ls' secs} : Header l name → EntryLines ls es → FileLines ls' secs →
      FileLines (l :: (ls ++ ls')) ((name, es) :: secs)

/-- The options of all sections of this name, in order. -/
def optionsIn (secs : List (Str × List (Str × List Str))) (s : Str) : List (Str × List Str) :=
  (secs.filter fun p => p.1 = s).flatMap Prod.snd

/-- The lines given last for the option. -/
def givenLast (es : List (Str × List Str)) (n : Str) : Option (List Str) := ((es.filter fun p => p.1 = n).getLast?).map Prod.snd

end Txstatsd.Spec
