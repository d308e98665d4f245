import Verif.Model.Getopt
import Verif.Spec.Options

/-! What the claims about arguments talk about. -/

namespace Txstatsd.Spec

/-- An option as one may write it on the command line: by its long name or an abbreviation of it or its letter, with the value in the
same argument or in the next. -/
inductive Written
  | longEq (name value : Str)
  | longNext (name value : Str)
  | abbrEq (pre name value : Str)
  | abbrNext (pre name value : Str)
  | shortSame (letter : Char) (value : Str)
  | shortNext (letter : Char) (value : Str)
  deriving DecidableEq

/-- The arguments. -/
def Written.args : Written → List Str
  | .longEq name value => [c!"--" ++ name ++ c!"=" ++ value]
  | .longNext name value => [c!"--" ++ name, value]
  | .abbrEq pre _ value => [c!"--" ++ pre ++ c!"=" ++ value]
  | .abbrNext pre _ value => [c!"--" ++ pre, value]
  | .shortSame letter value => ['-' :: letter :: value]
  | .shortNext letter value => [['-', letter], value]

/-- What is meant. -/
def Written.meant : Written → CmdOpt
  | .longEq name value | .longNext name value | .abbrEq _ name value | .abbrNext _ name value => ⟨true, name, value⟩
  | .shortSame letter value | .shortNext letter value => ⟨false, [letter], value⟩

/-- The long option takes a value. -/
def TakesLong (longopts : List Str) (name : Str) : Prop := name ≠ [] ∧ '=' ∉ name ∧ name ++ c!"=" ∈ longopts ∧ name ∉ longopts

/-- `pre` is the beginning of one entry of the list, which is an option with a value. -/
def Abbreviates (longopts : List Str) (pre name : Str) : Prop :=
  pre ≠ [] ∧ '=' ∉ pre ∧ pre ≠ name ++ c!"=" ∧ longopts.filter (fun o => pre.isPrefixOf o) = [name ++ c!"="]

/-- The letter is that of an option with a value: its first occurrence is followed by a colon. -/
def TakesShort (shortopts : Str) (letter : Char) : Prop :=
  letter ≠ '-' ∧ letter ≠ ':' ∧ ∃ a b, shortopts = a ++ letter :: ':' :: b ∧ letter ∉ a

/-- The option can be written so. -/
def Written.Legal (longopts : List Str) (shortopts : Str) : Written → Prop
  | .longEq name _ | .longNext name _ => TakesLong longopts name
  | .abbrEq pre name _ | .abbrNext pre name _ => Abbreviates longopts pre name
  | .shortSame letter value => TakesShort shortopts letter ∧ value ≠ []
  | .shortNext letter _ => TakesShort shortopts letter

/-- What may follow the options: nothing, `--` and operands, or operands of which the first is no option. -/
inductive Tail : List Str → List Str → Prop
  | none : Tail [] []
  | dashes (operands : List Str) : Tail (c!"--" :: operands) operands
  | operand (a : Str) (rest : List Str) : a.head? ≠ some '-' ∨ a = c!"-" → Tail (a :: rest) (a :: rest)

/-- The option is one of those declared: a long name with a value, or without; or a letter. -/
def Declared (longopts : List Str) (shortopts : Str) (o : CmdOpt) : Prop :=
  if o.isLong then o.name ++ c!"=" ∈ longopts ∨ (o.name ∈ longopts ∧ o.arg = []) else ∃ c ∈ shortopts, c ≠ ':' ∧ o.name = [c]

end Txstatsd.Spec
