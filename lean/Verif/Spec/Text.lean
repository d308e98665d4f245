import Verif.Model.Base

/-!
# Specification of the message text, independent of the model's functions
-/

namespace Txstatsd.Spec

/-- The six ASCII white-space characters. -/
def White (c : Char) : Prop := c ∈ [' ', '\t', '\n', '\r', '\x0b', '\x0c']

instance (c : Char) : Decidable (White c) := by unfold White; infer_instance

/-- The characters a graphite key may contain. -/
def Legal (c : Char) : Prop := c.isAlphanum = true ∨ c = '_' ∨ c = '-' ∨ c = '.'

instance (c : Char) : Decidable (Legal c) := by unfold Legal; infer_instance

/-- What one character of a key contributes to the normalised key, given the character before it. -/
def normChar (prev : Option Char) (c : Char) : Str :=
  if White c then (if ∃ p, prev = some p ∧ White p then [] else ['_'])
  else if c = '/' then (if prev = some '/' then [] else ['-'])
  else if Legal c then [c] else []

/-- The normalised key: the contributions of all characters, each seen with its predecessor. -/
def normalize (key : Str) : Str :=
  ((none :: key.map some).zip key).flatMap fun p => normChar p.1 p.2

/-- `text` is `msg` without its leading and trailing white space. -/
def Stripped (msg text : Str) : Prop :=
  ∃ a b, msg = a ++ text ++ b ∧ (∀ c ∈ a, White c) ∧ (∀ c ∈ b, White c) ∧
    (∀ c, text.head? = some c → ¬ White c) ∧ (∀ c, text.getLast? = some c → ¬ White c)

/-- The StatsD grammar: the stripped message is `rawKey ':' f0 '|' type` or
`rawKey ':' f0 '|' type '|' f2`, with no `:` in the key and no `|` in a field. -/
def Message (msg mtype rawKey : Str) (fields : List Str) : Prop :=
  ∃ text, Stripped msg text ∧ ':' ∉ rawKey ∧ (∀ f ∈ fields, '|' ∉ f) ∧
    ((∃ f0, fields = [f0, mtype] ∧ text = rawKey ++ ':' :: (f0 ++ '|' :: mtype)) ∨
     (∃ f0 f2, fields = [f0, mtype, f2] ∧
        text = rawKey ++ ':' :: (f0 ++ '|' :: (mtype ++ '|' :: f2))))

/-- `msg` is a message with this type, key (after normalisation) and fields. -/
def Parsed (msg mtype key : Str) (fields : List Str) : Prop :=
  ∃ rawKey, Message msg mtype rawKey fields ∧ key = normalize rawKey

end Txstatsd.Spec
