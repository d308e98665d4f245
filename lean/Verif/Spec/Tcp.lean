import Verif.Model.Base

/-!
# Specification of line framing, independent of the model's functions
-/

namespace Txstatsd.Spec

/-- Carriage return, line feed. -/
abbrev crlf : Str := ['\r', '\n']

/-- The content of a line: without its final CRLF, or its final CR, or the line itself if it has
neither. -/
def Body (line t : Str) : Prop :=
  line = t ++ crlf ∨ line = t ++ ['\r'] ∨ (line = t ∧ ¬ crlf <:+ t ∧ ¬ ['\r'] <:+ t)

/-- A byte stream of CRLF-terminated lines. -/
def stream (ls : List Str) : Str := ls.flatMap (· ++ crlf)

/-- A line that a receiver can tell apart: no CRLF inside. -/
def NoCrlf (l : Str) : Prop := ¬ crlf <:+: l

end Txstatsd.Spec
