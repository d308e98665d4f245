import Verif.Model.PyText
import Verif.Spec.Metrics

/-!
# What clients should do with texts that are not ASCII
-/

namespace Txstatsd.Spec

/-- The UTF-8 bytes of a text, one `Char` per byte, by Lean's own encoder. -/
def utf8 (s : Str) : Str := s.flatMap fun c => (String.utf8EncodeChar c).map fun b => Char.ofNat b.toNat

/-- The text stands for these characters: a unicode string, or a byte string of ASCII characters. -/
inductive Stands : PyText → Str → Prop
  | uni (s : Str) : Stands (.uni s) s
  | ascii (s : Str) (h : ∀ c ∈ s, c.toNat < 128) : Stands (.bytes s) s

/-- The same of texts that may be missing. -/
inductive StandsOpt : Option PyText → Option Str → Prop
  | none : StandsOpt none none
  | some {t : PyText} {s : Str} (h : Stands t s) : StandsOpt (some t) (some s)

/-- The characters that a call should send after the name, given those of its texts. -/
inductive Says : TextCall → Str → Prop
  | report {v t : PyText} {a b : Str} : Stands v a → Stands t b → Says (.report v t none) (a ++ c!"|" ++ b)
  | extra {v t e : PyText} {a b c : Str} : Stands v a → Stands t b → Stands e c →
      Says (.report v t (some e)) (a ++ c!"|" ++ b ++ c!"|" ++ c)
  | gauge {v : PyText} {a : Str} : Stands v a → Says (.gauge v) (a ++ c!"|g")
  | meter {v : PyText} {a : Str} : Stands v a → Says (.meter v) (a ++ c!"|m")
  | increment {v : PyText} {a : Str} : Stands v a → Says (.increment v) (a ++ c!"|c")
  | distinct {v : PyText} {a : Str} : Stands v a → Says (.distinct v) (a ++ c!"|d")

/-- The text is a byte string with a byte above 127. -/
def RawBytes (t : PyText) : Prop := ∃ s, t = .bytes s ∧ ∃ c ∈ s, 128 ≤ c.toNat

/-- The texts a call was given. -/
def textsOf (ns name : Option PyText) : TextCall → List PyText
  | .report v t e => ns.toList ++ name.toList ++ [v, t] ++ e.toList
  | .gauge v => ns.toList ++ name.toList ++ [v]
  | .meter v => ns.toList ++ name.toList ++ [v]
  | .increment v => ns.toList ++ name.toList ++ [v]
  | .distinct v => ns.toList ++ name.toList ++ [v]

end Txstatsd.Spec
