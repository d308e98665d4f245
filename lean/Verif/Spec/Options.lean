import Verif.Model.Options

/-! What the claims about options talk about. -/

namespace Txstatsd.Spec

/-- `arg`, given for an option of this kind, is the value `v` (options that hold one value). -/
inductive Coerced : OptKind → Str → OptVal → Prop
  | text (s : Str) : Coerced .text s (.text s)
  | int {s : Str} {z : ℤ} : parseInt s = some z → Coerced .int s (.int z)

/-- The command line gives the option `d` for the last time with this argument, by its long or its short
name. -/
def GivenLast (decls : List OptDecl) (os : List CmdOpt) (d : OptDecl) (isLong : Bool) (arg : Str) : Prop :=
  ∃ a b o, os = a ++ o :: b ∧ o.isLong = isLong ∧ o.arg = arg ∧ o.name = (if isLong then d.long else d.short) ∧
    ∀ o' ∈ b, o'.name ≠ d.long ∧ o'.name ≠ d.short

/-- A table of options in which no two have the same name and short names have one letter, long ones more. -/
def ProperTable (decls : List OptDecl) : Prop :=
  (∀ d ∈ decls, ∀ d' ∈ decls, d.long = d'.long → d = d') ∧ (∀ d ∈ decls, ∀ d' ∈ decls, d.short = d'.short → d = d') ∧
    ∀ d ∈ decls, d.short.length = 1 ∧ d.long.length ≠ 1 ∧ ¬ c!"plugin_" <+: d.long

end Txstatsd.Spec
