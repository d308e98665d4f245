import Verif.Spec.Sli

/-!
# What can be read as rules of the SLI plugin (for C175)
-/

namespace Txstatsd.Spec

section
variable [Rounding]

omit [Rounding] in
/-- The patterns are different, non-empty and of letters, digits and `_.*?-`; the labels of one pattern are different, non-empty and
words. -/
def ReadRules (cfg : SliConfig) : Prop :=
  cfg.keys.Nodup ∧ ∀ pc ∈ cfg, pc.1 ≠ [] ∧ (∀ c ∈ pc.1, c ∈ headChars) ∧ pc.2.keys.Nodup ∧
    ∀ kc ∈ pc.2, kc.1 ≠ [] ∧ ∀ c ∈ kc.1, c ∈ wordChars

omit [Rounding] in
/-- No condition is `metric`, which is none, though there is a method `build_metric`. -/
def NoMetricRules (text : Str) : Prop :=
  ∀ line ∈ splitOn '\n' (strip text), ∀ head label params, ¬ RuleLine line head label c!"metric" params

end
end Txstatsd.Spec
