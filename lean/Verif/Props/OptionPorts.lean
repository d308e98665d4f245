import Verif.Model.Options
import Verif.Lemmas.RouterText
import Verif.Lemmas.Dict

/-!
# C86: which ports are taken
-/

namespace Txstatsd
open Spec

/-- C86: a port given on the command line is taken if it is the text of a number from 0 to 65535, and refused with a `ValueError`
otherwise. -/
theorem C86_port (d : OptDecl) (hd : d.kind = .ports) (values : Dict OptVal) (arg : Str) :
    (∀ z, Port arg z → 0 ≤ z → z ≤ 65535 →
      dispatchOpt d values arg = .ok (values.put d.long (.ports (portsOf (values.find d.long) ++ [z])))) ∧
    ((∀ z, Port arg z → z < 0 ∨ 65535 < z) → dispatchOpt d values arg = .error .valueError) := by
  unfold dispatchOpt
  rw [hd]
  simp only [portCoerce]
  constructor
  · intro z hz h0 h1
    rw [parseInt_iff.2 hz]
    simp [h0, h1]
  · intro h
    cases hp : parseInt arg with
    | none => rfl
    | some z =>
      have := h z (parseInt_iff.1 hp)
      simp only
      rw [if_neg (by omega)]

/-- C86: the ports of a command line that gives nothing but ports are those given, in order. -/
theorem C86_ports (args : List (Str × ℤ)) (h : ∀ a ∈ args, Port a.1 a.2 ∧ 0 ≤ a.2 ∧ a.2 ≤ 65535) (values : Dict OptVal)
    (decls : List OptDecl) (d : OptDecl) (hd : d.kind = .ports) (o : Str → CmdOpt) (ho : ∀ a, resolveOpt decls (o a) = some d ∧ (o a).arg = a) :
    ∃ v, dispatchAll decls values (args.map fun a => o a.1) = .ok v ∧
      portsOf (v.find d.long) = portsOf (values.find d.long) ++ args.map Prod.snd := by
  induction args generalizing values with
  | nil => exact ⟨values, rfl, by simp⟩
  | cons a args ih =>
    obtain ⟨g1, g2, g3⟩ := h a (by simp)
    have e := (C86_port d hd values a.1).1 a.2 g1 g2 g3
    obtain ⟨v, v1, v2⟩ := ih (fun a ha => h a (by simp [ha])) (values.put d.long (.ports (portsOf (values.find d.long) ++ [a.2])))
    refine ⟨v, ?_, ?_⟩
    · rw [List.map_cons, dispatchAll, (ho a.1).1]
      simp only [(ho a.1).2, e]
      exact v1
    · rw [v2, Dict.find_put_self]
      simp [portsOf]

example : dispatchOpt ⟨c!"carbon-cache-port", c!"p", .ports⟩ [] c!"65535" = .ok [(c!"carbon-cache-port", .ports [65535])] ∧
    dispatchOpt ⟨c!"carbon-cache-port", c!"p", .ports⟩ [] c!"65536" = .error .valueError ∧
    dispatchOpt ⟨c!"carbon-cache-port", c!"p", .ports⟩ [] c!"-1" = .error .valueError ∧
    dispatchOpt ⟨c!"carbon-cache-port", c!"p", .ports⟩ [] c!"graphite" = .error .valueError := by decide +kernel

example : Port c!"2004" 2004 := parseInt_iff.1 (by decide +kernel)

end Txstatsd
