import Verif.Model.Service

/-! What the claims about the carbon client's statistics talk about. -/

namespace Txstatsd.Spec

/-- A statistic of a destination. -/
def OfDestination (name : Str) : Prop := ∃ rest, name = c!"destinations" ++ rest

/-- No two statistics of destinations among `names` get the same name when colons become underscores. -/
def Unambiguous (names : Str → Prop) : Prop :=
  ∀ n n', names n → names n' → OfDestination n → OfDestination n' →
    n.map (fun c => if c = ':' then '_' else c) = n'.map (fun c => if c = ':' then '_' else c) → n = n'

/-- carbon counts: `stats.setdefault(name, 0); stats[name] += amount`. -/
def carbonBump (stats : Dict ℤ) (b : Str × ℤ) : Dict ℤ := stats.put b.1 ((stats.find b.1).getD 0 + b.2)

/-- Rounds: carbon counts some things, then the report runs. The reports, and the final statistics. -/
def statRounds (stats : Dict ℤ) : List (List (Str × ℤ)) → Except PyErr (List (Dict ℤ) × Dict ℤ)
  | [] => .ok ([], stats)
  | bumps :: rest =>
    match reportClientStats (bumps.foldl carbonBump stats) with
    | .error e => .error e
    | .ok (rep, stats) =>
      match statRounds stats rest with
      | .error e => .error e
      | .ok (reps, stats) => .ok (rep :: reps, stats)

/-- How much was counted under a name. -/
def counted (name : Str) (bumps : List (Str × ℤ)) : ℤ := ((bumps.filter fun b => b.1 = name).map (·.2)).sum

end Txstatsd.Spec
