import Verif.Model.Stats

/-! # What a description of a distribution for the sampler should say -/

namespace Ocelot.Spec

/-- The description fits the amount `a`: a lognormal distribution has the logarithm of the absolute amount as location and a sign, a normal one the amount,
a triangular one the amount as mode between its bounds, and the bounds of a uniform one contain the amount. -/
def Fits (M : MathEnv) (a : ℚ) (d : StatsDict) : Prop :=
  d.amount = a ∧ match d.kind with
    | .noUncertainty | .undefined => d.loc = some a
    | .lognormal => a ≠ 0 ∧ d.loc = some (M.log |a|) ∧ d.negative = some (decide (a < 0)) ∧ ∃ s, d.scale = some s ∧ 0 ≤ s
    | .normal => d.loc = some a ∧ ∃ s, d.scale = some s ∧ 0 ≤ s
    | .triangular => d.loc = some a ∧ ∃ lo hi, d.minimum = some lo ∧ d.maximum = some hi ∧ lo ≤ a ∧ a ≤ hi ∧ lo < hi
    | .uniform => ∃ lo hi, d.minimum = some lo ∧ d.maximum = some hi ∧ lo ≤ a ∧ a ≤ hi ∧ lo < hi

/-- `d'` describes the distribution of `f` times a random number that is distributed as `d` says (`f ≠ 0`): the logarithm of a lognormal number is moved by
`log |f|` and the sign changes with that of `f`; mean and standard deviation of a normal one are multiplied by `f` and `|f|`; bounds and mode are multiplied
by `f`, where a negative `f` exchanges the bounds. -/
def ScaledStats (M : MathEnv) (f : ℚ) (d d' : StatsDict) : Prop :=
  d'.kind = d.kind ∧ d'.amount = d.amount * f ∧ match d.kind with
    | .noUncertainty | .undefined => d'.loc = d.loc.map (· * f)
    | .lognormal => d'.loc = d.loc.map (· + M.log |f|) ∧ d'.scale = d.scale ∧ d'.negative = d.negative.map (fun b => xor b (decide (f < 0)))
    | .normal => d'.loc = d.loc.map (· * f) ∧ d'.scale = d.scale.map (· * |(f : ℝ)|)
    | .triangular | .uniform => d'.loc = d.loc.map (· * f) ∧
        d'.minimum = (if f < 0 then d.maximum else d.minimum).map (· * f) ∧ d'.maximum = (if f < 0 then d.minimum else d.maximum).map (· * f)

end Ocelot.Spec
