import Verif.Model.Uncertainty
import Mathlib.Analysis.Real.Sqrt

/-!
# What is handed to the sampler

Models the methods `to_stats_arrays` of /repo/ocelot/transformations/uncertainty/distributions.py.  Standard deviations are square roots of rationals, hence
reals; all other numbers are rationals as elsewhere.
-/

namespace Ocelot

/-- The classes of `stats_arrays` that are named in distributions.py:24, 63, 87, 176, 289, 340; their `id` is the key `uncertainty type`. -/
inductive StatsKind where
  | noUncertainty | undefined | lognormal | normal | triangular | uniform
  deriving DecidableEq, Repr

/-- The dictionary that `to_stats_arrays` returns. -/
structure StatsDict where
  kind : StatsKind
  amount : ℚ
  loc : Option ℚ := none
  scale : Option ℝ := none
  minimum : Option ℚ := none
  maximum : Option ℚ := none
  negative : Option Bool := none

/-- `math.sqrt`; a negative number raises `ValueError`. -/
noncomputable def mathSqrt (x : ℚ) : Except Err ℝ := if x < 0 then .error .valueError else .ok (Real.sqrt x)

/-- `get_uncertainty_class(obj).to_stats_arrays(obj)`: /repo/ocelot/transformations/uncertainty/distributions.py lines 43-49 (`NoUncertainty`),
76-82 (`Undefined`), 159-171 (`Lognormal`), 275-284 (`Normal`), 327-335 (`Triangular`), 381-388 (`Uniform`). -/
noncomputable def toStats (o : NumObj) : Except Err StatsDict :=
  match o.uncertainty with
  | none => .ok { kind := .noUncertainty, amount := o.amount, loc := some o.amount }
  | some u =>
    match u.kind with
    | none => .ok { kind := .noUncertainty, amount := o.amount, loc := some o.amount }
    | some .undefined => .ok { kind := .undefined, amount := o.amount, loc := some o.amount }
    | some .lognormal => do
      let mu ← getKey u.mu
      let v ← getKey u.variancePed
      let s ← mathSqrt v
      return { kind := .lognormal, amount := o.amount, loc := some mu, scale := some s, negative := some (decide (o.amount < 0)) }
    | some .normal => do
      let m ← getKey u.mean
      let v ← getKey u.variancePed
      let s ← mathSqrt v
      return { kind := .normal, amount := o.amount, loc := some m, scale := some s }
    | some .triangular => do
      let m ← getKey u.mode
      let lo ← getKey u.minimum
      let hi ← getKey u.maximum
      return { kind := .triangular, amount := o.amount, loc := some m, minimum := some lo, maximum := some hi }
    | some .uniform => do
      let lo ← getKey u.minimum
      let hi ← getKey u.maximum
      return { kind := .uniform, amount := o.amount, minimum := some lo, maximum := some hi }
    | some (.other _) => .error .unsupportedDistribution

end Ocelot
