import Verif.Model.Basic

/-!
# Specification vocabulary for uncertain objects

Independent of the functions in `Verif.Model.Uncertainty`.
-/

namespace Ocelot.Spec

/-- The object carries a uniform or triangular distribution on `[lo, hi]`, with the bounds in order,
containing the amount, and (triangular) with the amount as mode. -/
structure Bounded (o : NumObj) (u : Unc) (lo hi : ℚ) : Prop where
  unc : o.uncertainty = some u
  kind : u.kind = some .uniform ∨ (u.kind = some .triangular ∧ u.mode = some o.amount)
  min : u.minimum = some lo
  max : u.maximum = some hi
  lo_le : lo ≤ o.amount
  le_hi : o.amount ≤ hi

/-- A lognormal object whose stored numbers agree with its amount: `mean = |amount| > 0`,
`mu = log mean`, and the `negative` flag set exactly for negative amounts. -/
structure LogConsistent (M : MathEnv) (o : NumObj) (u : Unc) : Prop where
  unc : o.uncertainty = some u
  kind : u.kind = some .lognormal
  nonzero : o.amount ≠ 0
  mean : u.mean = some |o.amount|
  mu : u.mu = some (M.log |o.amount|)
  negative : u.negative = some (decide (o.amount < 0))

/-- Objects in the form in which repair leaves them and for which scaling is expected to be an
action of the nonzero rationals. Uniform distributions are not included (see `C03_uniform_fails`). -/
inductive Settled (M : MathEnv) (o : NumObj) : Prop
  | certain (h : o.uncertainty = none)
  | untyped (u) (h : o.uncertainty = some u) (k : u.kind = none)
  | undefined (u lo hi) (h : o.uncertainty = some u) (k : u.kind = some .undefined)
      (hmin : u.minimum = some lo) (hmax : u.maximum = some hi)
  | normal (u v) (h : o.uncertainty = some u) (k : u.kind = some .normal)
      (a : o.amount ≠ 0) (hv : u.variance = some v)
  | triangular (u lo hi) (h : Bounded o u lo hi) (k : u.kind = some .triangular) (ne : lo < hi)
  | lognormal (u) (h : LogConsistent M o u)

/-- What a repaired object looks like. -/
inductive Repaired (M : MathEnv) (o : NumObj) : Prop
  | certain (h : o.uncertainty = none)
  | unchecked (u) (h : o.uncertainty = some u) (k : u.kind = none ∨ u.kind = some .undefined)
  | normal (u) (h : o.uncertainty = some u) (k : u.kind = some .normal) (m : u.mean = some o.amount)
  | bounded (u lo hi) (h : Bounded o u lo hi) (ne : lo < hi)
  | lognormal (u) (h : LogConsistent M o u)

end Ocelot.Spec
