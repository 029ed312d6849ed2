import Verif.Model.Basic

/-! Describing an activity at another size. -/

namespace Ocelot
namespace Spec

/-- An exchange of an activity that is described at `c` times the size: the amount is multiplied, everything else (properties, prices,
yearly production volumes) is the same. -/
def excAtSize (c : ℚ) (e : Exchange) : Exchange := { e with amount := c * e.amount }

/-- An activity described at `c` times the size. -/
def atSize (c : ℚ) (d : Dataset) : Dataset := { d with exchanges := d.exchanges.map (excAtSize c) }

/-- The amounts of an activity carry no uncertainty. -/
def Certain (d : Dataset) : Prop := ∀ e ∈ d.exchanges, e.uncertainty = none

/-- An amount is told apart from one by the tolerance of 1e-14 unless it is one. -/
def Distinct (a : ℚ) : Prop := a = 0 ∨ |a| = 1 ∨ 1 / 10 ^ 14 < |1 / |a| - 1|

/-- The amounts of products and byproducts, at both sizes, are told apart from one. -/
def Sizeable (c : ℚ) (d : Dataset) : Prop :=
  ∀ e ∈ d.exchanges, e.type = .referenceProduct ∨ e.type = .byproduct → Distinct e.amount ∧ Distinct (c * e.amount)

/-- Two results are the same up to a common factor that is one within 3e-14. -/
def NearlySame (r r' : Dataset) : Prop := ∃ t, |t - 1| ≤ 3 / 10 ^ 14 ∧ r' = atSize t r

/-- Both computations raise the same exception, or give the same number of results which are the same, one by one, up to such factors. -/
def SameUpToTolerance : Except Err (List Dataset) → Except Err (List Dataset) → Prop
  | .ok l, .ok l' => List.Forall₂ NearlySame l l'
  | .error e, .error e' => e = e'
  | _, _ => False

end Spec
end Ocelot
