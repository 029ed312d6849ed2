import Verif.Model.Basic

/-!
# Specification vocabulary for datasets

Plain predicates on datasets, independent of the modelled functions.
-/

namespace Ocelot.Spec

/-- A production exchange: a reference product or an allocatable byproduct. -/
def isProduction (e : Exchange) : Bool :=
  e.type == .referenceProduct || (e.type == .byproduct && e.cls == some .allocatable)

/-- Every byproduct carries a classification (extraction always adds one). -/
def Classified (ds : Dataset) : Prop :=
  ∀ e ∈ ds.exchanges, e.type = .byproduct → e.cls ≠ none

instance (ds : Dataset) : Decidable (Classified ds) := by unfold Classified; infer_instance

/-- The production exchanges in order. -/
def production (ds : Dataset) : List Exchange := ds.exchanges.filter isProduction

/-- All the other exchanges in order. -/
def nonproduction (ds : Dataset) : List Exchange := ds.exchanges.filter fun e => !isProduction e

/-- The reference product exchanges in order. -/
def refs (ds : Dataset) : List Exchange := ds.exchanges.filter fun e => e.type == .referenceProduct

/-- `n` brings an amount `a` to absolute value one, or `a` is so close to one in absolute value that
nothing is done (`n = 1`). -/
def NormFactor (a n : ℚ) : Prop := n * |a| = 1 ∨ (n = 1 ∧ |1 / |a| - 1| ≤ 1 / 10 ^ 14)

/-- `e'` is `e` with the amount multiplied by `f`; the uncertainty may have changed accordingly. -/
def ScaledBy (f : ℚ) (e e' : Exchange) : Prop :=
  e' = { e with amount := e.amount * f, uncertainty := e'.uncertainty }

/-- Exactly one reference product and no allocatable byproduct. -/
def SingleOutput (ds : Dataset) : Prop :=
  (refs ds).length = 1 ∧ ∀ e ∈ ds.exchanges, ¬ (e.type = .byproduct ∧ e.cls = some .allocatable)

/-- Total amount of the non-production exchanges of `ds` with id `i`. -/
def burden (ds : Dataset) (i : String) : ℚ :=
  (((nonproduction ds).filter fun e => e.id == i && e.type != .droppedProduct).map (·.amount)).sum

end Ocelot.Spec

namespace Ocelot.Spec

/-- The (total) reference product amount. -/
def refAmount (ds : Dataset) : ℚ := ((refs ds).map (·.amount)).sum

/-- First property with a given name, as a number. -/
def propValue (e : Exchange) (name : String) : Option ℚ :=
  (e.properties.find? fun p => p.name == name).map (·.amount)

/-- Revenue of a product: price times amount. -/
def rev (e : Exchange) : ℚ := (propValue e "price").getD 0 * e.amount

/-- Does the product have a true value relation, and the weight it gives. -/
def hasTv (e : Exchange) : Bool := (propValue e "true value relation").isSome
def tvWeight (e : Exchange) : ℚ := (propValue e "true value relation").getD 0 * e.amount

/-- Sum of `f` over the elements satisfying `p`. -/
def sumOver {α : Type} (l : List α) (p : α → Bool) (f : α → ℚ) : ℚ := ((l.filter p).map f).sum

/-- +1 for outputs to the technosphere, -1 for inputs from it, 0 for everything else. -/
def flowSign : ExcType → ℚ
  | .referenceProduct => 1
  | .byproduct => 1
  | .fromTechnosphere => -1
  | _ => 0

/-- Signed net output of the technosphere flow called `name`. -/
def netOutput (ds : Dataset) (name : String) : ℚ :=
  ((ds.exchanges.filter fun e => e.name == name).map fun e => flowSign e.type * e.amount).sum

end Ocelot.Spec
