import Verif.Spec.Datasets

/-! Describing one product or supplier as two. -/

namespace Ocelot
namespace Spec

/-- `e1` and `e2` together are the product `e`, at the same price and true value. -/
structure SplitProduct (e e1 e2 : Exchange) : Prop where
  amount : e1.amount + e2.amount = e.amount
  price : propValue e1 "price" = propValue e "price" ∧ propValue e2 "price" = propValue e "price"
  trueValue : propValue e1 "true value relation" = propValue e "true value relation" ∧ propValue e2 "true value relation" = propValue e "true value relation"

/-- `s1` and `s2` together have the production volume of `s`. -/
def SplitSupplier (s s1 s2 : Exchange) : Prop :=
  ∃ p p1 p2, s.pv = some p ∧ s1.pv = some p1 ∧ s2.pv = some p2 ∧ p1.amount + p2.amount = p.amount

/-- What an activity gets from the suppliers whose code is one of `K`. -/
def receivedAmong (d : Dataset) (K : String → Bool) : ℚ :=
  ((d.exchanges.filter fun e => e.code.any K).map (·.amount)).sum

end Spec
end Ocelot
