import Verif.Spec.Monotone

/-! Allocation as a linear map. -/

namespace Ocelot
namespace Spec

/-- What an activity takes or emits does not influence how it is shared out: for given products there is one number for each activity of
the result, and per unit of its product that activity gets this part of everything; `treated` is the material that the activity treats. -/
def SharedLinearly (alloc : MathEnv → Dataset → Except Err (List Dataset)) (treated : List Exchange → String → ℚ) : Prop :=
  ∀ P : List Exchange, ∃ w : List ℚ, ∀ M ds outs, production ds = P → alloc M ds = .ok outs →
    List.Forall₂ (fun q o => ∀ k, perUnit o k = q * (burden ds k + treated P k)) w outs

/-- The material that is described as a negative reference product, as an input. -/
def treatedMaterial (P : List Exchange) (k : String) : ℚ :=
  ((P.filter fun e => e.type == .referenceProduct && e.id == k).map fun e => -e.amount).sum

end Spec
end Ocelot
