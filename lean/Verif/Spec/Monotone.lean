import Verif.Spec.Datasets
import Verif.Model.Utils

/-! Changing one price or one production volume. -/

namespace Ocelot
namespace Spec

/-- `e'` is the product `e` with a price that is not lower; amount and true value are the same. -/
structure Dearer (e e' : Exchange) : Prop where
  amount : e'.amount = e.amount
  trueValue : propValue e' "true value relation" = propValue e "true value relation"
  price : ∃ p p', propValue e "price" = some p ∧ propValue e' "price" = some p' ∧ p ≤ p'

/-- No amount, price or true value is negative. -/
def NonNegative (e : Exchange) : Prop :=
  0 ≤ e.amount ∧ (∀ p, propValue e "price" = some p → 0 ≤ p) ∧ ∀ v, propValue e "true value relation" = some v → 0 ≤ v

/-- What an activity takes or emits of the flow `k` for one unit of its product. -/
def perUnit (d : Dataset) (k : String) : ℚ := burden d k / refAmount d

/-- `s'` is the supplier `s` with a production volume that is not smaller. -/
structure Bigger (s s' : Exchange) : Prop where
  code : s'.code = s.code
  volume : ∃ p p', s.pv = some p ∧ s'.pv = some p' ∧ p.amount ≤ p'.amount

/-- `m'` is the market or market group `m` with a production volume that is not smaller; apart from exchanges nothing else differs. -/
structure BiggerSeller (m m' : Dataset) : Prop where
  rest : m' = { m with exchanges := m'.exchanges }
  volume : (productionVolume m).getD 0 ≤ (productionVolume m').getD 0

/-- What an activity gets from the supplier with code `k`. -/
def received (d : Dataset) (k : String) : ℚ := ((d.exchanges.filter fun e => e.code == some k).map (·.amount)).sum

end Spec
end Ocelot
