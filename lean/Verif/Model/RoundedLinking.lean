import Verif.Model.Rounded
import Verif.Model.Linking

/-! # Inputs of consumers with rounded arithmetic -/

namespace Ocelot

open Spec (Rounding)

/-- /repo/ocelot/transformations/locations/markets.py:212-232 with `is_market=False`: the share of one supplier, with the
quotient and the multiplications in `scale_exchange` rounded. -/
def inputShareR (R : Rounding) (M : MathEnv) (e : Exchange) (total : ℚ) (s : Exchange) : Except Err (List Exchange) := do
  let p ← getKey s.pv
  let f := R.fl (p.amount / total)
  if f = 0 then return []
  let new ← scaleExchangeR R M e f
  let c ← getKey s.code
  let _ ← getKey s.location
  return [{ new with type := .fromTechnosphere, tag := "intermediateExchange", code := some c }]

/-- /repo/ocelot/transformations/locations/markets.py:169-250 `allocate_suppliers` with `is_market=False` and more than one
supplier; the sum of the volumes is Python's. -/
def splitInputR (R : Rounding) (M : MathEnv) (e : Exchange) (entries : List Exchange) (ex : List (Option ℕ × Exchange)) :
    Except Err (List (Option ℕ × Exchange)) := do
  let vols ← mapE entryVolume entries
  if pySum R vols = 0 then return ex
  let new ← flatMapE (inputShareR R M e (pySum R vols)) entries
  return (ex ++ new.map fun n => (none, n)).filter fun p => decide (p.2 ≠ e)

end Ocelot
