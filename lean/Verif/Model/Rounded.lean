import Verif.Model.Cutoff
import Verif.Model.Markets
import Verif.Spec.Rounding

/-!
# Scaling, normalisation, economic allocation and market shares with rounded arithmetic

The other model files compute with exact rationals.  Here the functions that multiply, divide and add
amounts are modelled a second time, with every single operation followed by the rounding `R.fl`, in
the order in which Python performs them.  Changes of sign, absolute values, comparisons and `max` are
exact in floating point arithmetic and are not rounded.  Overflow, underflow and NaN stay outside.
-/

namespace Ocelot

open Spec (Rounding)

/-- /repo/ocelot/transformations/uncertainty/distributions.py:67-73 `Undefined.rescale`. -/
def undefinedRescaleR (R : Rounding) (o : NumObj) (u : Unc) (f : ℚ) : Except Err NumObj := do
  let mn ← getKey u.minimum
  let mx ← getKey u.maximum
  return { o with amount := R.fl (o.amount * f), uncertainty := some { u with minimum := some (R.fl (mn * f)), maximum := some (R.fl (mx * f)) } }

/-- distributions.py:143-147: the branch of `Lognormal.rescale` for a positive factor. -/
def lognormalRescalePosR (R : Rounding) (M : MathEnv) (o : NumObj) (u : Unc) (f : ℚ) : Except Err NumObj :=
  let a := R.fl (o.amount * f)
  if |a| ≤ 0 then .error .valueError
  else .ok { o with amount := a, uncertainty := some { u with mean := some |a|, mu := some (M.log |a|) } }

/-- /repo/ocelot/transformations/uncertainty/distributions.py:133-147 `Lognormal.rescale`. -/
def lognormalRescaleR (R : Rounding) (M : MathEnv) (o : NumObj) (u : Unc) (f : ℚ) : Except Err NumObj :=
  if f < 0 then
    lognormalRescalePosR R M { o with amount := -1 * o.amount }
      { u with negative := some (!(u.negative.getD false)) } |f|
  else if f = 0 then .ok { o with amount := 0, uncertainty := none }
  else lognormalRescalePosR R M o u f

/-- /repo/ocelot/transformations/uncertainty/distributions.py:201-224 `Normal.rescale`: product, quotient,
square and product are rounded one after the other (`** 2` is taken to be a rounded product). -/
def normalRescaleR (R : Rounding) (o : NumObj) (u : Unc) (f : ℚ) : Except Err NumObj :=
  if f = 0 then .ok { o with amount := 0, uncertainty := none }
  else if o.amount = 0 then .error .zeroDivisionError
  else do
    let v ← getKey u.variance
    let q := R.fl (R.fl (o.amount * f) / o.amount)
    return { o with amount := R.fl (o.amount * f), uncertainty := some { u with variance := some (R.fl (R.fl (q * q) * v)) } }

/-- /repo/ocelot/transformations/uncertainty/distributions.py:312-319 `Triangular.rescale`; `Triangular.repair`
(lines 292-309) only compares, so `triangularRepair` is used as it stands. -/
def triangularRescaleR (R : Rounding) (o : NumObj) (u : Unc) (f : ℚ) : Except Err NumObj := do
  let mn ← getKey u.minimum
  let md ← getKey u.mode
  let mx ← getKey u.maximum
  let u' := { u with minimum := some (R.fl (mn * f)), mode := some (R.fl (md * f)), maximum := some (R.fl (mx * f)) }
  triangularRepair { o with amount := R.fl (o.amount * f), uncertainty := some u' } u'

/-- `np.allclose(a, b)` with default tolerances, `|a - b| <= 1e-8 + 1e-5 * |b|`, rounded. The literals are
taken as the decimal numbers. -/
def allcloseR (R : Rounding) (a b : ℚ) : Bool :=
  decide (|R.fl (a - b)| ≤ R.fl (1/100000000 + R.fl (1/100000 * |b|)))

/-- /repo/ocelot/transformations/uncertainty/distributions.py:343-364 `Uniform.repair`: the midpoint (line 359)
and the test for closeness are rounded. -/
def uniformRepairR (R : Rounding) (o : NumObj) (u : Unc) : Except Err NumObj := do
  let mn ← getKey u.minimum
  let mx ← getKey u.maximum
  if mn = mx ∧ mx = o.amount then return o.removeUncertainty
  let lo := if mn > mx then mx else mn
  let hi := if mn > mx then mn else mx
  if o.amount < lo ∨ o.amount > hi then throw .valueError
  let u' := { u with minimum := some lo, maximum := some hi }
  if !allcloseR R o.amount (R.fl (R.fl (lo + hi) / 2)) then
    triangularRepair o { u' with kind := some .triangular }
  else
    return { o with uncertainty := some u' }

/-- /repo/ocelot/transformations/uncertainty/distributions.py:367-373 `Uniform.rescale`. -/
def uniformRescaleR (R : Rounding) (o : NumObj) (u : Unc) (f : ℚ) : Except Err NumObj := do
  let mn ← getKey u.minimum
  let mx ← getKey u.maximum
  let u' := { u with minimum := some (R.fl (mn * f)), maximum := some (R.fl (mx * f)) }
  uniformRepairR R { o with amount := R.fl (o.amount * f), uncertainty := some u' } u'

/-- /repo/ocelot/transformations/uncertainty/__init__.py:39-45 `scale_exchange` on the numeric part
(without a distribution: distributions.py:33-36 `NoUncertainty.rescale`). -/
def NumObj.scaleR (R : Rounding) (M : MathEnv) (o : NumObj) (f : ℚ) : Except Err NumObj :=
  if f = 1 then .ok o
  else match o.uncertainty with
    | none => .ok { o with amount := R.fl (o.amount * f) }
    | some u =>
      match u.kind with
      | none => .ok { o with amount := R.fl (o.amount * f) }
      | some .undefined => undefinedRescaleR R o u f
      | some .lognormal => lognormalRescaleR R M o u f
      | some .normal => normalRescaleR R o u f
      | some .triangular => triangularRescaleR R o u f
      | some .uniform => uniformRescaleR R o u f
      | some (.other _) => .error .unsupportedDistribution

/-- /repo/ocelot/transformations/uncertainty/__init__.py:39-45 `scale_exchange`. -/
def scaleExchangeR (R : Rounding) (M : MathEnv) (e : Exchange) (f : ℚ) : Except Err Exchange := do
  let o ← e.toNumObj.scaleR R M f
  return { e with toNumObj := o }

/-- /repo/ocelot/transformations/utils.py:228-243 `normalize_reference_production_amount`. -/
def normalizeR (R : Rounding) (M : MathEnv) (ds : Dataset) : Except Err Dataset := do
  let product ← getSingleReferenceProduct ds
  if product.amount = 0 then throw .zeroProduction
  let factor := R.fl (1 / |product.amount|)
  if |R.fl (factor - 1)| > normEpsilon then
    let ex ← mapE (fun e => scaleExchangeR R M e factor) ds.exchanges
    return { ds with exchanges := ex }
  else
    return ds

/-- Column `revenue`, /repo/ocelot/transformations/utils.py:222. -/
def revenueR (R : Rounding) (e : Exchange) : ℚ := R.fl (price e * e.amount)

/-- `df['true value'] * df['amount']`, /repo/ocelot/transformations/cutoff/economic.py:45. -/
def trueValueR (R : Rounding) (e : Exchange) : ℚ := R.fl (trueValue e * e.amount)

/-- economic.py:42-51: the factor of one exchange, given the three sums formed by pandas: all revenues
(`total`, lines 42 and 48), the revenues of the rows with a true value (`tvRev`, line 47) and all true
values (`tvSum`, line 50). -/
def economicFactorR (R : Rounding) (total tvRev tvSum : ℚ) (e : Exchange) : ℚ :=
  if hasTrueValue e then R.fl (R.fl (trueValueR R e / tvSum) * R.fl (tvRev / total))
  else R.fl (revenueR R e / total)

/-- /repo/ocelot/transformations/cutoff/economic.py:41-51: the list of allocation factors; `add` stands for the
`sum` of a pandas column, whose order of additions is not specified. A zero sum gives NaN. -/
def economicFactorsR (R : Rounding) (add : List ℚ → ℚ) (prod : List Exchange) : Except Err (List ℚ) :=
  if prod = [] then .error .keyError
  else
    let total := add (prod.map (revenueR R))
    if total = 0 then .error .nanValue
    else
      let tvSum := add (prod.map (trueValueR R))
      let tvRev := add ((prod.filter hasTrueValue).map (revenueR R))
      if prod.any hasTrueValue ∧ tvSum = 0 then .error .nanValue
      else .ok (prod.map (economicFactorR R total tvRev tvSum))

/-- Python's `sum`: from the left, beginning with 0. -/
def pySum (R : Rounding) (l : List ℚ) : ℚ := l.foldl (fun s x => R.fl (s + x)) 0

/-- markets.py:213-226: the input exchange made for one supplier entry, `[]` when its share is zero (`if not
scale_factor: continue`). -/
def marketInputR (R : Rounding) (amount total : ℚ) (s : Exchange) : Except Err (List Exchange) := do
  let p ← getKey s.pv
  let f := R.fl (p.amount / total)
  if f = 0 then return []
  let c ← getKey s.code
  let _ ← getKey s.location
  return [{ amount := R.fl (f * amount), name := s.name, unit := s.unit, type := .fromTechnosphere, tag := "intermediateExchange", code := some c }]

/-- /repo/ocelot/transformations/locations/markets.py:169-250 `allocate_suppliers` with the default arguments. -/
def allocateSuppliersR (R : Rounding) (ds : Dataset) : Except Err Dataset := do
  let exc ← getSingleReferenceProduct ds
  let sup ← getKey ds.suppliers
  let vols ← mapE entryVolume sup
  if pySum R vols = 0 then
    if sup.length ≠ 1 then return ds
    let _ ← getKey ds.refProduct
    let _ ← mapE (fun s : Exchange => getKey s.location) sup
    let sup' := sup.map defaultVolume
    let new ← flatMapE (marketInputR R exc.amount 4321) sup'
    return { ds with suppliers := some sup', exchanges := ds.exchanges ++ new }
  let new ← flatMapE (marketInputR R exc.amount (pySum R vols)) sup
  return { ds with exchanges := ds.exchanges ++ new }

/-- markets.py:288-296: the new volume of a market, from the volumes of its supplier entries and the
volume taken by hard links. -/
def marketVolumeR (R : Rounding) (vols : List ℚ) (subtracted : ℚ) : ℚ := max (R.fl (pySum R vols - subtracted)) 0

end Ocelot
