import Verif.Model.Basic

/-!
# Uncertainty distributions and scaling

Models /repo/ocelot/transformations/uncertainty/__init__.py, distributions.py and pedigree.py.
Methods mutate a dictionary in place and return it; the model returns the new object.  When Python
raises after a partial update the partially updated object is not observable in any modelled caller
(the exception propagates out of the run), so errors carry no state.
-/

namespace Ocelot

open Except

/-- /repo/ocelot/transformations/uncertainty/__init__.py:4-8 `remove_exchange_uncertainty`. -/
def NumObj.removeUncertainty (o : NumObj) : NumObj := { o with uncertainty := none }

/-! ## Pedigree matrix -/

/-- /repo/ocelot/transformations/uncertainty/pedigree.py:8-15, table `original`
(the default `version`; the `Ciroth et al` table is never selected by any caller and not modelled). -/
def pedigreeTable : List (String × List ℚ) :=
  [ ("reliability", [0, 6/10000, 2/1000, 8/1000, 4/100]),
    ("completeness", [0, 1/10000, 6/10000, 2/1000, 8/1000]),
    ("temporal correlation", [0, 2/10000, 2/1000, 8/1000, 4/100]),
    ("geographical correlation", [0, 25/1000000, 1/10000, 6/10000, 2/1000]),
    ("further technological correlation", [0, 6/10000, 8/1000, 4/100, 12/100]),
    ("sample size", [0, 98/1000000, 6/10000, 23/10000, 83/10000]) ]

/-- Python tuple indexing `t[i]` with negative indices counting from the end and `IndexError`
outside; used by pedigree.py:32 with `i = v - 1`. -/
def pyIndex {α} (l : List α) (i : Int) : Except Err α :=
  let j : Int := if i < 0 then i + l.length else i
  if j < 0 then .error .indexError
  else match l[j.toNat]? with
    | some a => .ok a
    | none => .error .indexError

/-- One summand of pedigree.py:32. -/
def pedigreeTerm (kv : String × Int) : Except Err ℚ :=
  match pedigreeTable.lookup kv.1 with
  | none => .error .keyError
  | some row => pyIndex row (kv.2 - 1)

/-- /repo/ocelot/transformations/uncertainty/pedigree.py:29-32 `get_pedigree_variance`.
Scores are integers by typing, so the assertion at line 31 always holds. -/
def getPedigreeVariance : List (String × Int) → Except Err ℚ
  | [] => .ok 0
  | kv :: rest => do
      let a ← pedigreeTerm kv
      let b ← getPedigreeVariance rest
      return a + b

/-- pedigree.py:63-78: the new value of `temporal correlation` for a year difference. -/
def adjustTemporal (current : Int) (difference : Int) : Int :=
  if difference > 0 then
    if current = 3 ∧ difference ≤ 5 then 4
    else if current = 2 ∧ difference < 5 then 3
    else if current = 2 ∧ difference = 5 then 4
    else if current = 1 ∧ difference ≤ 3 then 2
    else if current = 1 ∧ difference ≤ 7 then 3
    else if current = 1 ∧ difference ≤ 12 then 4
    else 5
  else current

/-- Replace the value of a key that is present in an association list (a Python dict assignment to an
existing key keeps its position). -/
def assocSet {β} (k : String) (v : β) : List (String × β) → List (String × β)
  | [] => []
  | (k', v') :: r => if k' = k then (k', v) :: r else (k', v') :: assocSet k v r

/-- /repo/ocelot/transformations/uncertainty/pedigree.py:47-79 `adjust_pedigree_matrix_time`.
Dates are modelled by their years (`get_difference_in_years`, lines 35-44, only uses the year). -/
def adjustPedigreeMatrixTime (endYear year : Int) (o : NumObj) : Except Err NumObj :=
  match o.pedigree with
  | none => .ok o
  | some pm =>
    match pm.lookup "temporal correlation" with
    | none => .error .keyError
    | some cur =>
      .ok { o with pedigree := some (assocSet "temporal correlation" (adjustTemporal cur |endYear - year|) pm) }

/-! ## Repair -/

/-- `get_pedigree_variance(obj.get('pedigree matrix', {}))`, distributions.py:114,121,128. -/
def objPedigreeVariance (o : NumObj) : Except Err ℚ :=
  getPedigreeVariance (o.pedigree.getD [])

/-- /repo/ocelot/transformations/uncertainty/distributions.py:90-130 `Lognormal.repair`
with the default `fix_extremes=True` (the only value used by callers). -/
def lognormalRepair (M : MathEnv) (o : NumObj) (u : Unc) : Except Err NumObj :=
  if o.amount = 0 then .ok o.removeUncertainty
  else do
    let vp ← getKey u.variancePed
    if vp = 0 then return o.removeUncertainty
    let pv ← objPedigreeVariance o
    let variance := vp - pv
    let u' := { u with
      mean := some |o.amount|
      negative := some (decide (o.amount < 0))
      mu := some (M.log |o.amount|)
      variance := some variance }
    if 1 ≤ variance ∧ variance ≤ M.e then
      return { o with uncertainty := some { u' with
        variance := some (M.log variance), variancePed := some (M.log variance + pv) } }
    else if variance > M.e then
      return { o with uncertainty := some { u' with
        variance := some (1/4), variancePed := some (1/4 + pv) } }
    else
      return { o with uncertainty := some u' }

/-- /repo/ocelot/transformations/uncertainty/distributions.py:179-198 `Normal.repair`. -/
def normalRepair (o : NumObj) (u : Unc) : Except Err NumObj := do
  let vp ← getKey u.variancePed
  if vp = 0 then return o.removeUncertainty
  return { o with uncertainty := some { u with mean := some o.amount } }

/-- /repo/ocelot/transformations/uncertainty/distributions.py:292-309 `Triangular.repair`. -/
def triangularRepair (o : NumObj) (u : Unc) : Except Err NumObj := do
  let mn ← getKey u.minimum
  let mx ← getKey u.maximum
  let mode := o.amount
  if mn = mx ∧ mx = mode then return o.removeUncertainty
  let lo := if mn > mx then mx else mn
  let hi := if mn > mx then mn else mx
  if mode < lo ∨ mode > hi then return o.removeUncertainty
  return { o with uncertainty := some { u with mode := some mode, minimum := some lo, maximum := some hi } }

/-- `np.allclose(a, b)` with default tolerances: `|a - b| <= 1e-8 + 1e-5 * |b|`. -/
def allclose (a b : ℚ) : Bool := decide (|a - b| ≤ 1/100000000 + 1/100000 * |b|)

/-- /repo/ocelot/transformations/uncertainty/distributions.py:343-364 `Uniform.repair`. -/
def uniformRepair (o : NumObj) (u : Unc) : Except Err NumObj := do
  let mn ← getKey u.minimum
  let mx ← getKey u.maximum
  if mn = mx ∧ mx = o.amount then return o.removeUncertainty
  let lo := if mn > mx then mx else mn
  let hi := if mn > mx then mn else mx
  if o.amount < lo ∨ o.amount > hi then throw .valueError
  let u' := { u with minimum := some lo, maximum := some hi }
  if !allclose o.amount ((lo + hi) / 2) then
    triangularRepair o { u' with kind := some .triangular }
  else
    return { o with uncertainty := some u' }

/-- `get_uncertainty_class(obj).repair(obj)`, i.e. /repo/ocelot/transformations/uncertainty/__init__.py:32-36
followed by the class's `repair`; called from parameterization/uncertainty.py:7-16 and
parameterization/recalculation.py:79-81. -/
def repair (M : MathEnv) (o : NumObj) : Except Err NumObj :=
  match o.uncertainty with
  | none => .ok o
  | some u =>
    match u.kind with
    | none => .ok o
    | some .undefined => .ok o
    | some .lognormal => lognormalRepair M o u
    | some .normal => normalRepair o u
    | some .triangular => triangularRepair o u
    | some .uniform => uniformRepair o u
    | some (.other _) => .error .unsupportedDistribution

/-! ## Rescale -/

/-- /repo/ocelot/transformations/uncertainty/distributions.py:67-73 `Undefined.rescale`. -/
def undefinedRescale (o : NumObj) (u : Unc) (f : ℚ) : Except Err NumObj := do
  let mn ← getKey u.minimum
  let mx ← getKey u.maximum
  return { o with amount := o.amount * f, uncertainty := some { u with minimum := some (mn * f), maximum := some (mx * f) } }

/-- distributions.py:143-147: the branch of `Lognormal.rescale` for a positive factor.
`math.log` of a non-positive number raises `ValueError`. -/
def lognormalRescalePos (M : MathEnv) (o : NumObj) (u : Unc) (f : ℚ) : Except Err NumObj :=
  let a := o.amount * f
  if |a| ≤ 0 then .error .valueError
  else .ok { o with amount := a, uncertainty := some { u with mean := some |a|, mu := some (M.log |a|) } }

/-- /repo/ocelot/transformations/uncertainty/distributions.py:133-147 `Lognormal.rescale`; the
recursive call with `abs(factor)` is unfolded. -/
def lognormalRescale (M : MathEnv) (o : NumObj) (u : Unc) (f : ℚ) : Except Err NumObj :=
  if f < 0 then
    lognormalRescalePos M { o with amount := -1 * o.amount }
      { u with negative := some (!(u.negative.getD false)) } |f|
  else if f = 0 then .ok { o with amount := 0, uncertainty := none }
  else lognormalRescalePos M o u f

/-- /repo/ocelot/transformations/uncertainty/distributions.py:201-224 `Normal.rescale`
(`Normal.recalculate`, lines 227-272, returns its argument). -/
def normalRescale (o : NumObj) (u : Unc) (f : ℚ) : Except Err NumObj :=
  if f = 0 then .ok { o with amount := 0, uncertainty := none }
  else if o.amount = 0 then .error .zeroDivisionError
  else do
    let v ← getKey u.variance
    return { o with amount := o.amount * f, uncertainty := some { u with variance := some (((o.amount * f) / o.amount) ^ 2 * v) } }

/-- /repo/ocelot/transformations/uncertainty/distributions.py:312-319 `Triangular.rescale`. -/
def triangularRescale (o : NumObj) (u : Unc) (f : ℚ) : Except Err NumObj := do
  let mn ← getKey u.minimum
  let md ← getKey u.mode
  let mx ← getKey u.maximum
  let u' := { u with minimum := some (mn * f), mode := some (md * f), maximum := some (mx * f) }
  triangularRepair { o with amount := o.amount * f, uncertainty := some u' } u'

/-- /repo/ocelot/transformations/uncertainty/distributions.py:367-373 `Uniform.rescale`. -/
def uniformRescale (o : NumObj) (u : Unc) (f : ℚ) : Except Err NumObj := do
  let mn ← getKey u.minimum
  let mx ← getKey u.maximum
  let u' := { u with minimum := some (mn * f), maximum := some (mx * f) }
  uniformRepair { o with amount := o.amount * f, uncertainty := some u' } u'

/-- /repo/ocelot/transformations/uncertainty/__init__.py:39-45 `scale_exchange` on the numeric part,
with `get_uncertainty_class` (lines 32-36) inlined. -/
def NumObj.scale (M : MathEnv) (o : NumObj) (f : ℚ) : Except Err NumObj :=
  if f = 1 then .ok o
  else match o.uncertainty with
    | none => .ok { o with amount := o.amount * f }
    | some u =>
      match u.kind with
      | none => .ok { o with amount := o.amount * f }
      | some .undefined => undefinedRescale o u f
      | some .lognormal => lognormalRescale M o u f
      | some .normal => normalRescale o u f
      | some .triangular => triangularRescale o u f
      | some .uniform => uniformRescale o u f
      | some (.other _) => .error .unsupportedDistribution

/-- /repo/ocelot/transformations/uncertainty/__init__.py:39-45 `scale_exchange`: only the keys
`amount` and `uncertainty` of the exchange dictionary are touched. -/
def scaleExchange (M : MathEnv) (e : Exchange) (f : ℚ) : Except Err Exchange := do
  let o ← e.toNumObj.scale M f
  return { e with toNumObj := o }

/-- `remove_exchange_uncertainty` applied to an exchange. -/
def Exchange.removeUncertainty (e : Exchange) : Exchange :=
  { e with toNumObj := e.toNumObj.removeUncertainty }

/-- `get_uncertainty_class(obj).recalculate(obj)`: /repo/ocelot/transformations/uncertainty/distributions.py
lines 38-40 (default, no-op), 150-156 (`Lognormal.recalculate`), 227-272, 322-324, 376-378 (no-ops). -/
def recalculatePedigree (o : NumObj) : Except Err NumObj :=
  match o.uncertainty with
  | none => .ok o
  | some u =>
    match u.kind with
    | some .lognormal => do
      let v ← getKey u.variance
      let pv ← objPedigreeVariance o
      return { o with uncertainty := some { u with variancePed := some (v + pv) } }
    | some (.other _) => .error .unsupportedDistribution
    | _ => .ok o

/-- /repo/ocelot/transformations/uncertainty/__init__.py:48-50 `adjust_pedigree_matrix_time`. -/
def adjustPedigreeTime (endYear year : Int) (o : NumObj) : Except Err NumObj := do
  let o' ← adjustPedigreeMatrixTime endYear year o
  recalculatePedigree o'

/-- The pedigree matrix built by `extract_pedigree_matrix`
(/repo/ocelot/io/extract_ecospold2.py:46-51) from the five XML attributes, with the labels of
/repo/ocelot/io/ecospold2_meta.py:45-51. -/
def extractedPedigree (r c t g f : Int) : List (String × Int) :=
  [("reliability", r), ("completeness", c), ("temporal correlation", t),
   ("geographical correlation", g), ("further technology correlation", f)]

/-! ## Export to `stats_arrays` -/

/-- The `loc` parameter produced by `to_stats_arrays` (distributions.py:43-49, 76-82, 159-171,
275-284, 327-335); uniform distributions have none (lines 381-388). -/
def statsLoc (o : NumObj) : Except Err (Option ℚ) :=
  match o.uncertainty with
  | none => .ok (some o.amount)
  | some u =>
    match u.kind with
    | none => .ok (some o.amount)
    | some .undefined => .ok (some o.amount)
    | some .lognormal => do let m ← getKey u.mu; return some m
    | some .normal => do let m ← getKey u.mean; return some m
    | some .triangular => do let m ← getKey u.mode; return some m
    | some .uniform => .ok none
    | some (.other _) => .error .unsupportedDistribution

end Ocelot
