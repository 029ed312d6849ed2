import Verif.Model.MarketGroups

/-!
# locations/linking.py

Logging is not modelled, except where building the message can raise.
-/

namespace Ocelot

/-- /repo/ocelot/transformations/locations/linking.py:14 `unlinked`. -/
def isUnlinked (e : Exchange) : Bool := e.type == .fromTechnosphere && e.code.getD "" == ""

/-- linking.py:25-27: does the dataset make the product called `name`? (`KeyError` for an unlabelled one) -/
def makesProduct (name : String) (ds : Dataset) : Except Err Bool := do
  let r ← getKey ds.refProduct
  return r == name

/-- linking.py:28-44: the code of the only reference, if there is only one. -/
def linkToOnly (e : Exchange) (references : List Dataset) : Except Err Exchange :=
  match references with
  | [found] => do
    let c ← getKey found.code
    return { e with code := some c }
  | _ => .ok e

/-- linking.py:20-44: one exchange. -/
def actualizeLink (data : List Dataset) (e : Exchange) : Except Err Exchange :=
  if e.activityLink.getD "" = "" then .ok e
  else do
    let group := data.filter fun ds => decide (some ds.id = e.activityLink)
    if group = [] then throw .keyError
    let references ← filterE (makesProduct e.name) group
    linkToOnly e references

/-- Apply `f` to every exchange of a dataset. -/
def mapExchangesE (f : Exchange → Except Err Exchange) (ds : Dataset) : Except Err Dataset := do
  let ex ← mapE f ds.exchanges
  return { ds with exchanges := ex }

/-- /repo/ocelot/transformations/locations/linking.py:17-45 `actualize_activity_links`. Only codes of exchanges are
written, which the loop does not read. -/
def actualizeActivityLinks (data : List Dataset) : Except Err (List Dataset) :=
  mapE (mapExchangesE (actualizeLink data)) data

/-- linking.py:59-61 `recycled_content_filter`. -/
def makesRecycledContent (ds : Dataset) : Except Err Bool := do
  let r ← getKey ds.refProduct
  return decide (rcString.toList <:+: r.toList) && ds.type == .transforming

/-- linking.py:68-77: one exchange; `rc` are the recycled content activities. -/
def linkRecycledInput (rc : List Dataset) (e : Exchange) : Except Err Exchange :=
  if isUnlinked e then linkToOnly e (rc.filter fun ds => ds.refProduct == some e.name)
  else .ok e

/-- /repo/ocelot/transformations/locations/linking.py:53-82 `link_consumers_to_recycled_content_activities`. -/
def linkRecycledContent (data : List Dataset) : Except Err (List Dataset) := do
  let rc ← filterE makesRecycledContent data
  mapE (mapExchangesE (linkRecycledInput rc)) data

/-- linking.py:126-129: `ta_mapping` or `ma_mapping`? -/
def peerType (ds : Dataset) : DsType := if ds.type = .transforming then .transforming else .market

/-- linking.py:125-134: the resolved `RoW` of a consumer in `RoW`; types other than transforming activities are looked
up among the markets. -/
def consumerRow (T : Topology) (data : List Dataset) (ds : Dataset) : Except Err (Option (Finset ℕ)) :=
  if ds.location = "RoW" then do
    let same := data.filter fun d => d.type == peerType ds && d.name == ds.name
    if same = [] then throw .keyError
    let r ← T.resolveRow (same.map (·.location))
    return some r
  else .ok none

/-- linking.py:136-143 `contains_wrapper`. -/
def containsWrapper (T : Topology) (consumer supplier : String) (found : List String)
    (consumerRow supplierRow : Option (Finset ℕ)) : Except Err Bool :=
  T.contains (.name consumer) (if supplier = "RoW" then .faces (supplierRow.getD ∅) else .name supplier) (some found)
    (if consumer = "RoW" then consumerRow else none)

/-- linking.py:170-172: one turn of the loop looking for candidates inside the consumer. -/
def insideStep (T : Topology) (loc : String) (crow srow : Option (Finset ℕ)) (found : List String) (candidate : String) :
    Except Err (List String) := do
  let b ← containsWrapper T loc candidate found crow srow
  return if b then found ++ [candidate] else found

/-- linking.py:180-187: the first candidate that contains the consumer. -/
def firstAround (T : Topology) (loc : String) (crow srow : Option (Finset ℕ)) : List String → Except Err (List String)
  | [] => .ok []
  | candidate :: l => do
    let b ← containsWrapper T candidate loc [] srow crow
    if b then return [candidate]
    firstAround T loc crow srow l

/-- linking.py:177-187: if nothing is inside the consumer, look for the smallest candidate around it. -/
def orAround (T : Topology) (loc : String) (crow srow : Option (Finset ℕ)) (ordered found : List String) : Except Err (List String) :=
  if found = [] then firstAround T loc crow srow ordered.reverse else .ok found

/-- linking.py:154-187: the list `to_add` for one exchange. -/
def chooseMarkets (T : Topology) (loc : String) (crow : Option (Finset ℕ)) (candidates : List Dataset) :
    Except Err (List Dataset) := do
  let markets := byLocation (candidates.filter fun d => d.type == .market)
  let groups := byLocation (candidates.filter fun d => d.type == .marketGroup)
  let srow ← T.marketsRow markets
  let ordered ← T.orderedDependencies (markets.map (·.1) ++ groups.map (·.1)) (some srow)
  let found ← foldE (insideStep T loc crow (some srow)) [] ordered
  let found' ← orAround T loc crow (some srow) ordered found
  mapE (candidateAt markets groups) found'

/-- linking.py:100-104: the markets and market groups for a product. -/
def marketsMapping (data : List Dataset) (r : String) : List Dataset :=
  data.filter fun d => (d.type == .market || d.type == .marketGroup) && d.refProduct == some r

/-- linking.py:146-152. The variable `candidates` keeps its value from the previous exchange (of any dataset) if there is
no market for refinery gas; before the first exchange it is unbound. -/
def candidatesFor (data : List Dataset) (previous : Option (List Dataset)) (name : String) : Except Err (List Dataset) :=
  if marketsMapping data name ≠ [] then .ok (marketsMapping data name)
  else if name = "refinery gas" then
    match previous with
    | some l => .ok l
    | none => .error .unboundLocal
  else .error .missingSupplier

/-- linking.py:116-119 `annotate`. -/
def consumerEntry (e : Exchange) (ds : Dataset) : Exchange :=
  { annotateExchange e ds with pv := some { amount := (productionVolume ds).getD 0 } }

/-- /repo/ocelot/transformations/locations/markets.py:212-232 with `is_market=False`: the share of one supplier. -/
def inputShare (M : MathEnv) (e : Exchange) (total : ℚ) (s : Exchange) : Except Err (List Exchange) := do
  let p ← getKey s.pv
  let f := p.amount / total
  if f = 0 then return []
  let new ← scaleExchange M e f
  let c ← getKey s.code
  let _ ← getKey s.location
  return [{ new with type := .fromTechnosphere, tag := "intermediateExchange", code := some c }]

/-- The parts of the state of `link_consumers_to_markets` that change: the variable `candidates`, the exchanges of the
current dataset (each with its original position; `none` for a new one) and its list of suppliers. -/
structure LinkState where
  candidates : Option (List Dataset)
  exchanges : List (Option ℕ × Exchange)
  suppliers : Option (List Exchange)

/-- linking.py:189-191: `exc['code'] = obj['code']` for the exchange at position `i`. -/
def setCodeAt (i : ℕ) (c : String) (p : Option ℕ × Exchange) : Option ℕ × Exchange :=
  if p.1 = some i then (p.1, { p.2 with code := some c }) else p

/-- markets.py:169-250 `allocate_suppliers` with `is_market=False`, more than one supplier. The removal at line 246 compares by value. -/
def splitInput (M : MathEnv) (e : Exchange) (entries : List Exchange) (ex : List (Option ℕ × Exchange)) :
    Except Err (List (Option ℕ × Exchange)) := do
  let vols ← mapE entryVolume entries
  if vols.sum = 0 then return ex
  let new ← flatMapE (inputShare M e vols.sum) entries
  return (ex ++ new.map fun n => (none, n)).filter fun p => decide (p.2 ≠ e)

/-- linking.py:189-228: use the chosen datasets for the exchange `e` at position `i`. -/
def useMarkets (M : MathEnv) (st : LinkState) (e : Exchange) (i : ℕ) (chosen : List Dataset) : Except Err LinkState :=
  match chosen with
  | [] => .ok { st with suppliers := none }
  | [obj] => do
    let c ← getKey obj.code
    return { st with exchanges := st.exchanges.map (setCodeAt i c) }
  | _ :: _ :: _ => do
    let ex ← splitInput M e (chosen.map (consumerEntry e)) st.exchanges
    return { st with exchanges := ex, suppliers := none }

/-- linking.py:145-228: one exchange. It is changed only in its own turn, so its value is the original one. -/
def linkInput (M : MathEnv) (T : Topology) (data : List Dataset) (loc : String) (crow : Option (Finset ℕ)) (st : LinkState)
    (p : Exchange × ℕ) : Except Err LinkState := do
  let candidates ← candidatesFor data st.candidates p.1.name
  let chosen ← chooseMarkets T loc crow candidates
  useMarkets M { st with candidates := some candidates } p.1 p.2 chosen

/-- linking.py:121-228: one dataset; the first component is the variable `candidates`. -/
def linkConsumer (M : MathEnv) (T : Topology) (data : List Dataset) (candidates : Option (List Dataset)) (ds : Dataset) :
    Except Err (Option (List Dataset) × Dataset) :=
  if ds.type = .marketGroup then .ok (candidates, ds)
  else do
    let crow ← consumerRow T data ds
    let st ← foldE (linkInput M T data ds.location crow)
      { candidates := candidates, exchanges := ds.exchanges.zipIdx.map fun p => (some p.2, p.1), suppliers := ds.suppliers }
      (ds.exchanges.zipIdx.filter fun p => isUnlinked p.1)
    return (st.candidates, { ds with exchanges := st.exchanges.map (·.2), suppliers := st.suppliers })

/-- A loop that updates each element and carries a variable along. -/
def scanE {σ α β : Type} (f : σ → α → Except Err (σ × β)) (s : σ) : List α → Except Err (List β)
  | [] => .ok []
  | a :: l => do
    let p ← f s a
    let r ← scanE f p.1 l
    return p.2 :: r

/-- /repo/ocelot/transformations/locations/linking.py:91-229 `link_consumers_to_markets`. The loop reads only names,
locations, types, codes, reference products and reference production volumes of markets and market groups, none of which it
changes, so these are read from the original data. -/
def linkConsumersToMarkets (M : MathEnv) (T : Topology) (data : List Dataset) : Except Err (List Dataset) := do
  let _ ← mapE withRefProduct (data.filter fun d => d.type == .market || d.type == .marketGroup)
  scanE (linkConsumer M T data) none data

/-- /repo/ocelot/transformations/locations/linking.py:237-246 `log_and_delete_unlinked_exchanges`. Line 245 tests the
code of the dataset, not of the exchange. -/
def logAndDeleteUnlinked (data : List Dataset) : List Dataset :=
  data.map fun ds => { ds with exchanges := ds.exchanges.filter fun _ => ds.code.getD "" != "" }

/-- linking.py:258-261: one dataset. -/
def addReferenceProductCode (ds : Dataset) : Except Err Dataset :=
  match ds.code with
  | none => .error .assertionError
  | some c => do
    let _ ← getSingleReferenceProduct ds
    return { ds with exchanges := ds.exchanges.map fun e => if e.type = .referenceProduct then { e with code := some c } else e }

/-- /repo/ocelot/transformations/locations/linking.py:254-262 `add_reference_product_codes`. -/
def addReferenceProductCodes (data : List Dataset) : Except Err (List Dataset) := mapE addReferenceProductCode data

/-- /repo/ocelot/transformations/identifying.py:25-33: the loop of `add_unique_codes`. -/
def addCodesFrom (hash : Dataset → String) : List String → List Dataset → Except Err (List Dataset)
  | _, [] => .ok []
  | seen, ds :: l =>
    if hash ds ∈ seen then .error .identicalDatasets
    else do
      let r ← addCodesFrom hash (hash ds :: seen) l
      return { ds with code := some (hash ds) } :: r

/-- /repo/ocelot/transformations/identifying.py:16-34 `add_unique_codes`. -/
def addUniqueCodes (lower md5 : String → String) (data : List Dataset) : Except Err (List Dataset) :=
  addCodesFrom (activityHash lower md5) [] data

end Ocelot
