import Verif.Model.Cutoff

/-!
# Hard (activity) links

Models /repo/ocelot/transformations/activity_links.py.  Logging is not modelled, except where building the
message can raise.
-/

namespace Ocelot

/-- `mapping[id]` for `mapping = {ds['id']: ds for ds in data}` (activity_links.py:23 and 109): the last
dataset with this id. -/
def idMapping (data : List Dataset) (id : String) : Except Err Dataset :=
  getKey ((dictOf (fun d : Dataset => d.id) (fun d => d) data).lookup id)

/-- activity_links.py:32-34 and 132-134: the production exchanges called `name`. -/
def productionNamed (ds : Dataset) (name : String) : Except Err (List Exchange) := do
  let prod ← allocatableProduction ds
  return prod.filter fun e => e.name == name

/-- activity_links.py:25-42: one link. -/
def checkLink (data : List Dataset) (e : Exchange) : Except Err Unit :=
  match e.activityLink with
  | none => .ok ()
  | some l =>
    if l = "" then .ok ()
    else
      match idMapping data l with
      | .error _ => .error .unresolvableActivityLink
      | .ok ds => do
        let found ← productionNamed ds e.name
        if found.length = 1 then return () else throw .unresolvableActivityLink

/-- /repo/ocelot/transformations/activity_links.py:17-43 `check_activity_link_validity`. -/
def checkActivityLinkValidity (data : List Dataset) : Except Err (List Dataset) := do
  forE (fun ds : Dataset => forE (checkLink data) ds.exchanges) data
  return data

/-- `pv["subtracted activity link volume"] = pv.get(..., 0) + v`, activity_links.py:157-161. -/
def addSubtracted (v : ℚ) (p : PV) : PV := { p with subtracted := some (p.subtracted.getD 0 + v) }

/-- Is this a production exchange called `name`? (no exception: used after `allocatable_production` has
succeeded on the dataset) -/
def isProductionNamed (name : String) (e : Exchange) : Bool :=
  (match isAllocatable e with
    | .ok b => b
    | .error _ => false) && e.name == name

/-- activity_links.py:129-161: the effect of one link on its target dataset. `scale` is evaluated between
the assertion and the write. -/
def addToTarget (name : String) (amount : ℚ) (scale : Except Err ℚ) (ds : Dataset) : Except Err Dataset := do
  let found ← productionNamed ds name
  match found with
  | [e] => do
    let s ← scale
    let _ ← getKey e.pv
    return { ds with exchanges := ds.exchanges.map fun x => if isProductionNamed name x then { x with pv := x.pv.map (addSubtracted (amount * s)) } else x }
  | _ => throw .assertionError

/-- In-place change of the dataset that `mapping[id]` refers to, i.e. the last one with this id. -/
def modifyLast (id : String) (f : Dataset → Except Err Dataset) : List Dataset → Except Err (List Dataset)
  | [] => .error .keyError
  | d :: l =>
    if l.any (fun x => x.id == id) then do
      let r ← modifyLast id f l
      return d :: r
    else if d.id = id then do
      let d' ← f d
      return d' :: l
    else .error .keyError

/-- activity_links.py:111-161: one exchange `e` of the dataset `ds`; `st` is the current data. -/
def hardLinkStep (ds : Dataset) (st : List Dataset) (e : Exchange) : Except Err (List Dataset) :=
  match e.activityLink with
  | none => .ok st
  | some l =>
    if l = "" then .ok st
    else if l = ds.id then .ok st
    else modifyLast l (addToTarget e.name e.amount (getBiggestPvRatio ds)) st

/-- A loop that updates a state and may raise. -/
def foldE {α σ : Type} (f : σ → α → Except Err σ) : σ → List α → Except Err σ
  | s, [] => .ok s
  | s, a :: l => do
    let s' ← f s a
    foldE f s' l

/-- /repo/ocelot/transformations/activity_links.py:46-162 `add_hard_linked_production_volumes`. The linking
side (`ds`, `exc`) is read from the initial data: the loop only writes `subtracted activity link volume`,
which the linking side does not read. -/
def addHardLinkedProductionVolumes (data : List Dataset) : Except Err (List Dataset) :=
  foldE (fun st ds => foldE (hardLinkStep ds) st ds.exchanges) data data

/-- activity_links.py:184-189, one production volume. -/
def reduceVolume (p : PV) : PV :=
  match p.subtracted with
  | none => p
  | some s => { p with originalAmount := some p.amount, amount := max (p.amount - s) 0 }

/-- activity_links.py:171-189, one exchange. -/
def updateProduction (e : Exchange) : Except Err Exchange := do
  let b ← isAllocatable e
  if b then
    let p ← getKey e.pv
    return { e with pv := some (reduceVolume p) }
  else return e

/-- /repo/ocelot/transformations/activity_links.py:165-190 `update_transforming_activity_production_volumes`. -/
def updateTransformingVolumes (data : List Dataset) : Except Err (List Dataset) :=
  mapE (fun ds : Dataset =>
    if ds.type = .transforming then do
      let ex ← mapE updateProduction ds.exchanges
      return { ds with exchanges := ex }
    else .ok ds) data

/-- activity_links.py:209-211, one exchange of a dataset with id `id` and parent `parent`. -/
def redirectToChild (parent id : String) (e : Exchange) : Except Err Exchange := do
  let b ← isAllocatable e
  if b then return e
  else if e.activityLink = some parent then return { e with activityLink := some id }
  else return e

/-- activity_links.py:205-216, one dataset. -/
def updateParentChild (ds : Dataset) : Except Err Dataset :=
  match ds.parent with
  | none => .ok ds
  | some p =>
    if p = "" then .ok ds
    else do
      let ex ← mapE (redirectToChild p ds.id) ds.exchanges
      return { ds with exchanges := ex }

/-- /repo/ocelot/transformations/activity_links.py:193-216 `update_activity_link_parent_child`. -/
def updateActivityLinkParentChild (data : List Dataset) : Except Err (List Dataset) :=
  mapE updateParentChild data

/-- The id in activity_links.py:229. -/
def removedLink35 : String := "25edb027-d7c0-4756-a051-cab82e4f6248"

/-- /repo/ocelot/transformations/activity_links.py:224-239 `fix_35_activity_links`. -/
def fix35ActivityLinks (data : List Dataset) : List Dataset :=
  data.map fun ds => { ds with exchanges := ds.exchanges.map fun e => if e.activityLink = some removedLink35 then { e with activityLink := none } else e }

/-- /repo/ocelot/transformations/activity_links.py:242-248 `manage_activity_links`. -/
def manageActivityLinks (data : List Dataset) : Except Err (List Dataset) := do
  let d ← checkActivityLinkValidity (fix35ActivityLinks data)
  let d ← addHardLinkedProductionVolumes d
  updateTransformingVolumes d

end Ocelot
