import Verif.Model.Lists
import Verif.Model.Utils
import Mathlib.Data.Finset.Basic
import Mathlib.Algebra.BigOperators.Group.Finset.Basic

/-!
# locations/_topology.py and locations/validation.py

A topology is a dictionary from location names to finite sets of face ids. Python `set`s of face ids are
`Finset ℕ`; the difference between `set` and `frozenset` (only used to build cache keys) is dropped.
-/

namespace Ocelot

/-- /repo/ocelot/transformations/locations/_topology.py:8-45: an instance. `data` is `self.data` as an
association list (a dictionary: see `Topology.build` for the constructor), `size` is `self.size_proxy`. -/
structure Topology where
  data : List (String × Finset ℕ)
  /-- _topology.py:47-49: the default proxy is the constant one -/
  size : ℕ → ℚ := fun _ => 1

/-- _topology.py:9-35 `compatibility`: pairs (old name, name in constructive_geometries). -/
def compatibility : List (String × String) :=
  [("ASCC", "US-ASCC"), ("CSG", "CN-CSG"), ("FRCC", "US-FRCC"), ("HICC", "US-HICC"),
   ("MRO, US only", "US-MRO"), ("NPCC, US only", "US-NPCC"), ("RFC", "US-RFC"), ("SERC", "US-SERC"),
   ("SGCC", "CN-SGCC"), ("SPP", "US-SPP"), ("TRE", "US-TRE"), ("WECC, US only", "US-WECC"),
   ("IAI Area 2, North America", "IAI Area, North America"), ("IAI Area 1, Africa", "IAI Area, Africa"),
   ("IAI Area 3, South America", "IAI Area, South America"),
   ("IAI Area 4&5 without China", "IAI Area, Asia, without China and GCC"),
   ("IAI Area 8, Gulf", "IAI Area, Gulf Cooperation Council"), ("IAI Area 1", "IAI Area, Africa"),
   ("IAI Area 2, without Quebec", "IAI Area, North America, without Quebec"),
   ("IAI Area 3", "IAI Area 3, South America"),
   ("IAI Area 4&5, without China", "IAI Area, Asia, without China and GCC"),
   ("IAI Area 8", "IAI Area, Gulf Cooperation Council"),
   ("IAI Area, Europe outside EU & EFTA", "IAI Area, Russia & RER w/o EU27 & EFTA")]

/-- One turn of the loop of _topology.py:43-44: `data[old] = data[fixed]`. -/
def addCompatibility (data : List (String × Finset ℕ)) (p : String × String) :
    Except Err (List (String × Finset ℕ)) := do
  let f ← getKey (data.lookup p.2)
  return dictSet p.1 f data

/-- A loop over the compatibility pairs. -/
def addCompatibilities : List (String × String) → List (String × Finset ℕ) → Except Err (List (String × Finset ℕ))
  | [], data => .ok data
  | p :: l, data => do
    let data' ← addCompatibility data p
    addCompatibilities l data'

/-- _topology.py:37-45 `__init__`; `cg` is `ConstructiveGeometries().data` and `allFaces` its
`all_faces` (an oracle: the package reads them from a data file). -/
def Topology.build (cg : List (String × Finset ℕ)) (allFaces : Finset ℕ) (size : Option (ℕ → ℚ)) :
    Except Err Topology := do
  let data ← addCompatibilities compatibility (dictSet "GLO" allFaces cg)
  return { data := data, size := size.getD fun _ => 1 }

/-- _topology.py:213-217 `__call__`. -/
def Topology.call (T : Topology) (location : String) : Except Err (Finset ℕ) :=
  if location = "RoW" then .ok ∅ else getKey (T.data.lookup location)

/-- `set.union(*sets)` for a nonempty list. -/
def unionAll (l : List (Finset ℕ)) : Finset ℕ := l.foldr (· ∪ ·) ∅

/-- _topology.py:51-57 `resolve_row`. `set.union()` without arguments is a `TypeError`. -/
def Topology.resolveRow (T : Topology) (others : List String) : Except Err (Finset ℕ) := do
  let glo ← T.call "GLO"
  let l ← mapE T.call others
  if l = [] then throw .typeError
  return glo \ unionAll l

/-- The arguments `location`, `parent` and `child` are a name or a set of faces. -/
inductive Loc where
  | name (s : String)
  | faces (f : Finset ℕ)
  deriving DecidableEq

/-- `if subtract:` for a list that may be missing. -/
def given (subtract : Option (List String)) : Bool :=
  match subtract with
  | none => false
  | some [] => false
  | some (_ :: _) => true

/-- _topology.py:90-91, 147-150, 165-168: `if subtract: faces = faces.difference(set.union(...))`. -/
def Topology.subtractFaces (T : Topology) (subtract : Option (List String)) (f : Finset ℕ) : Except Err (Finset ℕ) :=
  if given subtract then do
    let l ← mapE T.call (subtract.getD [])
    return f \ unionAll l
  else .ok f

/-- _topology.py:81-88: the faces of `location` (first step of `_contained`); `none` is the early return. -/
def Topology.containedFaces (T : Topology) (location : Loc) (row : Option (Finset ℕ)) : Except Err (Option (Finset ℕ)) :=
  match location with
  | .faces f => .ok (some f)
  | .name s =>
    if s = "RoW" then .ok row
    else do
      let f ← T.call s
      return some f

/-- _topology.py:98-101: the set comprehension over `self.data.items()`. -/
def Topology.keysWithin (T : Topology) (location : Loc) (excludeSelf : Bool) (f : Finset ℕ) : List String :=
  (T.data.filter fun p => decide (p.2 ⊆ f) && !(decide (Loc.name p.1 = location) && excludeSelf)).map (·.1)

/-- _topology.py:102-109: is `RoW` added? -/
def addsRow (location : Loc) (excludeSelf : Bool) (subtract : Option (List String)) (row : Option (Finset ℕ))
    (f : Finset ℕ) : Bool :=
  match row with
  | none => decide (location = .name "GLO") && !given subtract
  | some r => decide (r ≠ ∅) && decide (r ⊆ f) && !(decide (location = .name "RoW") && excludeSelf)

/-- _topology.py:59-110 `contained`/`_contained` without the cache (see `Model/Lru.lean`). The result set is
a list of names. When `row` is given and the first test at line 110 fails, the second needs `row is None`, so the
two tests are exclusive. -/
def Topology.contained (T : Topology) (location : Loc) (excludeSelf : Bool) (subtract : Option (List String))
    (row : Option (Finset ℕ)) : Except Err (List String) := do
  let o ← T.containedFaces location row
  match o with
  | none => return []
  | some f => do
    let g ← T.subtractFaces subtract f
    if g = ∅ then return []
    return T.keysWithin location excludeSelf g ++ (if addsRow location excludeSelf subtract row g then ["RoW"] else [])

/-- _topology.py:140-145, 158-163: the faces of `parent`, `RoW` being `resolved_row or set()`. -/
def Topology.parentFaces (T : Topology) (parent : Loc) (row : Option (Finset ℕ)) : Except Err (Finset ℕ) :=
  match parent with
  | .faces f => .ok f
  | .name s => if s = "RoW" then .ok (row.getD ∅) else T.call s

/-- _topology.py:112-170 `contains`/`_contains` without the cache. -/
def Topology.contains (T : Topology) (parent child : Loc) (subtract : Option (List String))
    (row : Option (Finset ℕ)) : Except Err Bool :=
  match child with
  | .faces c =>
    if c = ∅ then .ok false
    else do
      let f ← T.parentFaces parent row
      let g ← T.subtractFaces subtract f
      return decide (c ⊆ g)
  | .name c =>
    if parent = .name "GLO" ∧ c = "RoW" ∧ given subtract = false then .ok true
    else if c = "RoW" ∨ (parent = .name "RoW" ∧ row.getD ∅ = ∅) then .ok false
    else do
      let f ← T.parentFaces parent row
      let g ← T.subtractFaces subtract f
      let h ← T.call c
      return decide (h ⊆ g)

/-- _topology.py:182-182 `get_faces`. -/
def Topology.orderFaces (T : Topology) (row : Option (Finset ℕ)) (loc : String) : Except Err (Finset ℕ) :=
  if loc = "RoW" ∧ row.getD ∅ ≠ ∅ then .ok (row.getD ∅) else T.call loc

/-- _topology.py:182-184: the sort key `(size(k), k)`. -/
def Topology.sizeKey (T : Topology) (row : Option (Finset ℕ)) (loc : String) : Except Err (ℚ × String) := do
  let f ← T.orderFaces row loc
  return (∑ i ∈ f, T.size i, loc)

/-- Python's tuple comparison on sort keys, `a ≥ b`. -/
def keyGe (a b : ℚ × String) : Prop := b.1 < a.1 ∨ (b.1 = a.1 ∧ b.2 ≤ a.2)

instance (a b : ℚ × String) : Decidable (keyGe a b) := by unfold keyGe; infer_instance

/-- _topology.py:172-187 `ordered_dependencies`, `datasets` given by their locations:
`sorted(set(locations))`, then sorted by `(size, name)` in reverse. -/
def Topology.orderedDependencies (T : Topology) (locations : List String) (row : Option (Finset ℕ)) :
    Except Err (List String) := do
  let keys ← mapE (T.sizeKey row) (sortNames locations.dedup)
  return (keys.insertionSort keyGe).map (·.2)

/-- _topology.py:206-211 `overlaps`; `None` for an empty group. -/
def Topology.overlaps (T : Topology) (group : List String) : Except Err (Option Bool) :=
  if group = [] then .ok none
  else do
    let l ← mapE T.call group
    return some (decide ((l.map Finset.card).sum ≠ (unionAll l).card))

/-- /repo/ocelot/transformations/locations/validation.py:7-10 `check_single_global_dataset`. -/
def checkSingleGlobalDataset (datasets : List Dataset) : Except Err Unit :=
  if 1 < (datasets.filter fun ds => ds.location == "GLO").length then .error .multipleGlobalDatasets else .ok ()

/-- validation.py:13-20 `no_overlaps`. -/
def noOverlaps (T : Topology) (data : List Dataset) : Except Err Bool := do
  let o ← T.overlaps (data.map (·.location))
  if o = some true then throw .overlappingActivities
  if "GLO" ∈ data.map (·.location) ∧ 1 < data.length then throw .overlappingActivities
  return true

/-- validation.py:24-29 `no_geo_duplicates` (the check made before the wrapped function runs). -/
def noGeoDuplicates (consumers : List Dataset) : Except Err Unit :=
  if consumers.length ≠ (consumers.map (·.location)).dedup.length then .error .valueError else .ok ()

end Ocelot
