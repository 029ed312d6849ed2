import Verif.Props.Topology
import Verif.Props.RestOfWorld
import Verif.Props.Linking
import Verif.Model.Markets
import Verif.Model.Pipeline
import Verif.Props.Params

/-! # Vocabulary: consistent databases -/

namespace Ocelot
namespace Spec

/-- What the distribution of a number must say so that the number can be multiplied by any factor: an undefined distribution needs both bounds,
a normal one a variance and an amount other than zero, a lognormal one an amount other than zero, a triangular one bounds and mode, and the
amount of a uniform one lies between its bounds. -/
def Steady (o : NumObj) : Prop :=
  match o.uncertainty with
  | none => True
  | some u =>
    match u.kind with
    | none => True
    | some .undefined => u.minimum.isSome ∧ u.maximum.isSome
    | some .lognormal => o.amount ≠ 0
    | some .normal => o.amount ≠ 0 ∧ u.variance.isSome
    | some .triangular => u.minimum.isSome ∧ u.mode.isSome ∧ u.maximum.isSome
    | some .uniform => ∃ a b, u.minimum = some a ∧ u.maximum = some b ∧ a ≤ o.amount ∧ o.amount ≤ b
    | some (.other _) => False

/-- What the distribution of a number must say as it is read, before distributions are repaired. -/
def Mendable (o : NumObj) : Prop :=
  match o.uncertainty with
  | none => True
  | some u =>
    match u.kind with
    | none => True
    | some .undefined => u.minimum.isSome ∧ u.maximum.isSome
    | some .lognormal => True
    | some .normal => u.variancePed = some 0 ∨ (o.amount ≠ 0 ∧ u.variance.isSome)
    | some .triangular => u.minimum.isSome ∧ u.maximum.isSome
    | some .uniform => ∃ a b, u.minimum = some a ∧ u.maximum = some b ∧ min a b ≤ o.amount ∧ o.amount ≤ max a b
    | some (.other _) => False

/-- The number has a uniform distribution. -/
def IsUniform (o : NumObj) : Prop := ∃ u, o.uncertainty = some u ∧ u.kind = some .uniform

/-- The sign of the number can be changed, if the model does that. -/
def Bendable (flip : Bool) (o : NumObj) : Prop := flip = true → ¬ IsUniform o

end Spec

open Spec

namespace Progress

/-- What the functions after `add_unique_codes` never change: name, type, location and product. -/
structure Sig where
  name : String
  type : DsType
  location : String
  product : String
  deriving DecidableEq

def sig (d : Dataset) : Sig := ⟨d.name, d.type, d.location, d.refProduct.getD ""⟩

/-- Two datasets that must not overlap: markets for the same product, or transforming activities with the same name and product. -/
def Rival (a b : Sig) : Prop :=
  a.product = b.product ∧ a.type = b.type ∧ (a.type = .market ∨ (a.type = .transforming ∧ a.name = b.name))

/-- The places do not overlap. -/
def Separate (T : Topology) (a b : String) : Prop :=
  a ≠ b ∧ a ≠ "GLO" ∧ b ≠ "GLO" ∧ ∀ f g, HasFaces T a f → HasFaces T b g → Disjoint f g

/-- The second is a market or another market group inside the territory of the first, for the same product. -/
def Covers (T : Topology) (g m : Sig) : Prop :=
  m.product = g.product ∧ (m.type = .market ∨ (m.type = .marketGroup ∧ m.location ≠ g.location)) ∧
  ∃ f f', HasFaces T g.location f ∧ HasFaces T m.location f' ∧ f' ⊆ f

/-- The conditions on the whole database. -/
structure Db (T : Topology) (l : List Sig) : Prop where
  known : ∀ s ∈ l, Spec.Known T s.location
  kinds : ∀ s ∈ l, s.type = .transforming ∨ s.type = .market ∨ s.type = .marketGroup
  apart : l.Pairwise fun a b => Rival a b → Separate T a.location b.location
  groups : l.Pairwise fun a b => a.type = .marketGroup → b.type = .marketGroup → a.product = b.product → a.name = b.name ∧ a.location ≠ b.location
  noRow : ∀ s ∈ l, s.type = .marketGroup → s.location ≠ "RoW"
  covers : ∀ s ∈ l, s.type = .marketGroup → ∃ m ∈ l, Covers T s m

/-- Some market or market group sells the product. -/
def Sold (l : List Sig) (n : String) : Prop := ∃ s ∈ l, (s.type = .market ∨ s.type = .marketGroup) ∧ s.product = n

/-! ## The database after allocation -/

/-- The datasets that stay: all but the `GLO` markets with a name on the list of the software. -/
def kept (data : List Dataset) : List Dataset :=
  data.filter fun d => !decide (d.type = .market ∧ d.location = "GLO" ∧ d.name ∈ canDeleteMarkets)

/-- The name of the reference product. -/
def product (d : Dataset) : String := ((refs d).head?.map (·.name)).getD ""

/-- The location of the dataset in the results: `GLO` becomes `RoW` when the activity has other datasets. -/
def place (data : List Dataset) (d : Dataset) : String := if Relabelled data d then "RoW" else d.location

/-- Name, type, location and product of the dataset in the results. -/
def finalSig (data : List Dataset) (d : Dataset) : Sig := ⟨d.name, d.type, place data d, product d⟩

/-- The code of the dataset in the results. -/
def finalCode (lower md5 : String → String) (data : List Dataset) (d : Dataset) : String :=
  md5 (identity lower { d with location := place data d, refProduct := some (product d) })

/-- A dataset as it should be after allocation: one reference product with a production volume and an amount, byproducts (and the reference
product of a market) classified, and all numbers such that they can be
multiplied. `flip` says whether the model changes the sign of wastes, as only the cut-off model does. -/
structure Single (flip : Bool) (d : Dataset) : Prop where
  ref : ∃ r, refs d = [r] ∧ r.pv.isSome ∧ r.amount ≠ 0 ∧ (d.type = .market → r.cls ≠ none)
  classified : Classified d
  steady : ∀ e ∈ d.exchanges, Steady e.toNumObj ∧ (e.type = .byproduct → Bendable flip e.toNumObj)
  fresh : d.suppliers = none
  pipeline : ¬ (d.type = .transforming ∧ d.name = "transport, pipeline, long distance, natural gas" ∧ d.location = "RER w/o DE+NL+NO")

/-- A list of single output datasets that can be linked. -/
structure Orderly (flip : Bool) (T : Topology) (lower md5 : String → String) (k : List Dataset) : Prop where
  single : ∀ d ∈ k, Single flip d
  /-- an activity has at most one `GLO` dataset -/
  oneGlobal : ∀ d ∈ k, Relabelled k d → ((activityGroup k d).filter fun o => o.location == "GLO").length = 1
  db : Db T (k.map (finalSig k))
  codes : (k.map (finalCode lower md5 k)).Nodup ∧ ∀ d ∈ k, finalCode lower md5 k d ≠ ""
  /-- activity links lead to a dataset -/
  links : ∀ d ∈ k, ∀ e ∈ d.exchanges, e.type ≠ .referenceProduct → e.type ≠ .droppedProduct → ∀ l, e.activityLink = some l → l ≠ "" → ∃ t ∈ k, t.id = l
  /-- every input is sold by a market, or has an activity link to the only dataset with that id and product -/
  inputs : ∀ d ∈ k, d.type ≠ .marketGroup → ∀ e ∈ d.exchanges, e.type = .fromTechnosphere → Sold (k.map (finalSig k)) e.name ∨
    ∃ l, e.activityLink = some l ∧ l ≠ "" ∧ ∃ t, (k.filter fun o => decide (o.id = l ∧ product o = e.name)) = [t]

/-! ## The database as it is read -/

/-- The exchange is only meant for the consequential model. -/
def marked (e : Exchange) : Bool := e.properties.any fun p => p.name == "consequential" && p.amount == 1

/-- The exchanges that the cut-off model uses. -/
def visible (d : Dataset) (e : Exchange) : Bool :=
  !marked e && !decide (d.name = "petroleum refinery operation" ∧ e.name = "refinery gas" ∧ e.amount = 0)

/-- The id in the one link that the software removes. -/
def forbiddenLink : String := "25edb027-d7c0-4756-a051-cab82e4f6248"

/-- Where the activity link of an exchange leads: reference products have none, nor have exchanges without amount; a link to the parent of the
dataset means the dataset itself, except for byproducts that are no wastes; one link is left out. -/
def effectiveLink (d : Dataset) (e : Exchange) : Option String :=
  let l := if e.type = .referenceProduct ∨ e.type = .droppedProduct ∨ e.amount = 0 then none else e.activityLink
  let l' := if d.parent.getD "" ≠ "" ∧ isProduction e = false ∧ l = d.parent then some d.id else l
  if l' = some forbiddenLink then none else l'

/-- The dataset that the cut-off model works with. Distributions are left out here: the conditions on them are those of `Readable.numbers`. -/
def prepared (d : Dataset) : Dataset :=
  { d with exchanges := (d.exchanges.filter (visible d)).map fun e => { e with activityLink := effectiveLink d e, uncertainty := none } }

/-- The dataset after the ids of the exchanges have been noted down. -/
def noted (d : Dataset) : Dataset := { d with exchanges := d.exchanges.map fun e => { e with originalId := some e.id } }

/-! ## The parts of an activity with several products -/

/-- A byproduct that can be recycled. -/
def recyclable (e : Exchange) : Bool := e.type == .byproduct && e.cls == some .recyclable

/-- Recyclable byproducts get another name. -/
def recNamed (d : Dataset) : Dataset :=
  { d with exchanges := d.exchanges.map fun e => if recyclable e then { e with name := e.name ++ ", Recycled Content cut-off" } else e }

/-- The dataset for the recycled material that comes from a recyclable byproduct. -/
def recycled (d : Dataset) (e : Exchange) : Dataset :=
  { name := e.name, location := "GLO", type := .transforming, id := d.id, startDate := d.startDate, endDate := d.endDate, technologyLevel := d.technologyLevel,
    exchanges := [{ name := e.name, id := e.id, type := .referenceProduct, amount := 1, pv := some { amount := 4 } }] }

/-- All these datasets, one for each name: the last one. -/
def recycledAll (l : List Dataset) : List Dataset :=
  (dictOf (fun d : Dataset => d.name) (fun d => d) (l.flatMap fun d => (d.exchanges.filter recyclable).map (recycled d))).map (·.2)

/-- A product that the activity does not have any more. -/
def lost (e : Exchange) : Exchange := { e with type := .droppedProduct, amount := 0, pv := none }

/-- The activity with only one of its products. Amounts are left as they are: only which of them are zero matters here. -/
def only (d : Dataset) (x : Exchange) : Dataset :=
  { d with exchanges := { x with type := .referenceProduct, cls := none } :: (((production d).filter fun e => e.name != x.name).map lost ++ nonproduction d) }

/-- The activity with its reference product as an input. -/
def recycling (d : Dataset) : Dataset :=
  { d with exchanges := d.exchanges.map fun e => if e.type = .referenceProduct then { e with type := .fromTechnosphere, amount := -e.amount } else e }

/-- The byproducts that are products of their own. -/
def coproducts (d : Dataset) : List Exchange := (production d).filter fun e => e.type == .byproduct

/-- The activity has byproducts that are no wastes. -/
def multiple (d : Dataset) : Bool := (coproducts d).any fun e => e.amount != 0

/-- The classification of the reference product. -/
def refClass (d : Dataset) : Option Cls := (refs d).head?.bind (·.cls)

/-- The datasets into which allocation divides an activity: one per product. The treatment of a waste keeps its inputs, and its byproducts are free;
the byproducts of recycling share the inputs, to which the material belongs that is recycled. -/
def parts (d : Dataset) : List Dataset :=
  if multiple d then
    if 0 ≤ refAmount d then (production d).map (only d)
    else if refClass d = some .waste then (refs d).map (only d) ++ (coproducts d).map fun x => only { d with exchanges := [x] } x
    else (production (recycling d)).map (only (recycling d))
  else [d]

/-- The products can be weighed by their revenues. -/
structure Valued (l : List Exchange) : Prop where
  prices : ∀ e ∈ l, 0 ≤ e.amount ∧ ∃ p, propValue e "price" = some p ∧ 0 ≤ p
  revenue : (l.map rev).sum ≠ 0
  value : (∃ e ∈ l, hasTv e = true) → (l.map tvWeight).sum ≠ 0

/-- The activity can be divided. -/
structure Divisible (d : Dataset) : Prop where
  /-- markets and market groups with several products are rejected -/
  kind : d.type ≠ .market ∧ d.type ≠ .marketGroup
  names : ((production d).map (·.name)).Nodup
  amounts : ∀ e ∈ production d, e.amount ≠ 0
  values : if 0 ≤ refAmount d then Valued (production d) else refClass d = some .waste ∨ Valued (production (recycling d))

/-- The database after allocation. -/
def allocated (data : List Dataset) : List Dataset :=
  let l := data.map fun d => recNamed (prepared d)
  (l ++ recycledAll l).flatMap parts

/-- What the files must fulfil before the markets matter. -/
structure Readable (P : PipelineEnv) (data : List Dataset) : Prop where
  ids : (data.map (·.id)).Nodup
  distinct : ∀ d ∈ data, (varNames d).Nodup
  /-- the parameters of each dataset can be cleaned up -/
  cleanup : ∀ d ∈ data, ∃ d', fixEcoinventParameters P.M P.text (noted d) = .ok d'
  /-- one reference product, which is not reserved for the consequential model -/
  oneProduct : ∀ d ∈ data, ∃ r, refs d = [r] ∧ r.pv.isSome ∧ r.amount ≠ 0 ∧ marked r = false
  /-- byproducts are classified, and those that are no wastes have a production volume -/
  byproducts : ∀ d ∈ data, ∀ e ∈ d.exchanges, e.type = .byproduct → e.cls ≠ none ∧ (e.cls = some .allocatable → e.pv.isSome)
  /-- activities with recyclable byproducts have dates and a technology level -/
  dates : ∀ d ∈ data, (∃ e ∈ d.exchanges, recyclable e = true) → d.startDate.isSome ∧ d.endDate.isSome ∧ d.technologyLevel.isSome
  /-- activities with several products can be divided -/
  products : ∀ d ∈ data, multiple (prepared d) = true → Divisible (prepared d)
  /-- distributions that can be repaired and scaled -/
  numbers : ∀ d ∈ data, ∀ e ∈ d.exchanges, visible d e = true → Mendable e.toNumObj ∧
    (e.type = .byproduct → (e.cls = some .allocatable ∧ e.amount ≠ 0) ∨ ¬ IsUniform e.toNumObj)
  /-- a market does not take its own product without an activity link -/
  ownProduct : ∀ d ∈ data, d.type = .market → ∀ r, refs d = [r] → ∀ e ∈ d.exchanges, e.name = r.name → e ≠ r → e.activityLink.getD "" ≠ ""
  /-- activity links lead to the right product -/
  targets : ∀ d ∈ data, ∀ e ∈ (prepared d).exchanges, ∀ l, e.activityLink = some l → l ≠ "" →
    ∃ t ∈ data, t.id = l ∧ ((production (prepared t)).filter fun x => x.name == e.name).length = 1

/-! ## The consequential model -/

/-- The exchange is used by both models: an exchange of refinery gas without amount is left out of refineries. -/
def present (d : Dataset) (e : Exchange) : Bool := !decide (d.name = "petroleum refinery operation" ∧ e.name = "refinery gas" ∧ e.amount = 0)

/-- The dataset that the consequential model works with when no exchange is conditional: all activity links are removed. Distributions are left
out as in `prepared`. -/
def unlinkedDs (d : Dataset) : Dataset :=
  { d with exchanges := (d.exchanges.filter (present d)).map fun e => { e with activityLink := none, uncertainty := none } }

/-- The constrained exchanges that lead to the dataset with the id `i`. -/
def condsTo (i : String) (data : List Dataset) : List Exchange :=
  data.flatMap fun d => d.exchanges.filter fun e => decide (e.conditional = some true ∧ e.activityLink = some i)

/-- What the files must fulfil for the functions of the consequential model that come before the constrained markets. -/
structure Legible (P : PipelineEnv) (data : List Dataset) : Prop where
  ids : (data.map (·.id)).Nodup
  distinct : ∀ d ∈ data, (varNames d).Nodup
  /-- the parameters of each dataset can be cleaned up -/
  cleanup : ∀ d ∈ data, ∃ d', fixEcoinventParameters P.M P.text (noted d) = .ok d'
  oneProduct : ∀ d ∈ data, ∃ r, refs d = [r] ∧ r.pv.isSome ∧ r.amount ≠ 0
  /-- byproducts are classified, and those that are not wastes have a production volume -/
  byproducts : ∀ d ∈ data, ∀ e ∈ d.exchanges, e.type = .byproduct → e.cls ≠ none ∧ (e.cls = some .allocatable → e.pv.isSome)
  /-- a market does not take its own product without an activity link -/
  ownProduct : ∀ d ∈ data, d.type = .market → ∀ r, refs d = [r] → ∀ e ∈ d.exchanges, e.name = r.name → e ≠ r → e.activityLink.getD "" ≠ ""

/-- What the files must fulfil for the consequential model before the markets matter. -/
structure ReadableC (P : PipelineEnv) (data : List Dataset) : Prop where
  ids : (data.map (·.id)).Nodup
  distinct : ∀ d ∈ data, (varNames d).Nodup
  /-- the parameters of each dataset can be cleaned up -/
  cleanup : ∀ d ∈ data, ∃ d', fixEcoinventParameters P.M P.text (noted d) = .ok d'
  oneProduct : ∀ d ∈ data, ∃ r, refs d = [r] ∧ r.pv.isSome ∧ r.amount ≠ 0
  /-- byproducts are classified, and those that are not wastes have a production volume -/
  byproducts : ∀ d ∈ data, ∀ e ∈ d.exchanges, e.type = .byproduct → e.cls ≠ none ∧ (e.cls = some .allocatable → e.pv.isSome)
  /-- distributions that can be repaired and scaled -/
  numbers : ∀ d ∈ data, ∀ e ∈ d.exchanges, present d e = true → Mendable e.toNumObj
  /-- a market does not take its own product without an activity link -/
  ownProduct : ∀ d ∈ data, d.type = .market → ∀ r, refs d = [r] → ∀ e ∈ d.exchanges, e.name = r.name → e ≠ r → e.activityLink.getD "" ≠ ""
  /-- no market is constrained -/
  unconstrained : ∀ d ∈ data, ∀ e ∈ d.exchanges, e.conditional ≠ some true
  /-- every byproduct is the product of some activity -/
  alternative : ∀ d ∈ data, ∀ e ∈ d.exchanges, present d e = true → e.type = .byproduct → ∃ t ∈ data, product t = e.name
  /-- the technology level of each activity that is not a market is one of the five levels -/
  levels : ∀ d ∈ data, d.type = .transforming → ∃ v ∈ ["new", "modern", "current", "old", "outdated"], d.technologyLevel = some v

end Progress
end Ocelot
