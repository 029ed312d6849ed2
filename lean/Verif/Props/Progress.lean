import Verif.Proofs.ProgressDecide
import Verif.Props.Inventory

/-!
# C112: the cut-off model processes every consistent database

The conditions are in `Verif.Spec.Database`. They are about the files, apart from one: that the parameters of each dataset can be cleaned up
(`Readable.cleanup`). `C112_cleanup` says when this is so for datasets without formulas.
-/

namespace Ocelot
open Spec Progress

/-- C112: no function of the cut-off configuration raises an exception when the files are readable and the datasets fit together: the run
ends and returns a list of datasets. -/
theorem C112_total_partial (P : PipelineEnv) (hT : WellFormed P.T) (hg : ∃ g, HasFaces P.T "GLO" g) (hσ : IterationOrder P.σ) (data : List Dataset)
    (hr : Readable P data) (ho : Orderly true P.T P.lower P.md5 (Progress.kept (allocated data))) :
    ∃ out : List Dataset, runConfig P cutoffConfig data = .ok (out.map .ds) := input_total hT hg hσ hr ho

/-- C112: the same for the configuration with the rest of the world of ecoinvent. -/
theorem C112_total_row_partial (P : PipelineEnv) (hT : WellFormed P.T) (hg : ∃ g, HasFaces P.T "GLO" g) (hσ : IterationOrder P.σ) (data : List Dataset)
    (hr : Readable P data) (ho : Orderly true P.T P.lower P.md5 (Progress.kept (allocated data))) :
    ∃ out : List Dataset, runConfig P cutoffConfigRow data = .ok (out.map .ds) := by
  obtain ⟨out, h⟩ := input_total hT hg hσ hr ho
  exact ⟨out, (C72_same _ _).trans h⟩

/-- C112: whatever allocation has produced, also from activities with several products: when the datasets fit together, all functions
after allocation succeed. -/
theorem C112_after_allocation (P : PipelineEnv) (hT : WellFormed P.T) (hg : ∃ g, HasFaces P.T "GLO" g) (hσ : IterationOrder P.σ) (data : List Dataset)
    (hone : ∀ d ∈ data, (refs d).length = 1) (ho : Orderly true P.T P.lower P.md5 (Progress.kept data)) :
    ∃ out : List Dataset, runSteps P ([.dropRpActivityLinks, .labelReferenceProduct, .deleteWhitelistedMarkets, .assignFakePv, .correctPipelineLocation,
      .relabelGlobalToRow, .checkNoRowMarketGroups, .addUniqueCodes] ++ (cutoffLinking ++ cutoffEnd)) data = .ok (out.map .ds) :=
  linking_total hT hg hσ hone ho

/-- C112: a market or market group with a byproduct that is no waste stops allocation. -/
theorem C112_market_products_fail (M : MathEnv) (F : FormulaEnv) (ord : Dataset → Except Err (List String)) (data : List Dataset) (d : Dataset) (hd : d ∈ data)
    (ht : d.type = .market ∨ d.type = .marketGroup) (e : Exchange) (he : e ∈ d.exchanges) (hb : e.type = .byproduct) (hc : e.cls = some .allocatable)
    (ha : e.amount ≠ 0) : ∀ items, cutoffAllocation M F ord data ≠ .ok items := by
  intro items h
  obtain ⟨ps, -, hF⟩ := C26_dispatch M F ord data items h
  obtain ⟨outs, -, m, h1, h2, h3⟩ := forall₂_mem_left hF hd
  have hlive : HasLiveByproduct d := ⟨e, he, hb, hc, ha⟩
  have hno : ¬ SingleOutput (labelled (some m) d) := fun hs => hs.2 e he ⟨hb, hc⟩
  cases h1 with
  | single h => exact h.2 hlive
  | constrained => exact h2 rfl
  | group =>
    generalize hm : "market group" = m' at h3 hno
    cases h3 <;> simp_all
  | unconstrained =>
    generalize hm : "unconstrained market" = m' at h3 hno
    cases h3 <;> simp_all
  | withoutProducts g1 g2 => exact ht.elim g2 g1
  | withByproducts g1 g2 => exact ht.elim g2 g1
  | combined g1 g2 => exact ht.elim g2 g1
  | rareEarth g1 g2 => exact ht.elim g2 g1
  | waste _ _ g1 g2 => exact ht.elim g2 g1
  | recycling _ _ g1 g2 => exact ht.elim g2 g1
  | economic _ g1 g2 => exact ht.elim g2 g1

/-- C112: a dataset without formulas can be cleaned up when its distributions can be repaired. -/
theorem C112_cleanup (M : MathEnv) (T : TextEnv) (d : Dataset) (hn : ∀ o ∈ d.numObjs, o.formula = none)
    (hr : ∀ o ∈ d.numObjs, ∃ o', repair M o = .ok o') : ∃ d', fixEcoinventParameters M T d = .ok d' := cleanup_total M T d hn hr

/-! ## Example -/

/-- The environment of the examples with four places. -/
def exampleWorldP : PipelineEnv :=
  { exampleP with T := { data := [("GLO", {1, 2, 3, 4}), ("RER", {1, 2}), ("DE", {1}), ("US", {3})] }, md5 := fun s => "#" ++ s }

/-- A dataset of the example. -/
def exampleOf (id name location : String) (type : DsType) (exchanges : List Exchange) : Dataset :=
  { name := name, location := location, type := type, id := id, filepath := id ++ ".spold", technologyLevel := some "current", startDate := some "2000", endDate := some "2010", exchanges := exchanges }

/-- A reference product of the example. -/
def exampleProduct (name : String) (amount volume : ℚ) : Exchange :=
  { name := name, id := name, type := .referenceProduct, cls := some .allocatable, amount := amount, pv := some { amount := volume } }

/-- A byproduct of the example with a price. -/
def exampleCoproduct (name : String) (amount volume price : ℚ) : Exchange :=
  { name := name, id := name, type := .byproduct, cls := some .allocatable, amount := amount, pv := some { amount := volume }, properties := [{ name := "price", amount := price }] }

/-- A database: steel is made in Europe and elsewhere, there are markets for both and a market group; a car plant with a waste and an input
from a certain supplier. A power plant with two products and recyclable ash, the treatment of scrap with heat as a byproduct, and the recycling
of copper with two products. -/
def exampleDb : List Dataset :=
  [exampleOf "a" "steel production" "RER" .transforming [exampleProduct "steel" 2 100, { name := "iron", id := "i", type := .fromEnvironment, amount := 6, uncertainty := some { kind := some .lognormal, variancePed := some (1/10), mean := some 6 } }],
   exampleOf "b" "steel production" "GLO" .transforming [exampleProduct "steel" 1 300],
   exampleOf "c" "market for steel" "RER" .market [exampleProduct "steel" 1 0],
   exampleOf "d" "market for steel" "GLO" .market [exampleProduct "steel" 1 0],
   exampleOf "e" "market group for steel" "GLO" .marketGroup [exampleProduct "steel" 1 0],
   exampleOf "f" "car production" "US" .transforming [exampleProduct "car" 4 10, { name := "steel", id := "s", type := .fromTechnosphere, amount := 12 }, { name := "paint", id := "p", type := .fromTechnosphere, amount := 1, activityLink := some "g" }, { name := "scrap", id := "w", type := .byproduct, cls := some .waste, amount := 3 }],
   exampleOf "g" "paint production" "DE" .transforming [exampleProduct "paint" 1 50],
   exampleOf "p" "heat and power co-generation" "DE" .transforming [{ exampleProduct "electricity" 10 200 with properties := [{ name := "price", amount := 1/10 }] }, { exampleCoproduct "heat" 20 0 (1/20) with uncertainty := some { kind := some .uniform, minimum := some 15, maximum := some 25 } }, { name := "steel", id := "s", type := .fromTechnosphere, amount := 1/100 }, { name := "ash", id := "x", type := .byproduct, cls := some .recyclable, amount := 2 }],
   exampleOf "t" "treatment of scrap" "RER" .transforming [{ exampleProduct "scrap" (-1) 7 with cls := some .waste }, exampleCoproduct "heat" 3 5 0, { name := "electricity", id := "el", type := .fromTechnosphere, amount := 1/2, activityLink := some "p" }],
   exampleOf "r" "copper recycling" "RER" .transforming [{ exampleProduct "copper scrap" (-2) 9 with cls := some .recyclable }, exampleCoproduct "copper" 1 4 5, exampleCoproduct "gold" (1/1000) 1 1000],
   exampleOf "m" "market for copper scrap" "GLO" .market [exampleProduct "copper scrap" 1 0]]

/-- The conditions of `C112_total_partial` and `C112_total_row_partial`. -/
example : WellFormed exampleWorldP.T ∧ (∃ g, HasFaces exampleWorldP.T "GLO" g) ∧ IterationOrder exampleWorldP.σ ∧ Readable exampleWorldP exampleDb ∧
    Orderly true exampleWorldP.T exampleWorldP.lower exampleWorldP.md5 (Progress.kept (allocated exampleDb)) :=
  ⟨by unfold WellFormed; decide +kernel, ⟨_, List.mem_cons_self⟩, fun _ _ _ => .refl _, by decide +kernel, by decide +kernel⟩

/-- The exception of a run. -/
def exampleFailure (data : List Dataset) : Option Err :=
  match runConfig exampleWorldP cutoffConfig data with
  | .ok _ => none
  | .error e => some e

example : exampleFailure exampleDb = none := by decide +kernel

/-- The example with other exchanges in one dataset. -/
def exampleChanged (id : String) (f : List Exchange → List Exchange) : List Dataset :=
  exampleDb.map fun d => if d.id = id then { d with exchanges := f d.exchanges } else d

/-! Without the conditions the run stops: an input that nobody sells, … -/
example : exampleFailure (exampleChanged "f" fun l => l ++ [{ name := "glass", type := .fromTechnosphere, amount := 1 }]) = some .missingSupplier := by decide +kernel

/-! … two markets for the same product in the same place, … -/
example : exampleFailure (exampleOf "h" "market for steel" "DE" .market [exampleProduct "steel" 1 0] :: exampleDb) = some .overlappingActivities := by decide +kernel

/-! … a market group without markets, … -/
example : exampleFailure (exampleOf "h" "market group for steel" "US" .marketGroup [exampleProduct "steel" 1 0] :: exampleDb) = some .keyError := by decide +kernel

/-! … a link to another product, … -/
example : exampleFailure (exampleChanged "f" fun l => l ++ [{ name := "glass", type := .fromTechnosphere, amount := 1, activityLink := some "g" }]) = some .unresolvableActivityLink := by decide +kernel

/-! … a market that takes its own product, … -/
example : exampleFailure (exampleChanged "c" fun l => l ++ [{ name := "steel", type := .fromTechnosphere, amount := 1 }]) = some .invalidMarketExchange := by decide +kernel

/-! … a market with a byproduct that is no waste, … -/
example : exampleFailure (exampleChanged "c" fun l => l ++ [exampleCoproduct "slag" 1 1 1]) = some .invalidMultioutputDataset := by decide +kernel

/-! … products without prices, … -/
example : exampleFailure (exampleChanged "p" fun l => l ++ [{ exampleCoproduct "steam" 1 1 1 with properties := [] }]) = some .invalidExchange := by decide +kernel

/-! … a recyclable byproduct of an activity without dates. -/
example : exampleFailure (exampleDb.map fun d => { d with startDate := none }) = some .keyError := by decide +kernel

/-- C112: a waste whose amount has a uniform distribution stops the run, although everything else is in order: the sign of its amount is
changed, the bounds of the distribution are not, and normalising the dataset then finds the amount out of bounds. -/
theorem C112_uniform_waste_fails : ∃ data : List Dataset, Orderly true exampleWorldP.T exampleWorldP.lower exampleWorldP.md5 (Progress.kept (allocated data)) ∧
    (∀ d ∈ data, ∀ e ∈ d.exchanges, Mendable e.toNumObj) ∧ runConfig exampleWorldP cutoffConfig data = .error .valueError := by
  refine ⟨exampleChanged "f" fun l => l.map fun e => if e.type = .byproduct then { e with uncertainty := some { kind := some .uniform, minimum := some 2, maximum := some 4 } } else e, by decide +kernel, by decide +kernel, ?_⟩
  have h : exampleFailure (exampleChanged "f" fun l => l.map fun e => if e.type = .byproduct then { e with uncertainty := some { kind := some .uniform, minimum := some 2, maximum := some 4 } } else e) = some .valueError := by decide +kernel
  unfold exampleFailure at h
  split at h
  · cases h
  · next e he => cases h; exact he

end Ocelot
