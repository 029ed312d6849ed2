import Verif.Proofs.ProgressConsequential
import Verif.Props.Progress

/-!
# C113: the consequential model processes every consistent database

The conditions are in `Verif.Spec.Database`.
-/

namespace Ocelot
open Spec Progress

/-- C113: no function of the consequential configuration raises an exception when the files are readable, no market is constrained and the
datasets fit together: the run ends and returns a list of datasets. -/
theorem C113_total (P : PipelineEnv) (hT : WellFormed P.T) (hg : ∃ g, HasFaces P.T "GLO" g) (hσ : IterationOrder P.σ) (data : List Dataset)
    (hr : ReadableC P data) (ho : Orderly false P.T P.lower P.md5 (Progress.kept (data.map unlinkedDs))) :
    ∃ out : List Dataset, runConfig P consequentialConfig data = .ok (out.map .ds) := consequential_total hT hg hσ hr ho

/-- C113: whatever the splitting of activities and the treatment of constrained markets have produced: when the datasets fit together, have one
product, which is not linked, and the activities have technology levels, all functions after them succeed. -/
theorem C113_after_constrained (P : PipelineEnv) (hT : WellFormed P.T) (hg : ∃ g, HasFaces P.T "GLO" g) (hσ : IterationOrder P.σ) (data : List Dataset)
    (hone : ∀ d ∈ data, (refs d).length = 1)
    (hlink : ∀ d ∈ data, ∀ e ∈ d.exchanges, e.type = .referenceProduct ∨ e.type = .droppedProduct → e.activityLink = none)
    (ho : Orderly false P.T P.lower P.md5 (Progress.kept data))
    (hv : ∀ d ∈ Progress.kept data, d.type = .transforming → ∃ v ∈ ["new", "modern", "current", "old", "outdated"], d.technologyLevel = some v) :
    ∃ out : List Dataset, runSteps P ([.labelReferenceProduct, .deleteWhitelistedMarkets, .assignFakePv, .relabelGlobalToRow, .addUniqueCodes] ++ consequentialAfter) data =
      .ok (out.map .ds) := by
  refine levels_total hT hg hσ hone (fun d hd e he => ?_) ho (fun d hd ht => ?_)
  · unfold dropRpLink
    rw [if_neg]
    rintro ⟨h1, h2⟩
    rw [hlink d hd e he h1] at h2
    cases h2
  · obtain ⟨v, h1, h2⟩ := hv d hd ht
    exact ⟨v, by simpa [technologyOrder] using h1, h2⟩

/-! ## Example -/

/-- The first datasets of the database of C112 with a market for paint, an activity that treats the waste, and a byproduct without volume. -/
def exampleDbC : List Dataset :=
  (exampleChanged "f" fun l => l ++ [{ name := "slag", id := "x", type := .byproduct, cls := some .allocatable, amount := 1, pv := some { amount := 0 }, uncertainty := some { kind := some .uniform, minimum := some 0, maximum := some 3 } }]).take 7 ++
  [exampleOf "h" "market for paint" "GLO" .market [exampleProduct "paint" 1 0],
   { exampleOf "i" "treatment of scrap" "GLO" .transforming [exampleProduct "scrap" (-1) 5] with technologyLevel := some "modern" },
   { exampleOf "j" "slag production" "DE" .transforming [exampleProduct "slag" 1 7] with technologyLevel := some "old" }]

/-- The conditions of `C113_total`. -/
example : WellFormed exampleWorldP.T ∧ (∃ g, HasFaces exampleWorldP.T "GLO" g) ∧ IterationOrder exampleWorldP.σ ∧ ReadableC exampleWorldP exampleDbC ∧
    Orderly false exampleWorldP.T exampleWorldP.lower exampleWorldP.md5 (Progress.kept (exampleDbC.map unlinkedDs)) :=
  ⟨by unfold WellFormed; decide +kernel, ⟨_, List.mem_cons_self⟩, fun _ _ _ => .refl _, by decide +kernel, by decide +kernel⟩

/-- The conditions of `C113_after_constrained`. -/
example : Orderly false exampleWorldP.T exampleWorldP.lower exampleWorldP.md5 (Progress.kept (exampleDbC.map unlinkedDs)) ∧
    (∀ d ∈ exampleDbC.map unlinkedDs, (refs d).length = 1) ∧
    (∀ d ∈ exampleDbC.map unlinkedDs, ∀ e ∈ d.exchanges, e.type = .referenceProduct ∨ e.type = .droppedProduct → e.activityLink = none) ∧
    ∀ d ∈ Progress.kept (exampleDbC.map unlinkedDs), d.type = .transforming → ∃ v ∈ ["new", "modern", "current", "old", "outdated"], d.technologyLevel = some v := by
  decide +kernel

/-- The exception of a run. -/
def exampleFailureC (data : List Dataset) : Option Err :=
  match runConfig exampleWorldP consequentialConfig data with
  | .ok _ => none
  | .error e => some e

example : exampleFailureC exampleDbC = none := by decide +kernel

/-! Without the conditions the run stops: a byproduct that is nobody's product, … -/
example : exampleFailureC (exampleDbC.filter fun d => d.id != "i") = some .missingAlternativeProducer := by decide +kernel

/-! … a supplier without technology level, … -/
example : exampleFailureC (exampleDbC.map fun d => if d.id = "b" then { d with technologyLevel := none } else d) = some .keyError := by decide +kernel

/-! … suppliers whose level is not one of the five, … -/
example : exampleFailureC (exampleDbC.map fun d => { d with technologyLevel := some "undefined" }) = some .assertionError := by decide +kernel

/-! … a market for the product of an activity link is missing: the consequential model does not keep the link. -/
example : exampleFailureC (exampleDbC.filter fun d => d.id != "h") = some .missingSupplier := by decide +kernel

end Ocelot
