import Verif.Props.Order
import Verif.Proofs.OrderLevels

/-! # C110: the order in which datasets are given to the consequential model -/

namespace Ocelot
namespace Spec

/-- No two datasets have constrained exchanges that lead to the same dataset, and none leads to a dataset with constrained exchanges. -/
def OwnTargets (data : List Dataset) : Prop :=
  ∀ d ∈ data, ∀ e ∈ d.exchanges, ∀ d' ∈ data, ∀ e' ∈ d'.exchanges, e.conditional = some true → e'.conditional = some true →
    e.activityLink ≠ some d'.id ∧ (e.activityLink = e'.activityLink → d = d')

end Spec

open Spec

/-- C110, for the consequential model: if the run on the datasets in one order succeeds, and what it has right after `add_unique_codes`
is `coded`, then the run on the datasets in any other order succeeds, with the same results up to their order. It is assumed that
constrained exchanges of different datasets lead to different datasets, that none leads to a dataset with constrained exchanges, that
coded datasets have their own places, and that refinery gas is sold if it is used. Without the first two assumptions it fails, see
`C110_targets` and `C110_target_of_target`. -/
theorem C110_consequential_partial (P : PipelineEnv) (data data' coded : List Dataset) (out : List Item) (hσ : ∀ c n l, (P.σ c n l).Perm l) (hu : Unlinked data)
    (hmd : ∀ s, P.md5 s ≠ "") (hp : data.Perm data') (h : runConfig P consequentialConfig data = .ok out)
    (hc : runSteps P (consequentialBefore ++ [.addUniqueCodes]) data = .ok (coded.map .ds))
    (ho : OwnTargets data) (hplaces : OwnPlaces coded) (hgas : RefineryGasSold coded) :
    ∃ out', runConfig P consequentialConfig data' = .ok out' ∧ SameResults out out' := by
  have hown : OwnTargetsById data := by
    intro d hd e he d' hd' e' he' hc hc' l hl
    obtain ⟨h1, h2⟩ := ho d hd e he d' hd' e' he' hc hc'
    exact ⟨fun h0 => h1 (by rw [hl, h0]), fun hl' => by rw [h2 (hl.trans hl'.symm)]⟩
  obtain ⟨coded', hc', hpc⟩ := consequential_codes_perm P hp hown hplaces.1 hc
  obtain ⟨coded1, result, hs, -, hcode, hn, hf, -⟩ := consequential_codes h
  have : coded1 = coded := List.map_injective_iff.mpr (fun x y hxy => by cases hxy; rfl) (Except.ok.inj (hs.symm.trans hc))
  subst this
  have hlab := coded_labelled_consequential P (consequentialBefore.dropLast.dropLast.dropLast.dropLast) data coded1 (by
    have : consequentialBefore ++ [.addUniqueCodes] = consequentialBefore.dropLast.dropLast.dropLast.dropLast ++
        [.labelReferenceProduct, .deleteWhitelistedMarkets, .assignFakePv, .relabelGlobalToRow, .addUniqueCodes] := by decide +kernel
    rw [← this]
    exact hs)
  obtain ⟨hK, hgood⟩ := coded_good false false hu hcode hf hlab.1 (hlab.2 hmd)
  have hbase : Base ⟨codePairs coded1, false, false⟩ coded1 := by
    refine ⟨hgood, gasOk_of _ _ _ (Or.inl hgas), fun d hd d' hd' hs => by rw [hplaces.2 d hd d' hd' hs], shufD_coded hu hf ?_ hn⟩
    intro d hd h0
    obtain ⟨c, hcd⟩ := hcode d hd
    rw [hcd] at h0
    exact hlab.2 hmd d hd (by rw [hcd]; exact congrArg some h0)
  have hfun : ∀ c p p', (c, p) ∈ codePairs coded1 → (c, p') ∈ codePairs coded1 → p = p' := by
    intro c p p' h1 h2
    obtain ⟨d, hd, k1, k2⟩ := mem_codePairs.mp h1
    obtain ⟨d', hd', k3, k4⟩ := mem_codePairs.mp h2
    have := code_inj hn hd hd' (k1.trans k3.symm)
    subst this
    exact Option.some.inj (k2.symm.trans k4)
  rw [runConfig_eq, consequential_unwrapped] at h ⊢
  rw [show consequentialBefore ++ Step.addUniqueCodes :: consequentialAfter = (consequentialBefore ++ [.addUniqueCodes]) ++ consequentialAfter from by simp] at h ⊢
  obtain ⟨mid, h1, h2⟩ := foldE_split.mp h
  have : mid = coded1.map .ds := Except.ok.inj (h1.symm.trans hs)
  subst this
  obtain ⟨r, r', rfl, h3, h4⟩ := runs_levels P hσ rfl rfl hK hfun coded1 coded' (.single (Or.inl hpc)) hbase out h2
  obtain ⟨m, h5, h6⟩ := chain_reordered h4
  exact ⟨_, foldE_split.mpr ⟨_, hc', h3⟩, m.map .ds, h5.map _, forall₂_mapTo h6 fun _ _ h => h⟩

/-! ## Why the assumptions are needed -/

/-- An activity for `name`. -/
def madeBy (name id : String) : Dataset :=
  { name := name ++ " production", location := "GLO", id := id, filepath := id ++ ".spold", technologyLevel := some "current", startDate := some "2000", endDate := some "2010", exchanges := [{ name := name, id := "1" ++ id, type := .referenceProduct, cls := some .allocatable, amount := 1, pv := some { amount := 100 } }] }

/-- The market for `name`. -/
def soldBy (name id : String) : Dataset := { madeBy name id with name := "market for " ++ name, type := .market }

/-- The market for `name`, with a constrained exchange `x` that leads to `target`. -/
def constrainedBy (name x id target : String) : Dataset :=
  { soldBy name id with exchanges := (soldBy name id).exchanges ++ [{ name := x, id := "2" ++ id, type := .byproduct, cls := some .allocatable, amount := -1, conditional := some true, activityLink := some target, pv := some { amount := 3 } }] }

/-- An activity that needs less of `x` and `y` the more it makes; it uses old technology. -/
def treatment : Dataset :=
  { name := "treatment", location := "GLO", id := "t", filepath := "t.spold", technologyLevel := some "old", startDate := some "2000", endDate := some "2010", exchanges := [{ name := "w", id := "3", type := .referenceProduct, cls := some .allocatable, amount := 1, pv := some { amount := 100 } }, { name := "x", id := "4", type := .fromTechnosphere, amount := -1 }, { name := "y", id := "5", type := .fromTechnosphere, amount := -1 }] }

/-- Activities and markets for the products of `treatment`. -/
def othersOf : List Dataset := [soldBy "y" "y", soldBy "w" "w", madeBy "x" "x1", madeBy "y" "y1", madeBy "w" "w1", madeBy "a" "a1", madeBy "b" "b1"]

/-- Two constrained markets that lead to the same activity. -/
def sameTarget : List Dataset := [constrainedBy "a" "x" "a" "t", constrainedBy "b" "y" "b" "t", treatment, soldBy "x" "x"] ++ othersOf

/-- A constrained market that leads to another one. -/
def chainedTarget : List Dataset :=
  [constrainedBy "b" "x" "b" "t", constrainedBy "a" "x" "a" "b", treatment, { soldBy "b" "b2" with name := "market for b, 2" }] ++ othersOf

/-- The codes of the results of the consequential model. -/
def consequentialCodes (P : PipelineEnv) (data : List Dataset) : Option (List String) := (runConfig P consequentialConfig data).toOption.map fun l => l.map itemCode

/-- C110 fails if constrained exchanges of two markets lead to the same activity: the last one decides what its reference product is. -/
theorem C110_targets : ∃ (P : PipelineEnv) (data data' : List Dataset) (out out' : List Item), Unlinked data ∧ data.Perm data' ∧ runConfig P consequentialConfig data = .ok out ∧
    runConfig P consequentialConfig data' = .ok out' ∧ ¬ SameResults out out' := by
  have h : (consequentialCodes exampleForth sameTarget).isSome = true ∧ (consequentialCodes exampleForth sameTarget.reverse).isSome = true ∧
      ∀ l ∈ consequentialCodes exampleForth sameTarget, ∀ l' ∈ consequentialCodes exampleForth sameTarget.reverse, "#treatmentyGLO20002010" ∈ l ∧ "#treatmentyGLO20002010" ∉ l' := by
    refine ⟨?_, ?_, ?_⟩ <;> decide +kernel
  obtain ⟨h1, h2, h3⟩ := h
  unfold consequentialCodes at h1 h2 h3
  cases hr : runConfig exampleForth consequentialConfig sameTarget with
  | error e => rw [hr] at h1; cases h1
  | ok out =>
    cases hr' : runConfig exampleForth consequentialConfig sameTarget.reverse with
    | error e => rw [hr'] at h2; cases h2
    | ok out' =>
      refine ⟨exampleForth, sameTarget, sameTarget.reverse, out, out', by unfold Unlinked; decide +kernel, (List.reverse_perm _).symm, hr, hr', fun hsame => ?_⟩
      rw [hr, hr'] at h3
      obtain ⟨g1, g2⟩ := h3 _ rfl _ rfl
      exact g2 ((sameResults_codes hsame).mem_iff.mp g1)

/-- C110 fails if a constrained exchange leads to a market that has one itself, though no two lead to the same dataset: here the run
succeeds in one order and fails in the other one. -/
theorem C110_target_of_target : ∃ (P : PipelineEnv) (data data' : List Dataset), Unlinked data ∧ data.Perm data' ∧
    (∀ d ∈ data, ∀ e ∈ d.exchanges, ∀ d' ∈ data, ∀ e' ∈ d'.exchanges, e.conditional = some true → e'.conditional = some true → e.activityLink = e'.activityLink → d = d') ∧
    (∃ out, runConfig P consequentialConfig data = .ok out) ∧ ∃ e, runConfig P consequentialConfig data' = .error e := by
  refine ⟨exampleForth, chainedTarget, chainedTarget.reverse, by unfold Unlinked; decide +kernel, (List.reverse_perm _).symm, by decide +kernel, ?_, ?_⟩
  · have h : (runConfig exampleForth consequentialConfig chainedTarget).toOption.isSome = true := by decide +kernel
    cases hr : runConfig exampleForth consequentialConfig chainedTarget with
    | error e => rw [hr] at h; cases h
    | ok out => exact ⟨out, rfl⟩
  · have h : (runConfig exampleForth consequentialConfig chainedTarget.reverse).toOption.isSome = false := by decide +kernel
    cases hr : runConfig exampleForth consequentialConfig chainedTarget.reverse with
    | error e => exact ⟨e, rfl⟩
    | ok out => rw [hr] at h; cases h

/-! ## Example -/

/-- The hypotheses of `C110_consequential_partial` are met, by datasets with a constrained market. -/
def constrainedInput : List Dataset := [constrainedBy "a" "x" "a" "t", treatment, soldBy "x" "x"] ++ othersOf

example : Unlinked constrainedInput ∧ OwnTargets constrainedInput ∧ OwnPlaces (codedOf' exampleForth constrainedInput) ∧
    (∀ d ∈ codedOf' exampleForth constrainedInput, ∀ e ∈ d.exchanges, e.type = .fromTechnosphere → e.name ≠ "refinery gas") ∧
    (codedOf' exampleForth constrainedInput).length = 10 ∧ (runConfig exampleForth consequentialConfig constrainedInput).toOption.isSome ∧
    (constrainedInput.any fun d => d.exchanges.any fun e => e.conditional == some true) = true := by
  refine ⟨?_, ?_, ⟨?_, ?_⟩, ?_, ?_, ?_, ?_⟩ <;> first | decide +kernel | (unfold Unlinked; decide +kernel) | (unfold OwnTargets; decide +kernel)

/-- The results of the two runs are in different orders. -/
example : consequentialCodes exampleForth constrainedInput ≠ consequentialCodes exampleForth constrainedInput.reverse := by decide +kernel

end Ocelot
