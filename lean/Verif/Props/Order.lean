import Verif.Proofs.OrderFinish

/-! # C110: the order in which datasets are given -/

namespace Ocelot
namespace Spec

/-- The same results in another order, with exchanges and suppliers of each dataset in another order. -/
def SameResults (out out' : List Item) : Prop := ∃ m, out.Perm m ∧ List.Forall₂ ReorderedItem m out'

/-- No two of the given datasets have the same recyclable byproduct. -/
def OwnWaste (data : List Dataset) : Prop :=
  ∀ d ∈ data, ∀ d' ∈ data, ∀ e ∈ d.exchanges, ∀ e' ∈ d'.exchanges, e.type = .byproduct → e.cls = some .recyclable → e'.type = .byproduct →
    e'.cls = some .recyclable → e.name = e'.name → d = d'

/-- Datasets with one name have one type, and each has its own place. -/
def OwnPlaces (data : List Dataset) : Prop :=
  (∀ d ∈ data, ∀ d' ∈ data, d.name = d'.name → d.type = d'.type) ∧ ∀ d ∈ data, ∀ d' ∈ data, SamePlace d d' → d = d'

/-- An activity in the rest of the world without volume is the only activity for its product there. -/
def OneEmptyRow (data : List Dataset) : Prop :=
  ∀ d ∈ data, d.type = .transforming → d.location = "RoW" → originalVolume d = 0 →
    ∀ d' ∈ data, d'.type = .transforming → d'.location = "RoW" → d'.refProduct = d.refProduct → d' = d

/-- The code in a result. -/
def itemCode : Item → String
  | .ds d => d.code.getD ""
  | .str s => s

/-- The codes of the results of the cut-off model. -/
def codesFor (P : PipelineEnv) (data : List Dataset) : Option (List String) := (runConfig P cutoffConfig data).toOption.map fun l => l.map itemCode

end Spec

open Spec

/-- C110, for the cut-off model: if the run on the datasets in one order succeeds, and what it has right after `add_unique_codes` is
`coded`, then the run on the datasets in any other order succeeds, with the same results up to their order. It is assumed that no two
datasets share a recyclable byproduct, that coded datasets have their own places, that no empty activity in the rest of the world
competes with another one, and that refinery gas is sold if it is used. Without these assumptions it fails, see `C110_recyclable`,
`C110_empty_row` and `C110_gas`. -/
theorem C110_cutoff_partial (P : PipelineEnv) (data data' coded : List Dataset) (out : List Item) (hσ : ∀ c n l, (P.σ c n l).Perm l) (hu : Unlinked data)
    (hmd : ∀ s, P.md5 s ≠ "") (hp : data.Perm data') (h : runConfig P cutoffConfig data = .ok out)
    (hc : runSteps P (cutoffBefore ++ [.addUniqueCodes]) data = .ok (coded.map .ds))
    (hw : OwnWaste data) (hplaces : OwnPlaces coded) (hrow : OneEmptyRow coded) (hgas : RefineryGasSold coded) :
    ∃ out', runConfig P cutoffConfig data' = .ok out' ∧ SameResults out out' := by
  obtain ⟨coded', hc', hpc⟩ := cutoff_codes_perm P hp (fun d hd d' hd' e he e' he' h1 h2 h3 h4 h5 => by rw [hw d hd d' hd' e he e' he' h1 h2 h3 h4 h5]) hplaces.1 hc
  obtain ⟨coded1, result, hs, -, hcode, hn, hf, -⟩ := cutoff_codes h
  have : coded1 = coded := List.map_injective_iff.mpr (fun x y hxy => by cases hxy; rfl) (Except.ok.inj (hs.symm.trans hc))
  subst this
  have hlab := coded_labelled P (cutoffBefore.dropLast.dropLast.dropLast.dropLast.dropLast.dropLast) data coded1 (by
    have : cutoffBefore ++ [.addUniqueCodes] = cutoffBefore.dropLast.dropLast.dropLast.dropLast.dropLast.dropLast ++
        [.labelReferenceProduct, .deleteWhitelistedMarkets, .assignFakePv,
      .correctPipelineLocation, .relabelGlobalToRow, .checkNoRowMarketGroups, .addUniqueCodes] := by decide +kernel
    rw [← this]
    exact hs)
  obtain ⟨hK, hgood⟩ := coded_good true false hu hcode hf hlab.1 (hlab.2 hmd)
  have hbase : Base ⟨codePairs coded1, true, false⟩ coded1 := by
    refine ⟨hgood, gasOk_of _ _ _ (Or.inl hgas), fun d hd d' hd' hs => by rw [hplaces.2 d hd d' hd' hs], shufD_coded hu hf ?_ hn⟩
    intro d hd h0
    obtain ⟨c, hcd⟩ := hcode d hd
    rw [hcd] at h0
    exact hlab.2 hmd d hd (by rw [hcd]; exact congrArg some h0)
  have hlone : LoneRow .transforming coded1 := fun d hd h1 h2 h3 d' hd' k1 k2 k3 => by rw [hrow d hd h1 h2 h3 d' hd' k1 k2 k3]
  rw [runConfig_eq, cutoff_unwrapped] at h ⊢
  rw [show cutoffBefore ++ Step.addUniqueCodes :: (cutoffLinking ++ cutoffEnd) = (cutoffBefore ++ [.addUniqueCodes]) ++ (cutoffLinking ++ cutoffEnd) from by simp] at h ⊢
  obtain ⟨mid, h1, h2⟩ := foldE_split.mp h
  have : mid = coded1.map .ds := Except.ok.inj (h1.symm.trans hs)
  subst this
  obtain ⟨r, r', rfl, h3, h4⟩ := runs_linking P hσ rfl rfl hK coded1 coded' (.single (Or.inl hpc)) ⟨hbase, hlone⟩ out h2
  obtain ⟨m, h5, h6⟩ := chain_reordered h4
  exact ⟨_, foldE_split.mpr ⟨_, hc', h3⟩, m.map .ds, h5.map _, forall₂_mapTo h6 fun _ _ h => h⟩

/-! ## Why the assumptions are needed -/

theorem sameResults_codes {out out' : List Item} (h : SameResults out out') : (out.map itemCode).Perm (out'.map itemCode) := by
  obtain ⟨m, h1, h2⟩ := h
  refine (h1.map itemCode).trans (.of_eq (forall₂_map_eq' h2 ?_))
  rintro (d | s) (d' | s') hi
  · have := congrArg (fun x : Dataset => x.code) hi.2.2
    show d.code.getD "" = d'.code.getD ""
    rw [show d.code = d'.code from this]
  · cases hi
  · cases hi
  · exact hi

theorem not_same {P : PipelineEnv} {data data' : List Dataset} {l l' : List String} (hp : data.Perm data') (h : codesFor P data = some l) (h' : codesFor P data' = some l')
    (hl : ¬ l.Perm l') : ∃ out out', data.Perm data' ∧ runConfig P cutoffConfig data = .ok out ∧ runConfig P cutoffConfig data' = .ok out' ∧ ¬ SameResults out out' := by
  unfold codesFor at h h'
  cases hr : runConfig P cutoffConfig data with
  | error e => rw [hr] at h; cases h
  | ok out =>
    cases hr' : runConfig P cutoffConfig data' with
    | error e => rw [hr'] at h'; cases h'
    | ok out' =>
      rw [hr] at h
      rw [hr'] at h'
      cases h
      cases h'
      exact ⟨out, out', hp, rfl, rfl, fun hs => hl (sameResults_codes hs)⟩

/-- Two activities with the same recyclable byproduct. -/
def wasteMakers : List Dataset :=
  [{ name := "steel production", location := "RER", id := "a", filepath := "a.spold", technologyLevel := some "current", startDate := some "2000", endDate := some "2010", exchanges := [{ name := "steel", id := "1", type := .referenceProduct, cls := some .allocatable, amount := 2, pv := some { amount := 100 } }, { name := "scrap", id := "2", type := .byproduct, cls := some .recyclable, amount := 6, pv := some { amount := 300 } }] },
   { name := "iron production", location := "RER", id := "b", filepath := "b.spold", technologyLevel := some "current", startDate := some "2001", endDate := some "2010", exchanges := [{ name := "iron", id := "3", type := .referenceProduct, cls := some .allocatable, amount := 1, pv := some { amount := 7 } }, { name := "scrap", id := "4", type := .byproduct, cls := some .recyclable, amount := 6, pv := some { amount := 42 } }] }]

/-- Two activities, both of which are left over in the rest of the world; the first one has no volume there. -/
def emptyRows : List Dataset :=
  [{ name := "steel production, old", location := "GLO", id := "a", filepath := "a.spold", technologyLevel := some "current", startDate := some "2000", endDate := some "2010", exchanges := [{ name := "steel", id := "1", type := .referenceProduct, cls := some .allocatable, amount := 2, pv := some { amount := 100 } }] },
  { name := "steel production, old", location := "RER", id := "b", filepath := "b.spold", technologyLevel := some "current", startDate := some "2000", endDate := some "2010", exchanges := [{ name := "steel", id := "1", type := .referenceProduct, cls := some .allocatable, amount := 2, pv := some { amount := 100 } }] },
  { name := "steel production, new", location := "GLO", id := "c", filepath := "c.spold", technologyLevel := some "current", startDate := some "2000", endDate := some "2010", exchanges := [{ name := "steel", id := "1", type := .referenceProduct, cls := some .allocatable, amount := 2, pv := some { amount := 100 } }] },
  { name := "steel production, new", location := "RER", id := "d", filepath := "d.spold", technologyLevel := some "current", startDate := some "2000", endDate := some "2010", exchanges := [{ name := "steel", id := "1", type := .referenceProduct, cls := some .allocatable, amount := 2, pv := some { amount := 10 } }] }]

/-- `emptyRows`, with the other activity first. -/
def emptyRows' : List Dataset := emptyRows.drop 2 ++ emptyRows.take 2

/-- A dataset that uses steel and one that uses refinery gas; nobody sells refinery gas. -/
def gasUsers : List Dataset :=
  exampleInput ++ [{ name := "van production", location := "GLO", id := "d", filepath := "d.spold", technologyLevel := some "current", startDate := some "2000", endDate := some "2010", exchanges := [{ name := "van", id := "6", type := .referenceProduct, cls := some .allocatable, amount := 1, pv := some { amount := 10 } }, { name := "refinery gas", id := "7", type := .fromTechnosphere, amount := 8 }] }]

/-- C110 fails if two datasets have the same recyclable byproduct: the dataset for its recycled content is a copy of the last one, and
even its code depends on the order. -/
theorem C110_recyclable : ∃ (P : PipelineEnv) (data data' : List Dataset) (out out' : List Item), Unlinked data ∧ data.Perm data' ∧ runConfig P cutoffConfig data = .ok out ∧
    runConfig P cutoffConfig data' = .ok out' ∧ ¬ SameResults out out' := by
  obtain ⟨out, out', h⟩ := not_same (P := exampleForth) (data := wasteMakers) (data' := wasteMakers.reverse) (List.reverse_perm _).symm
    (l := ["#steel productionsteelRER20002010", "#iron productionironRER20012010", "#scrap, Recycled Content cut-offscrap, Recycled Content cut-offGLO20012010"])
    (l' := ["#iron productionironRER20012010", "#steel productionsteelRER20002010", "#scrap, Recycled Content cut-offscrap, Recycled Content cut-offGLO20002010"])
    (by decide +kernel) (by decide +kernel) (by decide +kernel)
  exact ⟨exampleForth, wasteMakers, _, out, out', by unfold Unlinked; decide +kernel, h⟩

/-- C110 fails if an activity without volume in the rest of the world has a competitor there, even without recyclable byproducts and
with all datasets in their own places: it is deleted only if it comes first. -/
theorem C110_empty_row : ∃ (P : PipelineEnv) (data data' : List Dataset) (out out' : List Item), Unlinked data ∧ OwnWaste data ∧ data.Perm data' ∧
    runConfig P cutoffConfig data = .ok out ∧ runConfig P cutoffConfig data' = .ok out' ∧ ¬ SameResults out out' := by
  obtain ⟨out, out', h⟩ := not_same (P := exampleForth) (data := emptyRows) (data' := emptyRows') (by unfold emptyRows'; exact (List.perm_append_comm (l₁ := emptyRows.drop 2) (l₂ := emptyRows.take 2)).symm)
    (l := ["#steel production, oldsteelRER20002010", "#steel production, newsteelRoW20002010", "#steel production, newsteelRER20002010"])
    (l' := ["#steel production, newsteelRoW20002010", "#steel production, newsteelRER20002010", "#steel production, oldsteelRoW20002010", "#steel production, oldsteelRER20002010"])
    (by decide +kernel) (by decide +kernel) (by decide +kernel)
  exact ⟨exampleForth, emptyRows, _, out, out', by unfold Unlinked; decide +kernel, by unfold OwnWaste; decide +kernel, h⟩

/-- C110 fails if refinery gas is used but not sold: here the run succeeds in one order and fails in the other one. -/
theorem C110_gas : ∃ (P : PipelineEnv) (data data' : List Dataset), Unlinked data ∧ OwnWaste data ∧ data.Perm data' ∧
    (∃ out, runConfig P cutoffConfig data = .ok out) ∧ ∃ e, runConfig P cutoffConfig data' = .error e := by
  refine ⟨exampleForth, gasUsers, gasUsers.reverse, by unfold Unlinked; decide +kernel, by unfold OwnWaste; decide +kernel, (List.reverse_perm _).symm, ?_, ?_⟩
  · have h : (runConfig exampleForth cutoffConfig gasUsers).toOption.isSome = true := by decide +kernel
    cases hr : runConfig exampleForth cutoffConfig gasUsers with
    | error e => rw [hr] at h; cases h
    | ok out => exact ⟨out, rfl⟩
  · have h : (runConfig exampleForth cutoffConfig gasUsers.reverse).toOption.isSome = false := by decide +kernel
    cases hr : runConfig exampleForth cutoffConfig gasUsers.reverse with
    | error e => exact ⟨e, rfl⟩
    | ok out => rw [hr] at h; cases h

/-! ## Example -/

/-- The hypotheses of `C110_cutoff_partial` are met, by datasets one of which has a recyclable byproduct. -/
def orderInput : List Dataset := exampleTwo ++ (wasteMakers.drop 1).map fun d => { d with id := "e", filepath := "e.spold" }

example : Unlinked orderInput ∧ OwnWaste orderInput ∧ OwnPlaces (codedOf exampleForth orderInput) ∧ OneEmptyRow (codedOf exampleForth orderInput) ∧
    (∀ d ∈ codedOf exampleForth orderInput, ∀ e ∈ d.exchanges, e.type = .fromTechnosphere → e.name ≠ "refinery gas") ∧
    (codedOf exampleForth orderInput).length = 6 ∧ (runConfig exampleForth cutoffConfig orderInput).toOption.isSome := by
  refine ⟨?_, ?_, ⟨?_, ?_⟩, ?_, ?_, ?_, ?_⟩ <;> first | decide +kernel | (unfold Unlinked; decide +kernel) | (unfold OwnWaste; decide +kernel) | (unfold OneEmptyRow; decide +kernel)

/-- The results of the two runs are in different orders. -/
example : codesFor exampleForth orderInput ≠ codesFor exampleForth orderInput.reverse := by decide +kernel

end Ocelot
