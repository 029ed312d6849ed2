import Verif.Proofs.PipelineRun
import Verif.Props.Extract

/-! # C71, C72, C90, C91, C92: whole system models -/

namespace Ocelot
namespace Spec

/-- The functions of the cut-off model before `add_unique_codes`, in the order in which they run. -/
def cutoffBefore : List Step :=
  [.ensureIdsAreUnique, .copyOriginalExchangeId, .variableNamesAreUnique, .ensureMarketsOneProduct, .ensureMarketsNoOwnConsumption,
    .fixSpecificIssues, .replaceImplicitReferences, .repairUncertainty, .fixKnownBadFormulas, .lowercaseParameters, .fixMathFormulas,
    .replaceReservedWords, .deleteUnparsableFormulas, .ensureVolumesGiven, .addPvToAllocatableByproducts, .createPvParameters,
    .removeConsequentialExchanges, .dropRpActivityLinks, .dropZeroAmountActivityLinks, .updateParentChild, .fix35ActivityLinks,
    .checkActivityLinkValidity, .addHardLinkedVolumes, .updateTransformingVolumes, .renameRecyclable, .createRecycledContentDatasets,
    .labelAllocationMethod, .allocate "market group", .allocate "unconstrained market", .allocate "economic",
    .allocate "constrained market", .allocate "recycling", .allocate "waste treatment", .allocate "combined production without products",
    .allocate "combined production", .allocate "combined production with byproducts", .deleteAllocationMethod, .dropRpActivityLinks,
    .labelReferenceProduct, .deleteWhitelistedMarkets, .assignFakePv, .correctPipelineLocation, .relabelGlobalToRow,
    .checkNoRowMarketGroups]

/-- The functions of the cut-off model after `add_unique_codes` and before `add_reference_product_codes`. -/
def cutoffLinking : List Step :=
  [.actualizeActivityLinks, .addRecycledContentSuppliers, .addSuppliers .transforming .market, .updateMarketVolumes .market,
    .deleteGlobalZeroPv .market, .deleteGlobalZeroPv .transforming, .allocateMarketSuppliers .market, .linkMarketGroupSuppliers,
    .updateMarketVolumes .marketGroup, .allocateMarketSuppliers .marketGroup, .linkRecycledContent, .linkConsumersToMarkets]

/-- The last functions of the cut-off model. -/
def cutoffEnd : List Step :=
  [.addReferenceProductCodes, .logAndDeleteUnlinked, .renameRecycledAfterLinking, .flipNonAllocatableByproducts, .normalize, .adjustMarketSigns]

/-- The functions of the consequential model before `add_unique_codes`. -/
def consequentialBefore : List Step :=
  [.ensureIdsAreUnique, .copyOriginalExchangeId, .variableNamesAreUnique, .ensureMarketsOneProduct, .ensureMarketsNoOwnConsumption,
    .fixSpecificIssues, .replaceImplicitReferences, .repairUncertainty, .fixKnownBadFormulas, .lowercaseParameters, .fixMathFormulas,
    .replaceReservedWords, .deleteUnparsableFormulas, .ensureVolumesGiven, .addPvToAllocatableByproducts, .createPvParameters,
    .dropZeroAmountActivityLinks, .splitCombinedProduction, .deleteLinksToConstrained, .handleConstrainedMarkets,
    .ensureAlternativeProduction, .labelReferenceProduct, .deleteWhitelistedMarkets, .assignFakePv, .relabelGlobalToRow]

/-- The functions of the consequential model after `add_unique_codes`. -/
def consequentialAfter : List Step :=
  [.actualizeActivityLinks, .addSuppliers .transforming .market, .pruneByTechnologyLevel, .updateMarketVolumes .market,
    .addSuppliers .market .marketGroup, .updateMarketVolumes .marketGroup, .allocateMarketSuppliers .market, .deleteSuppliersList,
    .linkConsumersToMarkets, .logAndDeleteUnlinked, .normalize]

/-- Running functions one after the other, each on the result of the one before. -/
def runSteps (P : PipelineEnv) (steps : List Step) (data : List Dataset) : Except Err (List Item) :=
  foldE (fun d s => s.run P d) (data.map .ds) steps

/-- Datasets that nothing has been linked in, such as extracted ones. -/
def Unlinked (data : List Dataset) : Prop := ∀ d ∈ data, d.suppliers = none ∧ ∀ e ∈ d.exchanges, e.code = none

/-- There is exactly one reference product, and its amount is one or minus one, up to the tolerance. -/
def UnitProduct (d : Dataset) : Prop := ∃ rp, refs d = [rp] ∧ (|rp.amount| = 1 ∨ |1 / |rp.amount| - 1| ≤ 1 / 10 ^ 14)

end Spec

open Spec

/-! ## C72 -/

theorem cutoff_unwrapped : unwrapAll cutoffConfig = cutoffBefore ++ .addUniqueCodes :: (cutoffLinking ++ cutoffEnd) := by decide +kernel

theorem cutoffRow_unwrapped : unwrapAll cutoffConfigRow = cutoffBefore ++ .addUniqueCodes :: (cutoffLinking ++ cutoffEnd) := by decide +kernel

theorem consequential_unwrapped : unwrapAll consequentialConfig = consequentialBefore ++ .addUniqueCodes :: consequentialAfter := by decide +kernel

/-- C72: the collection made of a configuration is flat, and calling it runs these functions one after the other. -/
theorem C72_flat {D : Type} (run : Step → D → Except Err D) (d : D) :
    (Coll.new cutoffConfig).call run d = foldE (fun d s => run s d) d (cutoffBefore ++ .addUniqueCodes :: (cutoffLinking ++ cutoffEnd)) ∧
    (Coll.new consequentialConfig).call run d = foldE (fun d s => run s d) d (consequentialBefore ++ .addUniqueCodes :: consequentialAfter) := by
  constructor
  · unfold Coll.call Coll.new
    rw [callAll_fns, cutoff_unwrapped]
  · unfold Coll.call Coll.new
    rw [callAll_fns, consequential_unwrapped]

/-- C72: whatever the functions do, both cut-off configurations give the same. -/
theorem C72_same {D : Type} (run : Step → D → Except Err D) (d : D) :
    (Coll.new cutoffConfigRow).call run d = (Coll.new cutoffConfig).call run d := by
  unfold Coll.call Coll.new
  rw [cutoff_unwrapped, cutoffRow_unwrapped]

/-! ## C71 -/

theorem cutoff_codes {P : PipelineEnv} {data : List Dataset} {out : List Item} (h : runConfig P cutoffConfig data = .ok out) :
    CodesOf P (· ≠ "RoW") cutoffBefore data out :=
  run_codes P (· ≠ "RoW") cutoffBefore (cutoffLinking ++ cutoffEnd) (by decide) (by decide) (fun _ _ _ => rfl) data out (by
    rw [runConfig_eq, cutoff_unwrapped] at h; exact h)

theorem consequential_codes {P : PipelineEnv} {data : List Dataset} {out : List Item} (h : runConfig P consequentialConfig data = .ok out) :
    CodesOf P (fun _ => True) consequentialBefore data out :=
  run_codes P (fun _ => True) consequentialBefore consequentialAfter (by decide) (by decide)
    (fun s hs hd => absurd hd ((by decide : ∀ s ∈ consequentialAfter, ¬ s.deletes = true) s hs)) data out (by
    rw [runConfig_eq, consequential_unwrapped] at h; exact h)

theorem codes_nodup {start result : List Dataset} (hs : ∀ d ∈ start, ∃ c, d.code = some c) (hn : (start.map (·.code)).Nodup)
    (hsub : (result.map codeKey).Sublist (start.map codeKey)) :
    (∀ d ∈ result, ∃ c, d.code = some c) ∧ (result.map (·.code)).Nodup := by
  have hm := hsub.map Prod.fst
  rw [List.map_map, List.map_map] at hm
  refine ⟨?_, hm.nodup hn⟩
  intro d hd
  have : d.code ∈ start.map (·.code) := hm.subset (List.mem_map.mpr ⟨d, hd, rfl⟩)
  obtain ⟨x, hx, hxe⟩ := List.mem_map.mp this
  obtain ⟨c, hc⟩ := hs x hx
  exact ⟨c, by rw [← hxe]; exact hc⟩

/-- C71: if the cut-off model runs to the end, it returns datasets with one reference product of amount one or minus one (up to
the tolerance), which carries the code of the dataset. All codes are different. No waste or recyclable byproducts are left, and
reference products of markets are not negative, unless they are wastes. -/
theorem C71_cutoff (P : PipelineEnv) (data : List Dataset) (out : List Item) (h : runConfig P cutoffConfig data = .ok out) :
    ∃ result : List Dataset, out = result.map .ds ∧ (result.map (·.code)).Nodup ∧
      ∀ d ∈ result, UnitProduct d ∧ (∃ c, d.code = some c ∧ ∀ e ∈ refs d, e.code = some c) ∧
        (∀ e ∈ d.exchanges, ¬ NonAllocByproduct e) ∧
        (d.type = .market → ∀ e ∈ refs d, e.cls ≠ some .waste → 0 ≤ e.amount) := by
  obtain ⟨start, result, -, rfl, hc, hn, -, hsub, -, -⟩ := cutoff_codes h
  obtain ⟨hc', hn'⟩ := codes_nodup hc hn hsub
  refine ⟨result, rfl, hn', ?_⟩
  rw [runConfig_eq, cutoff_unwrapped, ← List.cons_append, ← List.append_assoc] at h
  obtain ⟨mid, h1, h2⟩ := foldE_split.mp h
  have hm : ∃ l : List Dataset, mid = l.map .ds := by
    simp only [cutoffEnd, foldE] at h2
    obtain ⟨_, h3, -⟩ := bind_eq_ok.mp h2
    obtain ⟨l, -, hl, -⟩ := onDatasets_ok h3
    exact ⟨l, hl⟩
  obtain ⟨l, rfl⟩ := hm
  obtain ⟨r, hr, t1, t2, t3, t4⟩ := tail_cutoff P l _ h2
  have hinj : ∀ a b : List Dataset, a.map Item.ds = b.map Item.ds → a = b := fun a b hab =>
    List.map_injective_iff.mpr (fun x y hxy => by cases hxy; rfl) hab
  obtain rfl := hinj _ _ hr
  intro d hd
  obtain ⟨c, hdc⟩ := hc' d hd
  refine ⟨t3 d hd, ⟨c, hdc, ?_⟩, t2 d hd, ?_⟩
  · intro e he
    obtain ⟨he, ht⟩ := List.mem_filter.mp he
    rw [t1 d hd e he (by simpa using ht), hdc]
  · intro ht e he
    obtain ⟨rp, hrp, hh⟩ := t4 d hd ht
    rw [hrp, List.mem_singleton] at he
    exact he ▸ hh

/-! ## C90 -/

theorem coded_clean {data start : List Dataset} (hu : Unlinked data) (hc : ∀ d ∈ start, ∃ c, d.code = some c)
    (hf : ∀ d' ∈ start, ∃ d ∈ data, From d d') : CleanAll (start.filterMap (·.code)) start := by
  intro d hd
  obtain ⟨c, hdc⟩ := hc d hd
  refine ⟨⟨c, List.mem_filterMap.mpr ⟨d, hd, hdc⟩, hdc⟩, ?_⟩
  obtain ⟨x, hx, hxd⟩ := hf d hd
  refine hxd.links ⟨?_, ?_⟩
  · intro e he c hc
    rw [(hu x hx).2 e he] at hc
    cases hc
  · intro l hl
    rw [(hu x hx).1] at hl
    cases hl

/-- C90, the part that holds: let `coded` be the datasets right after `add_unique_codes`. Every link of the result leads to one of
them, which is in the result unless it is located in the rest of the world (and was deleted). Missing: that it is in the result
in any case, which is false, see `C90_dangling`. -/
theorem C90_links_partial (P : PipelineEnv) (data : List Dataset) (out : List Item) (hu : Unlinked data)
    (h : runConfig P cutoffConfig data = .ok out) :
    ∃ coded result : List Dataset, runSteps P (cutoffBefore ++ [.addUniqueCodes]) data = .ok (coded.map .ds) ∧ out = result.map .ds ∧
      ∀ d ∈ result, ∀ e ∈ d.exchanges, ∀ c, e.code = some c →
        ∃ t ∈ coded, t.code = some c ∧ (t.location ≠ "RoW" → ∃ t' ∈ result, t'.code = some c ∧ t'.id = t.id ∧ t'.location = t.location) := by
  obtain ⟨start, result, hs, rfl, hc, -, hf, -, hk, hcl⟩ := cutoff_codes h
  refine ⟨start, result, hs, rfl, ?_⟩
  intro d hd e he c hec
  have := (hcl _ (coded_clean hu hc hf) d hd).2.1 e he c hec
  obtain ⟨t, ht, htc⟩ := List.mem_filterMap.mp this
  refine ⟨t, ht, htc, ?_⟩
  intro hl
  obtain ⟨t', ht', hte⟩ := List.mem_map.mp (hk (codeKey t) (List.mem_map.mpr ⟨t, ht, rfl⟩) hl)
  have e1 := congrArg (fun k => k.1) hte
  have e2 := congrArg (fun k => k.2.1) hte
  have e3 := congrArg (fun k => k.2.2.1) hte
  exact ⟨t', ht', e1.trans htc, e3, e2⟩

/-- Extracted datasets are not linked. -/
theorem C90_extracted (X : XmlEnv) (data : List Dataset) (h : ∀ d ∈ data, ∃ fp el, extractDataset X fp el = .ok d) : Unlinked data := by
  intro d hd
  obtain ⟨fp, el, hx⟩ := h d hd
  constructor
  · unfold extractDataset at hx
    repeat obtain ⟨_, -, hx⟩ := bind_eq_ok.mp hx
    cases hx
    rfl
  · intro e he
    obtain ⟨flow, -, -, -, hF⟩ := extractDataset_ok hx
    obtain ⟨c, -, hc⟩ := forall₂_mem_right hF he
    obtain ⟨_, _, _, _, _, _, _, _, _, -, -, -, -, -, -, -, -, -, rfl⟩ := extractExchange_ok hc
    rfl

/-! ## C91 -/

/-- C91: if the consequential model runs to the end, it returns datasets with one reference product of amount one or minus one (up
to the tolerance). All codes are different, and links lead to datasets of the result. -/
theorem C91_consequential (P : PipelineEnv) (data : List Dataset) (out : List Item) (h : runConfig P consequentialConfig data = .ok out) :
    ∃ result : List Dataset, out = result.map .ds ∧ (result.map (·.code)).Nodup ∧
      (∀ d ∈ result, UnitProduct d ∧ ∃ c, d.code = some c) ∧
      (Unlinked data → ∀ d ∈ result, ∀ e ∈ d.exchanges, ∀ c, e.code = some c → ∃ t ∈ result, t.code = some c) := by
  obtain ⟨start, result, -, rfl, hc, hn, hf, hsub, hk, hcl⟩ := consequential_codes h
  obtain ⟨hc', hn'⟩ := codes_nodup hc hn hsub
  refine ⟨result, rfl, hn', ?_, ?_⟩
  · intro d hd
    refine ⟨?_, hc' d hd⟩
    have hsplit : consequentialBefore ++ .addUniqueCodes :: consequentialAfter =
        (consequentialBefore ++ .addUniqueCodes :: consequentialAfter.dropLast) ++ [.normalize] := by decide +kernel
    rw [runConfig_eq, consequential_unwrapped, hsplit] at h
    obtain ⟨mid, -, h2⟩ := foldE_split.mp h
    simp only [foldE] at h2
    obtain ⟨o, h3, h4⟩ := bind_eq_ok.mp h2
    cases h4
    obtain ⟨l, r, -, hr, hre⟩ := onDatasets_ok h3
    have : result = r := List.map_injective_iff.mpr (fun x y hxy => by cases hxy; rfl) hre
    subst this
    rw [wrapNormalize_eq] at hr
    obtain ⟨d0, -, hdd⟩ := mapE_mem hr hd
    obtain ⟨rp, n, hrp, -, -, -, -, rp', hr', -, hh⟩ := C10_normalize_result P.M d0 d hdd
    refine ⟨rp', hr', ?_⟩
    rcases hh with hh | ⟨rfl, hh⟩
    · exact Or.inl hh
    · rw [hrp] at hr'
      cases hr'
      exact Or.inr hh
  · intro hu d hd e he c hec
    have := (hcl _ (coded_clean hu hc hf) d hd).2.1 e he c hec
    obtain ⟨t, ht, htc⟩ := List.mem_filterMap.mp this
    obtain ⟨t', ht', hte⟩ := List.mem_map.mp (hk (codeKey t) (List.mem_map.mpr ⟨t, ht, rfl⟩) trivial)
    exact ⟨t', ht', (congrArg (fun k => k.1) hte).trans htc⟩

/-! ## C92 -/

theorem result_from {data start result : List Dataset} (hf : ∀ d' ∈ start, ∃ d ∈ data, From d d')
    (hsub : (result.map codeKey).Sublist (start.map codeKey)) : ∀ d' ∈ result, ∃ d ∈ data, d'.id = d.id ∧ sourceOf d' = sourceOf d := by
  intro d' hd'
  obtain ⟨x, hx, hxe⟩ := List.mem_map.mp (hsub.subset (List.mem_map.mpr ⟨d', hd', rfl⟩))
  obtain ⟨d, hd, hdx⟩ := hf x hx
  have e1 := congrArg (fun k => k.2.2.1) hxe
  have e2 := congrArg (fun k => k.2.2.2) hxe
  exact ⟨d, hd, e1.symm.trans hdx.id, e2.symm.trans hdx.source⟩

/-- C92: every dataset that a system model returns comes from a given dataset: it has its identifier, its file, its dates, its
technology level and its other metadata. -/
theorem C92_provenance (P : PipelineEnv) (data : List Dataset) (out : List Item)
    (h : runConfig P cutoffConfig data = .ok out ∨ runConfig P cutoffConfigRow data = .ok out ∨ runConfig P consequentialConfig data = .ok out) :
    ∀ i ∈ out, ∃ d', i = .ds d' ∧ ∃ d ∈ data, d'.id = d.id ∧ d'.filepath = d.filepath ∧ d'.startDate = d.startDate ∧ d'.endDate = d.endDate ∧
      d'.technologyLevel = d.technologyLevel ∧ d'.extra = d.extra := by
  have h' : runConfig P cutoffConfig data = .ok out ∨ runConfig P consequentialConfig data = .ok out := by
    rcases h with h | h | h
    · exact Or.inl h
    · exact Or.inl ((C72_same _ _).symm.trans h)
    · exact Or.inr h
  intro i hi
  rcases h' with h | h
  · obtain ⟨start, result, -, rfl, -, -, hf, hsub, -⟩ := cutoff_codes h
    obtain ⟨d', hd', rfl⟩ := List.mem_map.mp hi
    obtain ⟨d, hd, h1, h2⟩ := result_from hf hsub d' hd'
    simp only [sourceOf, Prod.mk.injEq] at h2
    exact ⟨d', rfl, d, hd, h1, h2⟩
  · obtain ⟨start, result, -, rfl, -, -, hf, hsub, -⟩ := consequential_codes h
    obtain ⟨d', hd', rfl⟩ := List.mem_map.mp hi
    obtain ⟨d, hd, h1, h2⟩ := result_from hf hsub d' hd'
    simp only [sourceOf, Prod.mk.injEq] at h2
    exact ⟨d', rfl, d, hd, h1, h2⟩

/-! ## Examples -/

/-- An environment for the examples: codes are the identifying strings themselves. -/
def exampleP : PipelineEnv where
  M := sampleM
  F := exampleF
  ord := fun _ => .ok []
  text := { lower := id, ws := fun c => c == ' ', num := fun _ => none, words := [], parses := fun _ => true }
  uuid := fun e => e.id ++ "pv"
  T := { data := [("GLO", {1, 2, 3}), ("RER", {1, 2})] }
  σ := fun _ _ l => l
  lower := id
  md5 := id
def exampleInput : List Dataset :=
  [{ name := "steel production", location := "RER", id := "a", filepath := "a.spold", technologyLevel := some "current", startDate := some "2000", endDate := some "2010", exchanges := [{ name := "steel", id := "1", type := .referenceProduct, cls := some .allocatable, amount := 2, pv := some { amount := 100 } }, { name := "iron", id := "2", type := .fromEnvironment, amount := 6 }] },
   { name := "market for steel", location := "GLO", type := .market, id := "b", filepath := "b.spold", startDate := some "2000", endDate := some "2010", exchanges := [{ name := "steel", id := "3", type := .referenceProduct, cls := some .allocatable, amount := 1, pv := some { amount := 0 } }] },
   { name := "car production", location := "GLO", id := "c", filepath := "c.spold", technologyLevel := some "current", startDate := some "2000", endDate := some "2010", exchanges := [{ name := "car", id := "4", type := .referenceProduct, cls := some .allocatable, amount := 4, pv := some { amount := 10 } }, { name := "steel", id := "5", type := .fromTechnosphere, amount := 12 }] }]
/-- What the examples show of a result. -/
structure Row where
  name : String
  location : String
  code : Option String
  exchanges : List (String × ℚ × Option String)
  deriving DecidableEq, Repr
def Row.of : Item → Row
  | .ds d => ⟨d.name, d.location, d.code, d.exchanges.map fun e => (e.name, e.amount, e.code)⟩
  | .str s => ⟨s, "", none, []⟩
def exampleRun (config : List (FnItem Step)) (data : List Dataset) : Option (List Row) := (runConfig exampleP config data).toOption.map fun l => l.map Row.of

def exampleDangling : List Dataset :=
  [{ name := "steel production", location := "RER", id := "a", filepath := "a.spold", technologyLevel := some "current", startDate := some "2000", endDate := some "2010", exchanges := [{ name := "steel", id := "1", type := .referenceProduct, cls := some .allocatable, amount := 1, pv := some { amount := 100 } }] },
   { name := "steel production", location := "GLO", id := "b", filepath := "b.spold", technologyLevel := some "current", startDate := some "2000", endDate := some "2010", exchanges := [{ name := "steel", id := "2", type := .referenceProduct, cls := some .allocatable, amount := 1, pv := some { amount := 0 } }] },
   { name := "car production", location := "GLO", id := "c", filepath := "c.spold", technologyLevel := some "current", startDate := some "2000", endDate := some "2010", exchanges := [{ name := "car", id := "3", type := .referenceProduct, cls := some .allocatable, amount := 1, pv := some { amount := 10 } }, { name := "steel", id := "4", type := .fromTechnosphere, amount := 12, activityLink := some "b" }] }]

theorem exampleDangling_run : exampleRun cutoffConfig exampleDangling = some [⟨"steel production", "RER", some "steel productionsteelRER20002010", [("steel", 1, some "steel productionsteelRER20002010")]⟩, ⟨"car production", "GLO", some "car productioncarGLO20002010", [("car", 1, some "car productioncarGLO20002010"), ("steel", 12, some "steel productionsteelRoW20002010")]⟩] := by decide +kernel

/-- The cut-off model runs to the end on three datasets. -/
example : exampleRun cutoffConfig exampleInput = some [⟨"steel production", "RER", some "steel productionsteelRER20002010", [("steel", 1, some "steel productionsteelRER20002010"), ("iron", 3, none)]⟩, ⟨"market for steel", "GLO", some "market for steelsteelGLO20002010", [("steel", 1, some "market for steelsteelGLO20002010"), ("steel", 1, some "steel productionsteelRER20002010")]⟩, ⟨"car production", "GLO", some "car productioncarGLO20002010", [("car", 1, some "car productioncarGLO20002010"), ("steel", 3, some "market for steelsteelGLO20002010")]⟩] := by decide +kernel

/-- So does the consequential model. -/
example : exampleRun consequentialConfig exampleInput = some [⟨"steel production", "RER", some "steel productionsteelRER20002010", [("steel", 1, none), ("iron", 3, none)]⟩, ⟨"market for steel", "GLO", some "market for steelsteelGLO20002010", [("steel", 1, none), ("steel", 1, some "steel productionsteelRER20002010")]⟩, ⟨"car production", "GLO", some "car productioncarGLO20002010", [("car", 1, none), ("steel", 3, some "market for steelsteelGLO20002010")]⟩] := by decide +kernel

example : Unlinked exampleInput ∧ Unlinked exampleDangling := by unfold Unlinked; decide +kernel

/-- C90 fails: the cut-off model can return links to datasets that it deleted. Here an input is linked to a global dataset
without production, which is relabelled as rest of the world, linked, and deleted. -/
theorem C90_dangling : ∃ (P : PipelineEnv) (data result : List Dataset), Unlinked data ∧ runConfig P cutoffConfig data = .ok (result.map .ds) ∧
    ∃ d ∈ result, ∃ e ∈ d.exchanges, ∃ c, e.code = some c ∧ ∀ t ∈ result, t.code ≠ some c := by
  have hrun := exampleDangling_run
  unfold exampleRun at hrun
  rcases hr : runConfig exampleP cutoffConfig exampleDangling with e | out
  · rw [hr] at hrun; cases hrun
  · rw [hr] at hrun
    simp only [Except.toOption, Option.map_some, Option.some.injEq] at hrun
    obtain ⟨start, result, -, rfl, -⟩ := cutoff_codes hr
    refine ⟨exampleP, exampleDangling, result, by unfold Unlinked; decide +kernel, hr, ?_⟩
    rw [List.map_map] at hrun
    have hcodes : result.map (·.code) = [some "steel productionsteelRER20002010", some "car productioncarGLO20002010"] := by
      have := congrArg (List.map Row.code) hrun
      rw [List.map_map] at this
      exact this
    have hex : result.map (fun d => d.exchanges.map fun e => (e.name, e.amount, e.code)) =
        [[("steel", 1, some "steel productionsteelRER20002010")], [("car", 1, some "car productioncarGLO20002010"), ("steel", 12, some "steel productionsteelRoW20002010")]] := by
      have := congrArg (List.map Row.exchanges) hrun
      rw [List.map_map] at this
      exact this
    have hm : [("car", (1 : ℚ), some "car productioncarGLO20002010"), ("steel", 12, some "steel productionsteelRoW20002010")] ∈
        result.map (fun d => d.exchanges.map fun e => (e.name, e.amount, e.code)) := by rw [hex]; simp
    obtain ⟨d, hd, hde⟩ := List.mem_map.mp hm
    have hm2 : ("steel", (12 : ℚ), some "steel productionsteelRoW20002010") ∈ d.exchanges.map fun e => (e.name, e.amount, e.code) := by
      rw [hde]; simp
    obtain ⟨e, he, hee⟩ := List.mem_map.mp hm2
    refine ⟨d, hd, e, he, "steel productionsteelRoW20002010", congrArg (fun k => k.2.2) hee, ?_⟩
    intro t ht htc
    have : t.code ∈ result.map (·.code) := List.mem_map.mpr ⟨t, ht, rfl⟩
    rw [hcodes, htc] at this
    revert this
    decide

end Ocelot
