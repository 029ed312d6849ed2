import Verif.Model.Validation
import Verif.Model.FixParameters
import Verif.Model.Combined
import Verif.Model.Linking
import Verif.Model.Consequential
import Verif.Model.Framework

/-!
# configuration.py: the three system models

Every transformation function of the configurations has a symbol, the configurations are lists of symbols and collections as
in the code, and `Step.run` gives the meaning of a symbol in terms of the models of the single functions.
-/

namespace Ocelot

/-- The transformation functions that the configurations use. -/
inductive Step where
  -- transformations/validation.py, utils.py, parameterization/
  | ensureIdsAreUnique | copyOriginalExchangeId | variableNamesAreUnique
  | ensureMarketsOneProduct | ensureMarketsNoOwnConsumption
  | fixSpecificIssues | replaceImplicitReferences | repairUncertainty | fixKnownBadFormulas | lowercaseParameters
  | fixMathFormulas | replaceReservedWords | deleteUnparsableFormulas
  | ensureVolumesGiven | addPvToAllocatableByproducts | createPvParameters
  -- transformations/cutoff/
  | removeConsequentialExchanges | dropRpActivityLinks | dropZeroAmountActivityLinks
  | renameRecyclable | createRecycledContentDatasets
  | labelAllocationMethod | allocate (label : String) | deleteAllocationMethod
  | renameRecycledAfterLinking | flipNonAllocatableByproducts | adjustMarketSigns
  -- transformations/activity_links.py
  | updateParentChild | fix35ActivityLinks | checkActivityLinkValidity | addHardLinkedVolumes | updateTransformingVolumes
  -- transformations/locations/
  | labelReferenceProduct | deleteWhitelistedMarkets | assignFakePv | correctPipelineLocation | relabelGlobalToRow
  | checkNoRowMarketGroups | addUniqueCodes | actualizeActivityLinks | addRecycledContentSuppliers
  | addSuppliers (from_ to_ : DsType) | updateMarketVolumes (kind : DsType) | deleteGlobalZeroPv (kind : DsType)
  | allocateMarketSuppliers (kind : DsType) | linkMarketGroupSuppliers | linkRecycledContent | linkConsumersToMarkets
  | addReferenceProductCodes | logAndDeleteUnlinked | deleteSuppliersList
  -- transformations/consequential/
  | splitCombinedProduction | deleteLinksToConstrained | handleConstrainedMarkets | ensureAlternativeProduction
  | pruneByTechnologyLevel
  -- wrapped
  | normalize
  deriving DecidableEq, Repr

/-- Everything outside the model that the functions use. -/
structure PipelineEnv where
  M : MathEnv
  F : FormulaEnv
  /-- the order in which `bw2parameters` evaluates the variables of a dataset -/
  ord : Dataset → Except Err (List String)
  text : TextEnv
  /-- identifiers of new parameters -/
  uuid : Exchange → String
  T : Topology
  /-- the iteration order of sets of locations -/
  σ : Dataset → String → List String → List String
  lower : String → String
  md5 : String → String

/-- Functions that read `ds['...']` of every element raise `TypeError` for a string (which `constrained_market_allocation` leaves
in the list, see `Verif.Model.Combined`). Should another dataset raise an exception before, it is that exception instead; the
model does not distinguish. -/
def asDatasets : List Item → Except Err (List Dataset)
  | [] => .ok []
  | .ds d :: l => do
    let r ← asDatasets l
    return d :: r
  | .str _ :: _ => .error .typeError

/-- A function on lists of datasets. -/
def onDatasets (f : List Dataset → Except Err (List Dataset)) (items : List Item) : Except Err (List Item) := do
  let l ← asDatasets items
  let r ← f l
  return r.map .ds

/-- /repo/ocelot/transformations/consequential/combined.py:6-7 `multi_rp`. -/
def multiRp (ds : Dataset) : Bool := decide (1 < (referenceProducts ds).length)

/-- The meaning of the symbols. -/
def Step.run (P : PipelineEnv) : Step → List Item → Except Err (List Item)
  | .ensureIdsAreUnique => onDatasets Ocelot.ensureIdsAreUnique
  | .copyOriginalExchangeId => onDatasets fun d => .ok (Ocelot.copyOriginalExchangeId d)
  | .variableNamesAreUnique => onDatasets Ocelot.variableNamesAreUnique
  | .ensureMarketsOneProduct => onDatasets Ocelot.ensureMarketsOneProduct
  | .ensureMarketsNoOwnConsumption => onDatasets Ocelot.ensureMarketsNoOwnConsumption
  | .fixSpecificIssues => onDatasets fun d => .ok (d.map Ocelot.fixSpecificIssues)
  | .replaceImplicitReferences => onDatasets (mapE Ocelot.replaceImplicitReferences)
  | .repairUncertainty => onDatasets (mapE (repairAll P.M))
  | .fixKnownBadFormulas => onDatasets (mapE Ocelot.fixKnownBadFormulas)
  | .lowercaseParameters => onDatasets (mapE (lowercaseAllParameters P.text.lower))
  | .fixMathFormulas => onDatasets (mapE (Ocelot.fixMathFormulas P.text.ws P.text.num))
  | .replaceReservedWords => onDatasets (mapE (Ocelot.replaceReservedWords P.text.words P.text.parses))
  | .deleteUnparsableFormulas => onDatasets (mapE (Ocelot.deleteUnparsableFormulas P.text.parses))
  | .ensureVolumesGiven => onDatasets Ocelot.ensureVolumesGiven
  | .addPvToAllocatableByproducts => onDatasets Ocelot.addPvToAllocatableByproducts
  | .createPvParameters => onDatasets fun d => .ok (d.map (Ocelot.createPvParameters P.uuid))
  | .removeConsequentialExchanges => onDatasets fun d => .ok (Ocelot.removeConsequentialExchanges d)
  | .dropRpActivityLinks => onDatasets fun d => .ok (Ocelot.dropRpActivityLinks d)
  | .dropZeroAmountActivityLinks => onDatasets fun d => .ok (Ocelot.dropZeroAmountActivityLinks d)
  | .renameRecyclable => onDatasets renameRecyclableContentExchanges
  | .createRecycledContentDatasets => onDatasets Ocelot.createRecycledContentDatasets
  | .labelAllocationMethod => onDatasets Ocelot.labelAllocationMethod
  | .allocate label => flatMapE (methodStep P.M P.F P.ord label)
  | .deleteAllocationMethod => mapE Ocelot.deleteAllocationMethod
  | .renameRecycledAfterLinking => onDatasets fun d => .ok (renameRecycledContentAfterLinking d)
  | .flipNonAllocatableByproducts => onDatasets Ocelot.flipNonAllocatableByproducts
  | .adjustMarketSigns => onDatasets (adjustMarketSignsAll P.M)
  | .updateParentChild => onDatasets updateActivityLinkParentChild
  | .fix35ActivityLinks => onDatasets fun d => .ok (Ocelot.fix35ActivityLinks d)
  | .checkActivityLinkValidity => onDatasets Ocelot.checkActivityLinkValidity
  | .addHardLinkedVolumes => onDatasets addHardLinkedProductionVolumes
  | .updateTransformingVolumes => onDatasets Ocelot.updateTransformingVolumes
  | .labelReferenceProduct => onDatasets Ocelot.labelReferenceProduct
  | .deleteWhitelistedMarkets => onDatasets Ocelot.deleteWhitelistedMarkets
  | .assignFakePv => onDatasets assignFakePvToConfidential
  | .correctPipelineLocation => onDatasets fun d => .ok (Ocelot.correctPipelineLocation d)
  | .relabelGlobalToRow => onDatasets Ocelot.relabelGlobalToRow
  | .checkNoRowMarketGroups => onDatasets Ocelot.checkNoRowMarketGroups
  | .addUniqueCodes => onDatasets (Ocelot.addUniqueCodes P.lower P.md5)
  | .actualizeActivityLinks => onDatasets Ocelot.actualizeActivityLinks
  | .addRecycledContentSuppliers => onDatasets (Ocelot.addRecycledContentSuppliers P.T P.σ)
  | .addSuppliers from_ to_ => onDatasets (addSuppliersToMarkets P.T P.σ from_ to_)
  | .updateMarketVolumes kind => onDatasets (updateMarketProductionVolumes P.T kind)
  | .deleteGlobalZeroPv kind => onDatasets (Ocelot.deleteGlobalZeroPv kind)
  | .allocateMarketSuppliers kind => onDatasets (allocateAllMarketSuppliers kind)
  | .linkMarketGroupSuppliers => onDatasets (Ocelot.linkMarketGroupSuppliers P.T)
  | .linkRecycledContent => onDatasets Ocelot.linkRecycledContent
  | .linkConsumersToMarkets => onDatasets (Ocelot.linkConsumersToMarkets P.M P.T)
  | .addReferenceProductCodes => onDatasets Ocelot.addReferenceProductCodes
  | .logAndDeleteUnlinked => onDatasets fun d => .ok (Ocelot.logAndDeleteUnlinked d)
  | .deleteSuppliersList => onDatasets fun d => .ok (Ocelot.deleteSuppliersList d)
  | .splitCombinedProduction => onDatasets (wrapFiltered (fun d => .ok (multiRp d)) (combinedProduction P.M P.F P.ord))
  | .deleteLinksToConstrained => onDatasets Ocelot.deleteLinksToConstrained
  | .handleConstrainedMarkets => onDatasets Ocelot.handleConstrainedMarkets
  | .ensureAlternativeProduction => onDatasets Ocelot.ensureAlternativeProduction
  | .pruneByTechnologyLevel => onDatasets Ocelot.pruneByTechnologyLevel
  | .normalize => onDatasets (wrapAll (normalizeList P.M))

/-- /repo/ocelot/transformations/validation.py:69-73 `validate_markets`. -/
def validateMarketsItem : FnItem Step := .coll [.fn .ensureMarketsOneProduct, .fn .ensureMarketsNoOwnConsumption]

/-- /repo/ocelot/transformations/parameterization/__init__.py:19-29 `fix_ecoinvent_parameters`. -/
def fixParametersItem : FnItem Step :=
  .coll [.fn .fixSpecificIssues, .fn .replaceImplicitReferences, .fn .repairUncertainty, .fn .fixKnownBadFormulas,
    .fn .lowercaseParameters, .fn .fixMathFormulas, .fn .replaceReservedWords, .fn .deleteUnparsableFormulas]

/-- /repo/ocelot/transformations/__init__.py:28-33 `pv_cleanup`. -/
def pvCleanupItem : FnItem Step := .coll [.fn .ensureVolumesGiven, .fn .addPvToAllocatableByproducts, .fn .createPvParameters]

/-- /repo/ocelot/transformations/cutoff/__init__.py:30-34 `cleanup_activity_links`. -/
def cleanupLinksItem : FnItem Step := .coll [.fn .dropRpActivityLinks, .fn .dropZeroAmountActivityLinks]

/-- /repo/ocelot/transformations/activity_links.py:242-248 `manage_activity_links`. -/
def manageLinksItem : FnItem Step :=
  .coll [.fn .fix35ActivityLinks, .fn .checkActivityLinkValidity, .fn .addHardLinkedVolumes, .fn .updateTransformingVolumes]

/-- /repo/ocelot/transformations/cutoff/wastes.py:211-216 `handle_waste_outputs`. -/
def wasteOutputsItem : FnItem Step := .coll [.fn .renameRecyclable, .fn .createRecycledContentDatasets]

/-- /repo/ocelot/transformations/cutoff/allocation.py:197-204 `cutoff_allocation`. -/
def allocationItem : FnItem Step :=
  .coll ([.fn .labelAllocationMethod] ++ (allocationLabels.drop 1).map (fun l => .fn (.allocate l)) ++ [.fn .deleteAllocationMethod])

/-- /repo/ocelot/transformations/locations/__init__.py:35-61 `link_markets_by_pv`. -/
def linkByPvItem : FnItem Step :=
  .coll [.fn .labelReferenceProduct, .fn .deleteWhitelistedMarkets, .fn .assignFakePv, .fn .correctPipelineLocation,
    .fn .relabelGlobalToRow, .fn .checkNoRowMarketGroups, .fn .addUniqueCodes, .fn .actualizeActivityLinks,
    .fn .addRecycledContentSuppliers, .fn (.addSuppliers .transforming .market), .fn (.updateMarketVolumes .market),
    .fn (.deleteGlobalZeroPv .market), .fn (.deleteGlobalZeroPv .transforming), .fn (.allocateMarketSuppliers .market),
    .fn .linkMarketGroupSuppliers, .fn (.updateMarketVolumes .marketGroup), .fn (.allocateMarketSuppliers .marketGroup),
    .fn .linkRecycledContent, .fn .linkConsumersToMarkets, .fn .addReferenceProductCodes, .fn .logAndDeleteUnlinked]

/-- /repo/ocelot/transformations/locations/__init__.py:63-89 `link_markets_by_pv_ecoinvent_row`. -/
def linkByPvRowItem : FnItem Step :=
  .coll [.fn .labelReferenceProduct, .fn .deleteWhitelistedMarkets, .fn .assignFakePv, .fn .correctPipelineLocation,
    .fn .relabelGlobalToRow, .fn .checkNoRowMarketGroups, .fn .addUniqueCodes, .fn .actualizeActivityLinks,
    .fn .addRecycledContentSuppliers, .fn (.addSuppliers .transforming .market), .fn (.updateMarketVolumes .market),
    .fn (.deleteGlobalZeroPv .market), .fn (.deleteGlobalZeroPv .transforming), .fn (.allocateMarketSuppliers .market),
    .fn .linkMarketGroupSuppliers, .fn (.updateMarketVolumes .marketGroup), .fn (.allocateMarketSuppliers .marketGroup),
    .fn .linkRecycledContent, .fn .linkConsumersToMarkets, .fn .addReferenceProductCodes, .fn .logAndDeleteUnlinked]

/-- /repo/ocelot/transformations/consequential/__init__.py:27-46 `link_markets_by_technology_level`. -/
def linkByLevelItem : FnItem Step :=
  .coll [.fn .labelReferenceProduct, .fn .deleteWhitelistedMarkets, .fn .assignFakePv, .fn .relabelGlobalToRow,
    .fn .addUniqueCodes, .fn .actualizeActivityLinks, .fn (.addSuppliers .transforming .market), .fn .pruneByTechnologyLevel,
    .fn (.updateMarketVolumes .market), .fn (.addSuppliers .market .marketGroup), .fn (.updateMarketVolumes .marketGroup),
    .fn (.allocateMarketSuppliers .market), .fn .deleteSuppliersList, .fn .linkConsumersToMarkets, .fn .logAndDeleteUnlinked]

/-- /repo/ocelot/configuration.py:45-72 `cutoff_config`. -/
def cutoffConfig : List (FnItem Step) :=
  [.fn .ensureIdsAreUnique, .fn .copyOriginalExchangeId, .fn .variableNamesAreUnique, validateMarketsItem, fixParametersItem,
    pvCleanupItem, .fn .removeConsequentialExchanges, cleanupLinksItem, .fn .updateParentChild, manageLinksItem,
    wasteOutputsItem, allocationItem, .fn .dropRpActivityLinks, linkByPvItem, .fn .renameRecycledAfterLinking,
    .fn .flipNonAllocatableByproducts, .fn .normalize, .fn .adjustMarketSigns]

/-- /repo/ocelot/configuration.py:74-101 `cutoff_config_ecoinvent_row`. -/
def cutoffConfigRow : List (FnItem Step) :=
  [.fn .ensureIdsAreUnique, .fn .copyOriginalExchangeId, .fn .variableNamesAreUnique, validateMarketsItem, fixParametersItem,
    pvCleanupItem, .fn .removeConsequentialExchanges, cleanupLinksItem, .fn .updateParentChild, manageLinksItem,
    wasteOutputsItem, allocationItem, .fn .dropRpActivityLinks, linkByPvRowItem, .fn .renameRecycledAfterLinking,
    .fn .flipNonAllocatableByproducts, .fn .normalize, .fn .adjustMarketSigns]

/-- /repo/ocelot/configuration.py:103-121 `consequential_config`. -/
def consequentialConfig : List (FnItem Step) :=
  [.fn .ensureIdsAreUnique, .fn .copyOriginalExchangeId, .fn .variableNamesAreUnique, validateMarketsItem, fixParametersItem,
    pvCleanupItem, .fn .dropZeroAmountActivityLinks, .fn .splitCombinedProduction, .fn .deleteLinksToConstrained,
    .fn .handleConstrainedMarkets, .fn .ensureAlternativeProduction, linkByLevelItem, .fn .normalize]

/-- Running a configuration (/repo/ocelot/collection.py:47-50, and the loop of /repo/ocelot/model.py without reports and saved
results) on datasets. -/
def runConfig (P : PipelineEnv) (config : List (FnItem Step)) (data : List Dataset) : Except Err (List Item) :=
  (Coll.new config).call (Step.run P) (data.map .ds)

end Ocelot
