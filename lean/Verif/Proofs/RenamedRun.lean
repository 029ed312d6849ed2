import Verif.Proofs.RenamedLinking
import Verif.Proofs.UnitsRun

/-! Running functions in any order respects a renaming of the activities. -/

namespace Ocelot
namespace Renamed
open Spec Ocelot.Units

variable {ρ : Spec.Renaming}

/-! ## The last functions -/

theorem purged_rel {l l' : List Dataset} (hl : List.Forall₂ (RD ρ) l l') : Option.Rel (RD ρ) (purgedOf l) (purgedOf l') := by
  unfold purgedOf
  rw [hl.length_eq]
  split
  · exact .none
  · have := find_rel' (p := fun ds : Dataset => ds.location == "RoW") (q := fun ds : Dataset => ds.location == "RoW") (fun d d' hd => by rw [RD.location hd]) hl
    revert this
    generalize l.find? (fun ds => ds.location == "RoW") = o
    generalize l'.find? (fun ds => ds.location == "RoW") = o'
    intro h
    cases h with
    | none => exact .none
    | @some d d' hd =>
      simp only
      rw [originalVolume_rel hd]
      split
      · exact .some hd
      · exact .none

theorem contains_rel (hu : ρ.Proper) {l l' : List Dataset} (hl : List.Forall₂ (RD ρ) l l') {d d' : Dataset} (hd : RD ρ d d') : l.contains d = l'.contains d' := by
  rw [Bool.eq_iff_iff, List.contains_iff_mem, List.contains_iff_mem]
  induction hl with
  | nil => simp
  | cons hab _ ih => rw [List.mem_cons, List.mem_cons, ih, RD.eq_iff hu hd hab]

theorem resp_globalZero (hu : ρ.Proper) (kind : DsType) : Resp ρ (deleteGlobalZeroPv kind) := by
  intro l l' hl
  unfold deleteGlobalZeroPv
  refine (keys_rel (fun d d' hd => by rw [hd.type]) hl).bind fun k k' hk => ?_
  have hp : List.Forall₂ (RD ρ) (((groupBy (·.1) k).map fun g => g.2.map (·.2)).filterMap purgedOf) (((groupBy (·.1) k').map fun g => g.2.map (·.2)).filterMap purgedOf) :=
    filterMap_rel (fun g g' hg => purged_rel hg) (map_rel (Q := List.Forall₂ (RD ρ)) (fun g g' hg => map_rel (fun _ _ h => h.2) hg.2) (groupBy_rel (fun _ _ h => h.1) hk))
  exact ER.ok (forall₂_imp (fun _ _ h => h.1) (filter_rel (fun d d' hd => by rw [contains_rel hu hp hd]) hl))

theorem resp_renameAfter : Resp ρ (fun l => .ok (renameRecycledContentAfterLinking l)) :=
  resp_map fun d d' hd => by
    obtain ⟨ex', s', rfl, hex, hs⟩ := hd
    exact ⟨_, s', rfl, map_rel (fun e e' he => by rw [he]; rfl) hex, hs⟩

theorem flip_rel {e e' : Exchange} (he : RE ρ e e') : ER (RE ρ) (flipExchange e) (flipExchange e') := by
  unfold flipExchange
  refine ER.ite (by rw [RE.type he]) (fun _ => ?_) fun _ => he
  rw [← RE.cls he]
  cases e.cls with
  | none => exact rfl
  | some c =>
    cases c
    · exact he
    · exact ER.ok (by rw [he]; rfl)
    · exact ER.ok (by rw [he]; rfl)

theorem resp_flip : Resp ρ flipNonAllocatableByproducts :=
  resp_mapE fun _ _ hd => (ER.mapE hd.exs fun _ _ he => flip_rel he).bind fun _ _ h => hd.setEx h

theorem signs_rel (M : MathEnv) {d d' : Dataset} (hd : RD ρ d d') : ER (RD ρ) (adjustMarketSigns M d) (adjustMarketSigns M d') := by
  unfold adjustMarketSigns
  refine ER.ite (by rw [hd.type]) (fun _ => ?_) fun _ => hd
  refine (single_rel hd).bind fun e e' he => ?_
  rw [RE.cls he.1]
  refine (ER.refl _).bind ?_
  rintro c _ rfl
  refine ER.ite ?_ (fun _ => ?_) fun _ => ER.ite ?_ (fun _ => ?_) fun _ => hd
  · rw [all_rel (fun x x' hx => by rw [RE.amount hx]) hd.exs]
  · exact (scaleAll_rel hd.exs _).bind fun _ _ h => hd.setEx h
  · rw [RE.amount he.1]
  · refine (ER.mapE (Q := RE ρ) hd.exs fun x x' hx => ?_).bind fun _ _ h => hd.setEx h
    exact ER.ite (by rw [RE.name hx, RE.name he.1]) (fun _ => RE.scale hx _) fun _ => hx

theorem resp_signs (M : MathEnv) : Resp ρ (adjustMarketSignsAll M) := resp_mapE fun _ _ hd => signs_rel M hd

theorem resp_normalize (M : MathEnv) : Resp ρ (wrapAll (normalizeList M)) := by
  intro l l' hl
  refine ER.flatMapE hl fun d d' hd => ?_
  exact (normalize_rel M hd).bind fun _ _ h => ER.ok (.cons h .nil)

/-! ## Every function -/

/-- The second list is the first one with other names. -/
abbrev RIs (ρ : Spec.Renaming) : List Item → List Item → Prop := List.Forall₂ (RI ρ)

theorem asDatasets_rel {l l' : List Item} (hl : RIs ρ l l') : ER (List.Forall₂ (RD ρ)) (asDatasets l) (asDatasets l') := by
  induction hl with
  | nil => exact List.Forall₂.nil
  | cons h _ ih =>
    cases h with
    | ds h => exact ih.bind fun _ _ hr => List.Forall₂.cons h hr
    | str s => exact rfl

theorem ds_rel {l l' : List Dataset} (hl : List.Forall₂ (RD ρ) l l') : RIs ρ (l.map .ds) (l'.map .ds) := map_rel (fun _ _ h => .ds h) hl

theorem lift {f : List Dataset → Except Err (List Dataset)} (hf : Resp ρ f) (x x' : List Item) (h : RIs ρ x x') : ER (RIs ρ) (onDatasets f x) (onDatasets f x') :=
  (asDatasets_rel h).bind fun l l' hl => (hf l l' hl).bind fun _ _ hr => ds_rel hr

theorem step_rel (hu : ρ.Proper) {P : PipelineEnv} (hP : Env ρ P) (hid : ∀ e, P.uuid (ρ.exc e) = P.uuid e) (s : Step) (x x' : List Item) (h : RIs ρ x x') :
    ER (RIs ρ) (s.run P x) (s.run P x') := by
  cases s with
  | ensureIdsAreUnique => exact lift (resp_ids hu) x x' h
  | copyOriginalExchangeId => exact lift resp_copyId x x' h
  | variableNamesAreUnique => exact lift resp_variables x x' h
  | ensureMarketsOneProduct => exact lift resp_oneProduct x x' h
  | ensureMarketsNoOwnConsumption => exact lift (resp_ownConsumption hu) x x' h
  | fixSpecificIssues => exact lift resp_fixSpecific x x' h
  | replaceImplicitReferences => exact lift resp_replace x x' h
  | repairUncertainty => exact lift (resp_repair _) x x' h
  | fixKnownBadFormulas => exact lift resp_known x x' h
  | lowercaseParameters => exact lift (resp_lowercase _) x x' h
  | fixMathFormulas => exact lift (resp_fixMath _ _) x x' h
  | replaceReservedWords => exact lift (resp_reserved _ _) x x' h
  | deleteUnparsableFormulas => exact lift (resp_unparsable _) x x' h
  | ensureVolumesGiven => exact lift resp_volumesGiven x x' h
  | addPvToAllocatableByproducts => exact lift resp_addPv x x' h
  | createPvParameters => exact lift (resp_createPv hid) x x' h
  | removeConsequentialExchanges => exact lift resp_consequential x x' h
  | dropRpActivityLinks => exact lift (resp_dropRp hu) x x' h
  | dropZeroAmountActivityLinks => exact lift (resp_dropZero hu) x x' h
  | renameRecyclable => exact lift resp_rename x x' h
  | createRecycledContentDatasets => exact lift resp_create x x' h
  | labelAllocationMethod => exact lift resp_label x x' h
  | allocate label => exact ER.flatMapE h fun _ _ hi => methodStep_rel hu hP.ord label hi
  | deleteAllocationMethod => exact ER.mapE h fun _ _ hi => deleteMethod_rel hi
  | renameRecycledAfterLinking => exact lift resp_renameAfter x x' h
  | flipNonAllocatableByproducts => exact lift resp_flip x x' h
  | adjustMarketSigns => exact lift (resp_signs _) x x' h
  | updateParentChild => exact lift (resp_parentChild hu) x x' h
  | fix35ActivityLinks => exact lift (resp_fix35 hu) x x' h
  | checkActivityLinkValidity => exact lift (resp_linkValidity hu) x x' h
  | addHardLinkedVolumes => exact lift (resp_hardLinked hu) x x' h
  | updateTransformingVolumes => exact lift resp_transforming x x' h
  | labelReferenceProduct => exact lift resp_labelProduct x x' h
  | deleteWhitelistedMarkets => exact lift resp_whitelisted x x' h
  | assignFakePv => exact lift resp_fakePv x x' h
  | correctPipelineLocation => exact lift resp_pipeline x x' h
  | relabelGlobalToRow => exact lift resp_row x x' h
  | checkNoRowMarketGroups => exact lift resp_noRow x x' h
  | addUniqueCodes => exact lift (resp_codes _ _) x x' h
  | actualizeActivityLinks => exact lift (resp_actualize hu) x x' h
  | addRecycledContentSuppliers => exact lift (resp_addRecycled hP) x x' h
  | addSuppliers from_ to_ => exact lift (resp_addSuppliers hP _ _) x x' h
  | updateMarketVolumes kind =>
    by_cases hk : kind = .marketGroup
    · subst hk; exact lift (resp_updateGroups hu _) x x' h
    · exact lift (resp_updateMarkets _ _ hk) x x' h
  | deleteGlobalZeroPv kind => exact lift (resp_globalZero hu _) x x' h
  | allocateMarketSuppliers kind => exact lift (resp_allocate _) x x' h
  | linkMarketGroupSuppliers => exact lift (resp_groups _) x x' h
  | linkRecycledContent => exact lift resp_recycled x x' h
  | linkConsumersToMarkets => exact lift (resp_consumers hu _ _) x x' h
  | addReferenceProductCodes => exact lift resp_rpCodes x x' h
  | logAndDeleteUnlinked => exact lift resp_unlinked x x' h
  | deleteSuppliersList => exact lift (fun _ _ hl => ER.ok (resp_deleteSuppliers hl)) x x' h
  | splitCombinedProduction => exact lift (resp_split hu hP.ord) x x' h
  | deleteLinksToConstrained => exact lift (resp_deleteLinks hu) x x' h
  | handleConstrainedMarkets => exact lift (resp_constrained hu) x x' h
  | ensureAlternativeProduction => exact lift resp_alternative x x' h
  | pruneByTechnologyLevel => exact lift resp_prune x x' h
  | normalize => exact lift (resp_normalize _) x x' h

theorem start (data : List Dataset) : RIs ρ (data.map .ds) ((data.map ρ.ds).map .ds) := by
  refine ds_rel ?_
  induction data with
  | nil => exact .nil
  | cons d l ih => exact .cons (RD.mk d) ih

theorem all_item {x x' : List Item} (h : RIs ρ x x') : x' = x.map ρ.item := by
  induction h with
  | nil => rfl
  | cons h _ ih =>
    rw [List.map_cons, ih]
    cases h with
    | ds h => rw [h.eq]; rfl
    | str s => rfl

end Renamed
end Ocelot
