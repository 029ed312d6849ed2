import Verif.Proofs.PartsGroups
import Verif.Props.Pipeline

/-! Whole runs work on the parts of a database separately. -/

namespace Ocelot
namespace Parts
open Spec

variable {c : Cut} {J : Option (String → Bool)}

/-! ## Strings among the datasets -/

theorem part_items (X : List Dataset) : (c.part X).map Item.ds = (X.map Item.ds).filter fun i => match i with | .ds d => c.name d.name | .str _ => false := by
  unfold Cut.part
  rw [List.filter_map]
  rfl

theorem flatMapE_total {α β : Type} {f : α → Except Err (List β)} {l : List α} {r : List β} (h : flatMapE f l = .ok r) : ∀ a ∈ l, ∃ b, f a = .ok b := by
  induction l generalizing r with
  | nil => exact fun a ha => by cases ha
  | cons x l ih =>
    unfold flatMapE at h
    obtain ⟨b, hb, h⟩ := bind_eq_ok.mp h
    obtain ⟨r', hr', h⟩ := bind_eq_ok.mp h
    intro a ha
    rcases List.mem_cons.mp ha with rfl | ha
    · exact ⟨b, hb⟩
    · exact ih hr' a ha

/-- A string in the list never goes away. -/
theorem step_back (P : PipelineEnv) (s : Step) {items : List Item} {Y : List Dataset} (h : s.run P items = .ok (Y.map .ds)) : ∃ X : List Dataset, items = X.map .ds := by
  have hon : ∀ f, onDatasets f items = .ok (Y.map .ds) → ∃ X : List Dataset, items = X.map .ds := fun f h => by
    obtain ⟨l, -, hl, -⟩ := onDatasets_ok h
    exact ⟨l, hl⟩
  have hall : (∀ i ∈ items, ∃ d, i = .ds d) → ∃ X : List Dataset, items = X.map .ds := by
    intro hi
    clear h hon
    induction items with
    | nil => exact ⟨[], rfl⟩
    | cons i items ih =>
      obtain ⟨X, rfl⟩ := ih fun x hx => hi x (List.mem_cons_of_mem _ hx)
      obtain ⟨d, rfl⟩ := hi i List.mem_cons_self
      exact ⟨d :: X, rfl⟩
  cases s with
  | allocate label =>
    refine hall fun i hi => ?_
    cases i with
    | ds d => exact ⟨d, rfl⟩
    | str s =>
      obtain ⟨b, hb⟩ := flatMapE_total (f := methodStep P.M P.F P.ord label) h _ hi
      cases hb
  | deleteAllocationMethod =>
    refine hall fun i hi => ?_
    cases i with
    | ds d => exact ⟨d, rfl⟩
    | str s =>
      have hm : mapE deleteAllocationMethod items = .ok (Y.map .ds) := h
      obtain ⟨b, hb, hbi⟩ := forall₂_mem_left (mapE_ok_iff.mp hm) hi
      simp only [deleteAllocationMethod] at hbi
      split at hbi
      · cases hbi
      · cases hbi
        obtain ⟨d, -, hd⟩ := List.mem_map.mp hb
        cases hd
  | _ => exact hon _ h

theorem steps_back (P : PipelineEnv) (l : List Step) {items : List Item} {Y : List Dataset} (h : foldE (fun d (s : Step) => s.run P d) items l = .ok (Y.map .ds)) :
    ∃ X : List Dataset, items = X.map .ds := by
  induction l generalizing items with
  | nil => cases h; exact ⟨Y, rfl⟩
  | cons s l ih =>
    obtain ⟨mid, h1, h2⟩ := bind_eq_ok.mp h
    obtain ⟨Z, rfl⟩ := ih h2
    exact step_back P s h1

/-- The function on lists that may contain strings. -/
def LocalI (c : Cut) (J : Option (String → Bool)) (f : List Item → Except Err (List Item)) : Prop :=
  ∀ X Y : List Dataset, Divided c J X → f (X.map .ds) = .ok (Y.map .ds) → Divided c J Y ∧ f ((c.part X).map .ds) = .ok ((c.part Y).map .ds)

theorem ds_inj {X Y : List Dataset} (h : X.map Item.ds = Y.map Item.ds) : X = Y := List.map_injective_iff.mpr (fun _ _ h => Item.ds.inj h) h

theorem localI_on {f : List Dataset → Except Err (List Dataset)} (h : Local c J f) : LocalI c J (onDatasets f) := by
  intro X Y hX hY
  obtain ⟨r, hr, he⟩ := onDatasets_map.mp hY
  cases ds_inj he
  obtain ⟨a1, a2⟩ := h X Y hX hr
  exact ⟨a1, onDatasets_map.mpr ⟨_, a2, rfl⟩⟩

/-- One allocation method on datasets. -/
def methodD (M : MathEnv) (F : FormulaEnv) (ord : Dataset → Except Err (List String)) (label : String) (d : Dataset) : Except Err (List Dataset) :=
  getKey d.allocationMethod >>= fun m =>
    if m = label then (if label = "constrained market" then .error .typeError else datasetMethod M F ord label d) else .ok [d]

theorem method_iff {M : MathEnv} {F : FormulaEnv} {ord : Dataset → Except Err (List String)} {label : String} {d : Dataset} {Y : List Dataset} :
    methodStep M F ord label (.ds d) = .ok (Y.map .ds) ↔ methodD M F ord label d = .ok Y := by
  simp only [methodStep, methodD]
  cases d.allocationMethod with
  | none => exact ⟨(fun h => by cases h), (fun h => by cases h)⟩
  | some m =>
    show ((if m = label then allocationMethod M F ord label d else .ok [.ds d]) = _) ↔ (if m = label then (if label = "constrained market" then Except.error Err.typeError else datasetMethod M F ord label d) else .ok [d]) = _
    by_cases hm : m = label
    · rw [if_pos hm, if_pos hm]
      unfold allocationMethod
      by_cases hl : label = "constrained market"
      · rw [if_pos hl, if_pos hl]
        refine ⟨fun h => ?_, fun h => by cases h⟩
        exfalso
        have h := Except.ok.inj h
        cases Y with
        | nil => revert h; decide
        | cons y Y => simp [dictKeys] at h
      · rw [if_neg hl, if_neg hl]
        constructor
        · intro h
          obtain ⟨l, hl, h⟩ := bind_eq_ok.mp h
          rw [hl, ds_inj (Except.ok.inj h)]
        · intro h
          rw [h]
          rfl
    · rw [if_neg hm, if_neg hm]
      constructor
      · intro h
        rw [show Y = [d] from ds_inj (Except.ok.inj h).symm]
      · intro h
        rw [← Except.ok.inj h]
        rfl

theorem methods_iff {M : MathEnv} {F : FormulaEnv} {ord : Dataset → Except Err (List String)} {label : String} {X Y : List Dataset} :
    flatMapE (methodStep M F ord label) (X.map .ds) = .ok (Y.map .ds) ↔ flatMapE (methodD M F ord label) X = .ok Y := by
  induction X generalizing Y with
  | nil => exact ⟨(fun h => by cases Y with | nil => rfl | cons y Y => cases h), (fun h => by cases h; rfl)⟩
  | cons d X ih =>
    rw [List.map_cons]
    unfold flatMapE
    constructor
    · intro h
      obtain ⟨b, hb, h⟩ := bind_eq_ok.mp h
      obtain ⟨r, hr, h⟩ := bind_eq_ok.mp h
      obtain ⟨Y1, Y2, rfl, h1, h2⟩ := List.map_eq_append_iff.mp (Except.ok.inj h).symm
      subst h1 h2
      exact bind_eq_ok.mpr ⟨Y1, method_iff.mp hb, bind_eq_ok.mpr ⟨Y2, ih.mp hr, rfl⟩⟩
    · intro h
      obtain ⟨b, hb, h⟩ := bind_eq_ok.mp h
      obtain ⟨r, hr, h⟩ := bind_eq_ok.mp h
      cases h
      exact bind_eq_ok.mpr ⟨_, method_iff.mpr hb, bind_eq_ok.mpr ⟨_, ih.mpr hr, by rw [List.map_append]; rfl⟩⟩

theorem localI_allocate (hc : c.Proper) (P : PipelineEnv) (label : String) : LocalI c J (Step.run P (.allocate label)) := by
  intro X Y hX h
  have hL : Local c J (flatMapE (methodD P.M P.F P.ord label)) := by
    refine local_flatMapE fun d r hr d' hd' => ?_
    unfold methodD at hr
    obtain ⟨m, -, hr⟩ := bind_eq_ok.mp hr
    split at hr
    · split at hr
      · cases hr
      · exact .method hc hr hd'
    · cases hr
      rw [List.mem_singleton.mp hd']
      exact .refl d
  obtain ⟨a1, a2⟩ := hL X Y hX (methods_iff.mp h)
  exact ⟨a1, methods_iff.mpr a2⟩

theorem localI_deleteMethod (P : PipelineEnv) : LocalI c J (Step.run P .deleteAllocationMethod) := by
  have hm : ∀ X : List Dataset, mapE deleteAllocationMethod (X.map .ds) = .ok ((X.map fun d => { d with allocationMethod := none }).map .ds) := by
    intro X
    induction X with
    | nil => rfl
    | cons d X ih =>
      rw [List.map_cons]
      unfold mapE
      rw [ih]
      rfl
  intro X Y hX h
  have h : mapE deleteAllocationMethod (X.map .ds) = .ok (Y.map .ds) := h
  rw [hm] at h
  have hY := ds_inj (Except.ok.inj h)
  have hL : Local c J (fun X => .ok (X.map fun d : Dataset => { d with allocationMethod := none })) := local_map fun d => .frame rfl rfl rfl rfl rfl rfl
  obtain ⟨a1, a2⟩ := hL X Y hX (congrArg Except.ok hY)
  refine ⟨a1, ?_⟩
  show mapE deleteAllocationMethod _ = _
  rw [hm, Except.ok.inj a2]

/-! ## The functions of the cut-off configurations -/

/-- The functions before `add_unique_codes` in all configurations. -/
theorem early_local (hc : c.Proper) (P : PipelineEnv) (s : Step) (hlate : s.late = false)
    (hcons : s ∉ [Step.deleteLinksToConstrained, .handleConstrainedMarkets, .ensureAlternativeProduction, .addUniqueCodes]) : LocalI c none (s.run P) := by
  cases s with
  | ensureIdsAreUnique => exact localI_on local_ids
  | copyOriginalExchangeId => exact localI_on local_copyId
  | variableNamesAreUnique => exact localI_on local_vars
  | ensureMarketsOneProduct => exact localI_on local_onePr
  | ensureMarketsNoOwnConsumption => exact localI_on local_own
  | fixSpecificIssues => exact localI_on local_specific
  | replaceImplicitReferences => exact localI_on (local_mapE fun _ _ h => .references h)
  | repairUncertainty => exact localI_on (local_mapE fun _ _ h => .mapNumE h)
  | fixKnownBadFormulas => exact localI_on local_known
  | lowercaseParameters => exact localI_on (local_mapE fun _ _ h => .mapNumE h)
  | fixMathFormulas => exact localI_on (local_mapE fun _ _ h => .mapNumE h)
  | replaceReservedWords => exact localI_on (local_mapE fun _ _ h => .mapNumE h)
  | deleteUnparsableFormulas => exact localI_on (local_mapE fun _ _ h => .mapNumE h)
  | ensureVolumesGiven => exact localI_on local_volumes
  | addPvToAllocatableByproducts => exact localI_on local_fill
  | createPvParameters => exact localI_on (local_pvParams _)
  | removeConsequentialExchanges => exact localI_on local_consequential
  | dropRpActivityLinks => exact localI_on local_dropRp
  | dropZeroAmountActivityLinks => exact localI_on local_dropZero
  | renameRecyclable => exact localI_on (local_renameRc hc)
  | createRecycledContentDatasets => exact localI_on local_createRc
  | labelAllocationMethod => exact localI_on local_label
  | allocate label => exact localI_allocate hc P label
  | deleteAllocationMethod => exact localI_deleteMethod P
  | updateParentChild => exact localI_on local_parent
  | fix35ActivityLinks => exact localI_on local_fix35
  | checkActivityLinkValidity => exact localI_on local_linkCheck
  | addHardLinkedVolumes => exact localI_on local_hard
  | updateTransformingVolumes => exact localI_on local_transforming
  | labelReferenceProduct => exact localI_on local_labelRp
  | deleteWhitelistedMarkets => exact localI_on local_whitelist
  | assignFakePv => exact localI_on local_fakePv
  | correctPipelineLocation => exact localI_on local_pipeline
  | relabelGlobalToRow => exact localI_on local_relabel
  | checkNoRowMarketGroups => exact localI_on local_rowGroups
  | splitCombinedProduction => exact localI_on (local_split P)
  | deleteLinksToConstrained => exact absurd (by decide) hcons
  | handleConstrainedMarkets => exact absurd (by decide) hcons
  | ensureAlternativeProduction => exact absurd (by decide) hcons
  | addUniqueCodes => exact absurd (by decide) hcons
  | _ => cases hlate

theorem cutoff_early (hc : c.Proper) (P : PipelineEnv) (s : Step) (hs : s ∈ cutoffBefore) : LocalI c none (s.run P) :=
  early_local hc P s ((by decide : ∀ s ∈ cutoffBefore, s.late = false) s hs)
    ((by decide : ∀ s ∈ cutoffBefore, s ∉ [Step.deleteLinksToConstrained, .handleConstrainedMarkets, .ensureAlternativeProduction, .addUniqueCodes]) s hs)

/-- The functions after `add_unique_codes`. -/
theorem late_local (hc : c.Proper) (P : PipelineEnv) (s : Step) (hs : s.late = true) (hp : s ≠ .pruneByTechnologyLevel) {j : String → Bool} {X Y : List Dataset} (hX : Divided c (some j) X)
    (hn : (X.map (·.code)).Nodup) (h : s.run P (X.map .ds) = .ok (Y.map .ds)) :
    Divided c (some j) Y ∧ (Y.map (·.code)).Nodup ∧ s.run P ((c.part X).map .ds) = .ok ((c.part Y).map .ds) := by
  have hnY : (Y.map (·.code)).Nodup := by
    obtain ⟨g, hg, hk⟩ := late_keeps P (· ≠ "RoW") s hs fun _ => rfl
    rw [hg] at h
    obtain ⟨r, hr, he⟩ := onDatasets_map.mp h
    cases ds_inj he
    have := ((hk X Y hr).1.map (·.1))
    rw [List.map_map, List.map_map] at this
    exact this.nodup hn
  have key : ∀ {f}, s.run P = onDatasets f → Local c (some j) f → Divided c (some j) Y ∧ (Y.map (·.code)).Nodup ∧ s.run P ((c.part X).map .ds) = .ok ((c.part Y).map .ds) := by
    intro f hf hL
    rw [hf] at h ⊢
    obtain ⟨a1, a2⟩ := localI_on hL X Y hX h
    exact ⟨a1, hnY, a2⟩
  cases s with
  | actualizeActivityLinks => exact key rfl local_actualize
  | addRecycledContentSuppliers => exact key rfl (local_addRecycled hc)
  | addSuppliers a b => exact key rfl (local_addSuppliers a b)
  | updateMarketVolumes k =>
    by_cases hk : k = .marketGroup
    · subst hk
      obtain ⟨r, hr, he⟩ := onDatasets_map.mp h
      cases ds_inj he
      obtain ⟨a1, a2⟩ := groups_part hX hn hr
      exact ⟨a1, hnY, onDatasets_map.mpr ⟨_, a2, rfl⟩⟩
    · exact key rfl (local_marketVolumes hk)
  | deleteGlobalZeroPv k => exact key rfl (local_zeroPv k)
  | allocateMarketSuppliers k => exact key rfl (local_allocate k)
  | linkMarketGroupSuppliers => exact key rfl local_linkGroups
  | linkRecycledContent => exact key rfl local_linkRecycled
  | linkConsumersToMarkets => exact key rfl (local_consumers hc)
  | addReferenceProductCodes => exact key rfl local_refCodes
  | logAndDeleteUnlinked => exact key rfl local_deleteUnlinked
  | deleteSuppliersList => exact key rfl local_deleteSuppliers
  | renameRecycledAfterLinking => exact key rfl (local_renameAfter hc)
  | flipNonAllocatableByproducts => exact key rfl local_flip
  | normalize => exact key rfl local_normalize
  | adjustMarketSigns => exact key rfl local_signs
  | pruneByTechnologyLevel => exact absurd rfl hp
  | _ => cases hs

/-! ## Whole runs -/

theorem runs_early (P : PipelineEnv) (l : List Step) (hl : ∀ s ∈ l, LocalI c J (s.run P)) {X Y : List Dataset} (hX : Divided c J X)
    (h : foldE (fun d (s : Step) => s.run P d) (X.map .ds) l = .ok (Y.map .ds)) :
    Divided c J Y ∧ foldE (fun d (s : Step) => s.run P d) ((c.part X).map .ds) l = .ok ((c.part Y).map .ds) := by
  induction l generalizing X with
  | nil => cases ds_inj (Except.ok.inj h); exact ⟨hX, rfl⟩
  | cons s l ih =>
    obtain ⟨mid, h1, h2⟩ := bind_eq_ok.mp h
    obtain ⟨Z, rfl⟩ := steps_back P l h2
    obtain ⟨a1, a2⟩ := hl s List.mem_cons_self X Z hX h1
    obtain ⟨b1, b2⟩ := ih (fun s hs => hl s (List.mem_cons_of_mem _ hs)) a1 h2
    exact ⟨b1, bind_eq_ok.mpr ⟨_, a2, b2⟩⟩

theorem runs_late (P : PipelineEnv) (l : List Step) {j : String → Bool} (hl : ∀ s ∈ l, ∀ X Y : List Dataset, Divided c (some j) X → (X.map (·.code)).Nodup → s.run P (X.map .ds) = .ok (Y.map .ds) →
      Divided c (some j) Y ∧ (Y.map (·.code)).Nodup ∧ s.run P ((c.part X).map .ds) = .ok ((c.part Y).map .ds)) {X Y : List Dataset} (hX : Divided c (some j) X) (hn : (X.map (·.code)).Nodup)
    (h : foldE (fun d (s : Step) => s.run P d) (X.map .ds) l = .ok (Y.map .ds)) :
    foldE (fun d (s : Step) => s.run P d) ((c.part X).map .ds) l = .ok ((c.part Y).map .ds) := by
  induction l generalizing X with
  | nil => cases ds_inj (Except.ok.inj h); rfl
  | cons s l ih =>
    obtain ⟨mid, h1, h2⟩ := bind_eq_ok.mp h
    obtain ⟨Z, rfl⟩ := steps_back P l h2
    obtain ⟨a1, a2, a3⟩ := hl s List.mem_cons_self X Z hX hn h1
    exact bind_eq_ok.mpr ⟨_, a3, ih (fun s hs => hl s (List.mem_cons_of_mem _ hs)) a1 a2 h2⟩

theorem divided_start {data : List Dataset} (hd : c.Divides data) (hn : ∀ d ∈ data, d.suppliers = none) : Divided c none data := by
  intro d hd'
  have h := hd d hd'
  exact ⟨h.name, h.id, fun e he => ⟨h.flows e he, h.links e he⟩, h.product, (fun l hl => by rw [hn d hd'] at hl; cases hl), (fun j hj => by cases hj)⟩

/-- A run that gives codes once, with functions that work on the parts separately before and after. -/
theorem run_part (P : PipelineEnv) (before after : List Step) (hb : ∀ s ∈ before, s.late = false) {data : List Dataset}
    (hbl : ∀ Z : List Dataset, foldE (fun d (s : Step) => s.run P d) (data.map .ds) before = .ok (Z.map .ds) →
      Divided c none Z ∧ foldE (fun d (s : Step) => s.run P d) ((c.part data).map .ds) before = .ok ((c.part Z).map .ds))
    (hal : ∀ s ∈ after, ∀ j, ∀ X Y : List Dataset, Divided c (some j) X → (X.map (·.code)).Nodup → s.run P (X.map .ds) = .ok (Y.map .ds) →
      Divided c (some j) Y ∧ (Y.map (·.code)).Nodup ∧ s.run P ((c.part X).map .ds) = .ok ((c.part Y).map .ds))
    (hn : ∀ d ∈ data, d.suppliers = none) {Y : List Dataset}
    (h : foldE (fun d (s : Step) => s.run P d) (data.map .ds) (before ++ .addUniqueCodes :: after) = .ok (Y.map .ds)) :
    foldE (fun d (s : Step) => s.run P d) ((c.part data).map .ds) (before ++ .addUniqueCodes :: after) = .ok ((c.part Y).map .ds) := by
  obtain ⟨m1, h1, h⟩ := foldE_split.mp h
  obtain ⟨m2, h2, h3⟩ := bind_eq_ok.mp h
  obtain ⟨Z2, rfl⟩ := steps_back P after h3
  obtain ⟨Z1, rfl⟩ := step_back P .addUniqueCodes h2
  obtain ⟨a1, a2⟩ := hbl Z1 h1
  have hnone : ∀ d ∈ Z1, d.suppliers = none := by
    intro d' hd'
    obtain ⟨d, hdm, hf⟩ := foldE_early P before hb _ _ h1 d' (List.mem_map.mpr ⟨d', hd', rfl⟩)
    obtain ⟨x, hx, hxe⟩ := List.mem_map.mp hdm
    cases hxe
    rcases hf.suppliers with h | h
    · exact h
    · rw [h]; exact hn d hx
  obtain ⟨r, hr, he⟩ := onDatasets_map.mp h2
  cases ds_inj he
  obtain ⟨j, b1, b2, b3⟩ := codes_part a1 hnone hr
  refine foldE_split.mpr ⟨_, a2, bind_eq_ok.mpr ⟨(c.part Z2).map .ds, onDatasets_map.mpr ⟨_, b3, rfl⟩, ?_⟩⟩
  exact runs_late P after (fun s hs => hal s hs j) b1 b2 h3

theorem ends_in_datasets (P : PipelineEnv) {l : List Step} {s : Step} {f : List Dataset → Except Err (List Dataset)} (hs : s.run P = onDatasets f) {items out : List Item}
    (h : foldE (fun d (s : Step) => s.run P d) items (l ++ [s]) = .ok out) : ∃ Y : List Dataset, out = Y.map .ds := by
  obtain ⟨m, -, h⟩ := foldE_split.mp h
  obtain ⟨o, ho, h⟩ := bind_eq_ok.mp h
  cases h
  have ho : s.run P m = .ok out := ho
  rw [hs] at ho
  obtain ⟨-, r, -, -, hr⟩ := onDatasets_ok ho
  exact ⟨r, hr⟩

theorem cutoff_part (hc : c.Proper) (P : PipelineEnv) {data Y : List Dataset} (hd : c.Divides data) (hn : ∀ d ∈ data, d.suppliers = none)
    (h : foldE (fun d (s : Step) => s.run P d) (data.map .ds) (cutoffBefore ++ .addUniqueCodes :: (cutoffLinking ++ cutoffEnd)) = .ok (Y.map .ds)) :
    foldE (fun d (s : Step) => s.run P d) ((c.part data).map .ds) (cutoffBefore ++ .addUniqueCodes :: (cutoffLinking ++ cutoffEnd)) = .ok ((c.part Y).map .ds) :=
  run_part P _ _ (by decide) (fun _ h => runs_early P _ (cutoff_early hc P) (divided_start hd hn) h) (fun s hs j X Y hX hn h => late_local hc P s ((by decide : ∀ s ∈ cutoffLinking ++ cutoffEnd, s.late = true) s hs) ((by decide : ∀ s ∈ cutoffLinking ++ cutoffEnd, s ≠ .pruneByTechnologyLevel) s hs) hX hn h) hn h

end Parts
end Ocelot
