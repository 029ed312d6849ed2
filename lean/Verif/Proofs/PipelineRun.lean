import Verif.Proofs.PipelineStart

/-! Running a list of functions one after the other, and what the functions before and after `add_unique_codes` do. -/

namespace Ocelot
open Spec

theorem callAll_fns {F D : Type} (run : F → D → Except Err D) (l : List F) (d : D) :
    callAll run (l.map .fn) d = foldE (fun d f => run f d) d l := by
  induction l generalizing d with
  | nil => simp [callAll, foldE]
  | cons f l ih =>
    simp only [List.map_cons, callAll, FnItem.call, foldE]
    cases run f d with
    | error e => rfl
    | ok d' => simpa using ih d'

theorem runConfig_eq (P : PipelineEnv) (config : List (FnItem Step)) (data : List Dataset) :
    runConfig P config data = foldE (fun d s => s.run P d) (data.map .ds) (unwrapAll config) := by
  unfold runConfig Coll.call Coll.new
  exact callAll_fns _ _ _

theorem asDatasets_ok {items : List Item} {l : List Dataset} : asDatasets items = .ok l ↔ items = l.map .ds := by
  induction items generalizing l with
  | nil => simp only [asDatasets, Except.ok.injEq]; exact ⟨fun h => h ▸ rfl, fun h => by cases l <;> simp_all⟩
  | cons a items ih =>
    cases a with
    | ds d =>
      simp only [asDatasets, bind_eq_ok]
      constructor
      · rintro ⟨r, hr, h⟩
        cases h
        rw [ih.mp hr]; rfl
      · intro h
        cases l with
        | nil => cases h
        | cons x l =>
          simp only [List.map_cons, List.cons.injEq, Item.ds.injEq] at h
          obtain ⟨rfl, h⟩ := h
          exact ⟨l, ih.mpr h, rfl⟩
    | str s =>
      simp only [asDatasets]
      constructor
      · intro h; cases h
      · intro h; cases l <;> cases h

theorem onDatasets_ok {f : List Dataset → Except Err (List Dataset)} {items out : List Item} (h : onDatasets f items = .ok out) :
    ∃ l r, items = l.map .ds ∧ f l = .ok r ∧ out = r.map .ds := by
  unfold onDatasets at h
  obtain ⟨l, hl, h⟩ := bind_eq_ok.mp h
  obtain ⟨r, hr, h⟩ := bind_eq_ok.mp h
  cases h
  exact ⟨l, r, asDatasets_ok.mp hl, hr, rfl⟩

theorem onDatasets_map {f : List Dataset → Except Err (List Dataset)} {l : List Dataset} {out : List Item} :
    onDatasets f (l.map .ds) = .ok out ↔ ∃ r, f l = .ok r ∧ out = r.map .ds := by
  unfold onDatasets
  rw [asDatasets_ok.mpr rfl]
  simp only [ebind_ok, bind_eq_ok]
  constructor
  · rintro ⟨r, hr, h⟩; cases h; exact ⟨r, hr, rfl⟩
  · rintro ⟨r, hr, rfl⟩; exact ⟨r, hr, rfl⟩

/-- All datasets that the function returns come from its input. -/
def DescendsI (f : List Item → Except Err (List Item)) : Prop :=
  ∀ items out, f items = .ok out → ∀ d', Item.ds d' ∈ out → ∃ d, Item.ds d ∈ items ∧ From d d'

theorem descendsI_on {f : List Dataset → Except Err (List Dataset)} (h : Descends f) : DescendsI (onDatasets f) := by
  intro items out ho d' hd'
  obtain ⟨l, r, rfl, hr, rfl⟩ := onDatasets_ok ho
  obtain ⟨x, hx, hxe⟩ := List.mem_map.mp hd'
  cases hxe
  obtain ⟨d, hd, hf⟩ := h l r hr d' hx
  exact ⟨d, List.mem_map.mpr ⟨d, hd, rfl⟩, hf⟩

theorem descendsI_allocate (P : PipelineEnv) (label : String) : DescendsI (Step.run P (.allocate label)) := by
  intro items out ho d' hd'
  obtain ⟨a, ha, r, hr, hm⟩ := flatMapE_mem ho hd'
  cases a with
  | str s => cases hr
  | ds d =>
    refine ⟨d, ha, ?_⟩
    unfold methodStep at hr
    obtain ⟨m, -, hr⟩ := bind_eq_ok.mp hr
    split at hr
    · unfold allocationMethod at hr
      split at hr
      · cases hr
        obtain ⟨x, -, hx⟩ := List.mem_map.mp hm
        cases hx
      · obtain ⟨l, hl, hr⟩ := bind_eq_ok.mp hr
        cases hr
        obtain ⟨x, hx, hxe⟩ := List.mem_map.mp hm
        cases hxe
        exact From.method hl hx
    · cases hr
      simp only [List.mem_singleton, Item.ds.injEq] at hm
      exact hm ▸ .refl _

theorem descendsI_deleteMethod (P : PipelineEnv) : DescendsI (Step.run P .deleteAllocationMethod) := by
  intro items out ho d' hd'
  obtain ⟨a, ha, h⟩ := mapE_mem ho hd'
  cases a with
  | str s =>
    simp only [deleteAllocationMethod] at h
    split at h <;> cases h
  | ds d =>
    cases h
    exact ⟨d, ha, rfl, rfl, Or.inr rfl, fun e he => Or.inr ⟨e, he, rfl⟩⟩

/-- The functions that come after `add_unique_codes`. -/
def Step.late : Step → Bool
  | .actualizeActivityLinks | .addRecycledContentSuppliers | .addSuppliers _ _ | .updateMarketVolumes _ | .deleteGlobalZeroPv _
  | .allocateMarketSuppliers _ | .linkMarketGroupSuppliers | .linkRecycledContent | .linkConsumersToMarkets | .addReferenceProductCodes
  | .logAndDeleteUnlinked | .deleteSuppliersList | .renameRecycledAfterLinking | .flipNonAllocatableByproducts | .normalize
  | .adjustMarketSigns | .pruneByTechnologyLevel => true
  | _ => false

theorem early_descends (P : PipelineEnv) (s : Step) (hs : s.late = false) : DescendsI (s.run P) := by
  cases s with
  | ensureIdsAreUnique => exact descendsI_on descends_ids
  | copyOriginalExchangeId => exact descendsI_on descends_copyId
  | variableNamesAreUnique => exact descendsI_on descends_vars
  | ensureMarketsOneProduct => exact descendsI_on descends_onePr
  | ensureMarketsNoOwnConsumption => exact descendsI_on descends_own
  | fixSpecificIssues => exact descendsI_on descends_specific
  | replaceImplicitReferences => exact descendsI_on (descends_mapE fun _ _ h => .references h)
  | repairUncertainty => exact descendsI_on (descends_mapE fun _ _ h => .mapNumE h)
  | fixKnownBadFormulas => exact descendsI_on descends_known
  | lowercaseParameters => exact descendsI_on (descends_mapE fun _ _ h => .mapNumE h)
  | fixMathFormulas => exact descendsI_on (descends_mapE fun _ _ h => .mapNumE h)
  | replaceReservedWords => exact descendsI_on (descends_mapE fun _ _ h => .mapNumE h)
  | deleteUnparsableFormulas => exact descendsI_on (descends_mapE fun _ _ h => .mapNumE h)
  | ensureVolumesGiven => exact descendsI_on descends_volumes
  | addPvToAllocatableByproducts => exact descendsI_on descends_fill
  | createPvParameters => exact descendsI_on (descends_pvParams _)
  | removeConsequentialExchanges => exact descendsI_on descends_consequential
  | dropRpActivityLinks => exact descendsI_on descends_dropRp
  | dropZeroAmountActivityLinks => exact descendsI_on descends_dropZero
  | renameRecyclable => exact descendsI_on descends_renameRc
  | createRecycledContentDatasets => exact descendsI_on descends_createRc
  | labelAllocationMethod => exact descendsI_on descends_label
  | allocate label => exact descendsI_allocate P label
  | deleteAllocationMethod => exact descendsI_deleteMethod P
  | updateParentChild => exact descendsI_on descends_parent
  | fix35ActivityLinks => exact descendsI_on descends_fix35
  | checkActivityLinkValidity => exact descendsI_on descends_linkCheck
  | addHardLinkedVolumes => exact descendsI_on descends_hard
  | updateTransformingVolumes => exact descendsI_on descends_transforming
  | labelReferenceProduct => exact descendsI_on descends_labelRp
  | deleteWhitelistedMarkets => exact descendsI_on descends_whitelist
  | assignFakePv => exact descendsI_on descends_fakePv
  | correctPipelineLocation => exact descendsI_on descends_pipeline
  | relabelGlobalToRow => exact descendsI_on descends_relabel
  | checkNoRowMarketGroups => exact descendsI_on descends_rowGroups
  | addUniqueCodes => exact descendsI_on (descends_codes _ _)
  | splitCombinedProduction => exact descendsI_on (descends_split P)
  | deleteLinksToConstrained => exact descendsI_on descends_deleteLinks
  | handleConstrainedMarkets => exact descendsI_on descends_constrained
  | ensureAlternativeProduction => exact descendsI_on descends_alternative
  | _ => cases hs

/-- The functions that delete datasets. -/
def Step.deletes : Step → Bool
  | .deleteGlobalZeroPv _ => true
  | _ => false

theorem late_keeps (P : PipelineEnv) (q : String → Prop) (s : Step) (hs : s.late = true) (hq : s.deletes = true → q = (· ≠ "RoW")) :
    ∃ g, s.run P = onDatasets g ∧ KeepsCodes q g := by
  cases s with
  | actualizeActivityLinks => exact ⟨_, rfl, keeps_actualize⟩
  | addRecycledContentSuppliers => exact ⟨_, rfl, keeps_addRecycled _ _⟩
  | addSuppliers a b => exact ⟨_, rfl, keeps_addSuppliers _ _ a b⟩
  | updateMarketVolumes k => exact ⟨_, rfl, keeps_updateVolumes _ k⟩
  | deleteGlobalZeroPv k => rw [hq rfl]; exact ⟨_, rfl, keeps_deleteGlobal k⟩
  | allocateMarketSuppliers k => exact ⟨_, rfl, keeps_allocateAll k⟩
  | linkMarketGroupSuppliers => exact ⟨_, rfl, keeps_linkGroups _⟩
  | linkRecycledContent => exact ⟨_, rfl, keeps_linkRecycled⟩
  | linkConsumersToMarkets => exact ⟨_, rfl, keeps_linkConsumers _ _⟩
  | addReferenceProductCodes => exact ⟨_, rfl, keeps_refCodes⟩
  | logAndDeleteUnlinked => exact ⟨_, rfl, keeps_logAndDelete⟩
  | deleteSuppliersList => exact ⟨_, rfl, keeps_deleteSuppliers⟩
  | renameRecycledAfterLinking => exact ⟨_, rfl, keeps_rename⟩
  | flipNonAllocatableByproducts => exact ⟨_, rfl, keeps_flip⟩
  | normalize => exact ⟨_, rfl, keeps_normalize _⟩
  | adjustMarketSigns => exact ⟨_, rfl, keeps_signs _⟩
  | pruneByTechnologyLevel => exact ⟨_, rfl, keeps_prune⟩
  | _ => cases hs

theorem foldE_early (P : PipelineEnv) (l : List Step) (hl : ∀ s ∈ l, s.late = false) : DescendsI (fun d => foldE (fun d (s : Step) => s.run P d) d l) := by
  induction l with
  | nil => intro items out h; cases h; exact fun d hd => ⟨d, hd, .refl d⟩
  | cons s l ih =>
    intro items out h d' hd'
    simp only [foldE] at h
    obtain ⟨mid, h1, h2⟩ := bind_eq_ok.mp h
    obtain ⟨x, hx, hfx⟩ := ih (fun s hs => hl s (by simp [hs])) mid out h2 d' hd'
    obtain ⟨y, hy, hfy⟩ := early_descends P s (hl s (by simp)) items mid h1 x hx
    exact ⟨y, hy, hfy.trans hfx⟩

theorem foldE_late (P : PipelineEnv) (q : String → Prop) (l : List Step) (hl : ∀ s ∈ l, s.late = true)
    (hq : ∀ s ∈ l, s.deletes = true → q = (· ≠ "RoW")) (data : List Dataset) (out : List Item)
    (h : foldE (fun d (s : Step) => s.run P d) (data.map .ds) l = .ok out) :
    ∃ r, out = r.map .ds ∧ (r.map codeKey).Sublist (data.map codeKey) ∧ (∀ p ∈ data.map codeKey, q p.2.1 → p ∈ r.map codeKey) ∧
      ∀ K, CleanAll K data → CleanAll K r := by
  induction l generalizing data with
  | nil => cases h; exact ⟨data, rfl, List.Sublist.refl _, fun p hp _ => hp, fun K h => h⟩
  | cons s l ih =>
    simp only [foldE] at h
    obtain ⟨mid, h1, h2⟩ := bind_eq_ok.mp h
    obtain ⟨g, hg, hk⟩ := late_keeps P q s (hl s (by simp)) (hq s (by simp))
    rw [hg] at h1
    obtain ⟨m, hm, rfl⟩ := onDatasets_map.mp h1
    obtain ⟨a1, a2, a3⟩ := hk _ _ hm
    obtain ⟨r, hr, b1, b2, b3⟩ := ih (fun s hs => hl s (by simp [hs])) (fun s hs => hq s (by simp [hs])) m h2
    exact ⟨r, hr, b1.trans a1, fun p hp hr => b2 p (a2 p hp hr) hr, fun K hK => b3 K (a3 K hK)⟩

theorem foldE_split {F D : Type} {run : D → F → Except Err D} {l₁ l₂ : List F} {d out : D} :
    foldE run d (l₁ ++ l₂) = .ok out ↔ ∃ mid, foldE run d l₁ = .ok mid ∧ foldE run mid l₂ = .ok out := by
  induction l₁ generalizing d with
  | nil => simp [foldE]
  | cons a l ih =>
    simp only [List.cons_append, foldE]
    cases run d a with
    | error e => simp
    | ok m => simpa using ih

/-- What happens to codes and links in a run: `start` are the datasets after `add_unique_codes`. -/
def CodesOf (P : PipelineEnv) (q : String → Prop) (pre : List Step) (data : List Dataset) (out : List Item) : Prop :=
  ∃ start result : List Dataset, foldE (fun d (s : Step) => s.run P d) (data.map .ds) (pre ++ [.addUniqueCodes]) = .ok (start.map .ds) ∧
    out = result.map .ds ∧
    (∀ d ∈ start, ∃ c, d.code = some c) ∧ (start.map (·.code)).Nodup ∧ (∀ d' ∈ start, ∃ d ∈ data, From d d') ∧
    (result.map codeKey).Sublist (start.map codeKey) ∧ (∀ p ∈ start.map codeKey, q p.2.1 → p ∈ result.map codeKey) ∧
    ∀ K, CleanAll K start → CleanAll K result

theorem run_codes (P : PipelineEnv) (q : String → Prop) (pre post : List Step) (hpre : ∀ s ∈ pre, s.late = false)
    (hpost : ∀ s ∈ post, s.late = true) (hq : ∀ s ∈ post, s.deletes = true → q = (· ≠ "RoW"))
    (data : List Dataset) (out : List Item)
    (h : foldE (fun d (s : Step) => s.run P d) (data.map .ds) (pre ++ .addUniqueCodes :: post) = .ok out) : CodesOf P q pre data out := by
  obtain ⟨mid, h1, h2⟩ := foldE_split.mp h
  simp only [foldE] at h2
  obtain ⟨coded, h3, h4⟩ := bind_eq_ok.mp h2
  obtain ⟨l, start, rfl, hs, rfl⟩ := onDatasets_ok h3
  obtain ⟨result, hr, b1, b2, b3⟩ := foldE_late P q post hpost hq start out h4
  obtain ⟨hc, hn⟩ := C49_unique P.lower P.md5 l start hs
  refine ⟨start, result, ?_, hr, ?_, hn, ?_, b1, b2, b3⟩
  · exact foldE_split.mpr ⟨_, h1, by rw [foldE, h3]; rfl⟩
  · intro d hd
    rw [hc] at hd
    obtain ⟨x, -, rfl⟩ := List.mem_map.mp hd
    exact ⟨_, rfl⟩
  · intro d' hd'
    obtain ⟨x, hx, hfx⟩ := descends_codes _ _ l start hs d' hd'
    obtain ⟨y, hy, hfy⟩ := foldE_early P pre hpre _ _ h1 x (List.mem_map.mpr ⟨x, hx, rfl⟩)
    obtain ⟨z, hz, hze⟩ := List.mem_map.mp hy
    cases hze
    exact ⟨y, hz, hfy.trans hfx⟩

/-! ## The end of the cut-off model -/

/-- The function treats every dataset by itself; every new exchange comes from one with the same code, reference products come
from reference products, and waste and recyclable byproducts from such byproducts. -/
def Tail (g : Dataset → Except Err Dataset) : Prop :=
  ∀ d d', g d = .ok d' → d'.code = d.code ∧ ∀ e' ∈ d'.exchanges, ∃ e ∈ d.exchanges, e'.code = e.code ∧
    (e'.type = .referenceProduct → e.type = .referenceProduct) ∧ (NonAllocByproduct e' → NonAllocByproduct e)

/-- Reference products carry the code of their dataset. -/
def RefCode (d : Dataset) : Prop := ∀ e ∈ d.exchanges, e.type = .referenceProduct → e.code = d.code

theorem Tail.refCode {g : Dataset → Except Err Dataset} (hg : Tail g) {d d' : Dataset} (h : g d = .ok d') (hd : RefCode d) : RefCode d' := by
  obtain ⟨hc, he⟩ := hg d d' h
  intro e' he' ht
  obtain ⟨e, hem, h1, h2, -⟩ := he e' he'
  rw [h1, hc]
  exact hd e hem (h2 ht)

theorem Tail.wastes {g : Dataset → Except Err Dataset} (hg : Tail g) {d d' : Dataset} (h : g d = .ok d')
    (hd : ∀ e ∈ d.exchanges, ¬ NonAllocByproduct e) : ∀ e ∈ d'.exchanges, ¬ NonAllocByproduct e := by
  intro e' he' hn
  obtain ⟨e, hem, -, -, h3⟩ := (hg d d' h).2 e' he'
  exact hd e hem (h3 hn)

theorem Spec.ScaledBy.cls' {f : ℚ} {e e' : Exchange} (h : ScaledBy f e e') : e'.cls = e.cls := by rw [h]

theorem tail_scaled {f : ℚ} {e e' : Exchange} (h : ScaledBy f e e') : e'.code = e.code ∧
    (e'.type = .referenceProduct → e.type = .referenceProduct) ∧ (NonAllocByproduct e' → NonAllocByproduct e) := by
  refine ⟨h.code, fun ht => h.type ▸ ht, fun hn => ?_⟩
  unfold NonAllocByproduct at hn ⊢
  rwa [h.type, h.cls'] at hn

theorem tail_normalize (M : MathEnv) : Tail (normalize M) := by
  intro d d' h
  obtain ⟨rp, n, -, -, -, hd, hs, -⟩ := C10_normalize_result M d d' h
  refine ⟨by rw [hd], ?_⟩
  intro e' he
  obtain ⟨e, hem, hae⟩ := forall₂_mem_right hs he
  exact ⟨e, hem, tail_scaled hae⟩

theorem tail_signs (M : MathEnv) : Tail (adjustMarketSigns M) := by
  intro d d' h
  obtain ⟨-, -, hd, hs⟩ := C22_market_signs M d d' h
  refine ⟨by rw [hd], ?_⟩
  intro e' he
  obtain ⟨e, hem, hae⟩ := forall₂_mem_right hs he
  rcases hae with hae | hae <;> exact ⟨e, hem, tail_scaled hae⟩

theorem flip_refCode {data out : List Dataset} (h : List.Forall₂ (fun ds ds' =>
      ds' = { ds with exchanges := ds'.exchanges } ∧
      List.Forall₂ (fun e e' => e'.name = e.name ∧ e'.id = e.id ∧
        (NonAllocByproduct e → e'.type = .fromTechnosphere ∧ e'.amount = -e.amount) ∧
        (¬ NonAllocByproduct e → e' = e)) ds.exchanges ds'.exchanges ∧
      (∀ e ∈ ds'.exchanges, ¬ NonAllocByproduct e) ∧
      ∀ name, netOutput ds' name = netOutput ds name) data out) (hd : ∀ d ∈ data, RefCode d) : ∀ d' ∈ out, RefCode d' := by
  intro d' hd'
  obtain ⟨d, hdm, h1, h2, -⟩ := forall₂_mem_right h hd'
  intro e' he' ht
  obtain ⟨e, hem, -, -, h3, h4⟩ := forall₂_mem_right h2 he'
  by_cases hn : NonAllocByproduct e
  · rw [(h3 hn).1] at ht; cases ht
  · rw [h4 hn] at ht ⊢
    rw [h1]
    exact hd d hdm e hem ht

/-- What the functions from `add_reference_product_codes` on do together. -/
theorem tail_cutoff (P : PipelineEnv) (data : List Dataset) (out : List Item)
    (h : foldE (fun d (s : Step) => s.run P d) (data.map .ds)
      [.addReferenceProductCodes, .logAndDeleteUnlinked, .renameRecycledAfterLinking, .flipNonAllocatableByproducts, .normalize, .adjustMarketSigns] = .ok out) :
    ∃ r : List Dataset, out = r.map .ds ∧ (∀ d ∈ r, RefCode d) ∧ (∀ d ∈ r, ∀ e ∈ d.exchanges, ¬ NonAllocByproduct e) ∧
      (∀ d ∈ r, ∃ rp, refs d = [rp] ∧ (|rp.amount| = 1 ∨ |1 / |rp.amount| - 1| ≤ 1 / 10 ^ 14)) ∧
      ∀ d ∈ r, d.type = .market → ∃ rp, refs d = [rp] ∧ (rp.cls ≠ some .waste → 0 ≤ rp.amount) := by
  simp only [foldE] at h
  obtain ⟨i1, h1, h⟩ := bind_eq_ok.mp h
  obtain ⟨d1, hd1, rfl⟩ := onDatasets_map.mp h1
  obtain ⟨i2, h2, h⟩ := bind_eq_ok.mp h
  obtain ⟨d2, hd2, rfl⟩ := onDatasets_map.mp h2
  obtain ⟨i3, h3, h⟩ := bind_eq_ok.mp h
  obtain ⟨d3, hd3, rfl⟩ := onDatasets_map.mp h3
  obtain ⟨i4, h4, h⟩ := bind_eq_ok.mp h
  obtain ⟨d4, hd4, rfl⟩ := onDatasets_map.mp h4
  obtain ⟨i5, h5, h⟩ := bind_eq_ok.mp h
  obtain ⟨d5, hd5, rfl⟩ := onDatasets_map.mp h5
  obtain ⟨i6, h6, h⟩ := bind_eq_ok.mp h
  obtain ⟨d6, hd6, rfl⟩ := onDatasets_map.mp h6
  cases h
  rw [wrapNormalize_eq] at hd5
  have r1 : ∀ d ∈ d1, RefCode d := by
    intro d' hd'
    obtain ⟨d, hd, hdd⟩ := mapE_mem hd1 hd'
    unfold addReferenceProductCode at hdd
    split at hdd
    · cases hdd
    · next c hc =>
      obtain ⟨_, -, hdd⟩ := bind_eq_ok.mp hdd
      cases hdd
      intro e he ht
      obtain ⟨a, ha, rfl⟩ := List.mem_map.mp he
      split at ht
      · rw [if_pos (by assumption)]; exact hc.symm
      · contradiction
  have r2 : ∀ d ∈ d2, RefCode d := by
    cases hd2
    intro d' hd'
    obtain ⟨d, hd, rfl⟩ := List.mem_map.mp hd'
    intro e he ht
    exact r1 d hd e (List.mem_filter.mp he).1 ht
  have r3 : ∀ d ∈ d3, RefCode d := by
    cases hd3
    intro d' hd'
    obtain ⟨d, hd, rfl⟩ := List.mem_map.mp hd'
    intro e he ht
    simp only [List.mem_map] at he
    obtain ⟨a, ha, rfl⟩ := he
    exact r2 d hd a ha ht
  have hf := C21_flip d3 d4 hd4
  have r4 : ∀ d ∈ d4, RefCode d := flip_refCode hf r3
  have w4 : ∀ d ∈ d4, ∀ e ∈ d.exchanges, ¬ NonAllocByproduct e := by
    intro d' hd'
    obtain ⟨d, hdm, -, -, hw, -⟩ := forall₂_mem_right hf hd'
    exact hw
  have r5 : ∀ d ∈ d5, RefCode d := fun d' hd' => by
    obtain ⟨d, hd, hdd⟩ := mapE_mem hd5 hd'
    exact (tail_normalize P.M).refCode hdd (r4 d hd)
  have w5 : ∀ d ∈ d5, ∀ e ∈ d.exchanges, ¬ NonAllocByproduct e := fun d' hd' => by
    obtain ⟨d, hd, hdd⟩ := mapE_mem hd5 hd'
    exact (tail_normalize P.M).wastes hdd (w4 d hd)
  have n5 : ∀ d ∈ d5, ∃ rp, refs d = [rp] ∧ (|rp.amount| = 1 ∨ |1 / |rp.amount| - 1| ≤ 1 / 10 ^ 14) := fun d' hd' => by
    obtain ⟨d, hd, hdd⟩ := mapE_mem hd5 hd'
    obtain ⟨rp, n, hr, -, -, -, -, rp', hr', -, hh⟩ := C10_normalize_result P.M d d' hdd
    refine ⟨rp', hr', ?_⟩
    rcases hh with hh | ⟨rfl, hh⟩
    · exact Or.inl hh
    · rw [hr] at hr'
      cases hr'
      exact Or.inr hh
  refine ⟨d6, rfl, ?_, ?_, ?_, (C22_market_signs_all P.M d5 d6 hd6).2⟩
  · intro d' hd'
    obtain ⟨d, hd, hdd⟩ := mapE_mem hd6 hd'
    exact (tail_signs P.M).refCode hdd (r5 d hd)
  · intro d' hd'
    obtain ⟨d, hd, hdd⟩ := mapE_mem hd6 hd'
    exact (tail_signs P.M).wastes hdd (w5 d hd)
  · intro d' hd'
    obtain ⟨d, hd, hdd⟩ := mapE_mem hd6 hd'
    obtain ⟨rp0, hr0, hn0⟩ := n5 d hd
    obtain ⟨hno, hm, -⟩ := C22_market_signs P.M d d' hdd
    by_cases ht : d.type = .market
    · obtain ⟨rp, rp', hr, hr', -, -, -, habs⟩ := hm ht
      rw [hr0] at hr
      cases hr
      exact ⟨rp', hr', by rwa [habs]⟩
    · rw [hno ht]
      exact ⟨rp0, hr0, hn0⟩

end Ocelot
