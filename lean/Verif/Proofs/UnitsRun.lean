import Verif.Proofs.UnitsLinking
import Verif.Props.Pipeline

/-! Running a system model respects a change of units. -/

namespace Ocelot
namespace Units
open Spec

variable {u : Spec.Units} {nr : Bool} {K K' : DsType → Prop}

/-! ## The last functions -/

theorem find_rel' {α β : Type} {R : α → β → Prop} {p : α → Bool} {q : β → Bool} (h : ∀ a b, R a b → p a = q b) {l : List α} {l' : List β}
    (hl : List.Forall₂ R l l') : Option.Rel R (l.find? p) (l'.find? q) := by
  induction hl with
  | nil => exact .none
  | @cons a b _ _ hab _ ih =>
    rw [List.find?_cons, List.find?_cons, h a b hab]
    cases q b with
    | true => exact .some hab
    | false => exact ih

theorem purged_rel (hu : u.Proper) {l l' : List Dataset} (hl : List.Forall₂ (RD u nr K) l l') : Option.Rel (RD u nr K) (purgedOf l) (purgedOf l') := by
  unfold purgedOf
  rw [hl.length_eq]
  split
  · exact .none
  · have := find_rel' (p := fun ds : Dataset => ds.location == "RoW") (q := fun ds : Dataset => ds.location == "RoW") (fun d d' hd => by rw [RD.location hd]) hl
    revert this
    generalize l.find? (fun ds => ds.location == "RoW") = o
    generalize l'.find? (fun ds => ds.location == "RoW") = o'
    intro h
    cases h with
    | none => exact .none
    | @some d d' hd =>
      simp only
      have hz : (originalProductionVolume d').getD 0 = 0 ↔ (originalProductionVolume d).getD 0 = 0 := by
        rw [originalVolume_rel hd, getD_volume, mul_eq_zero, or_iff_right hu.volume.ne']
      by_cases h0 : (originalProductionVolume d).getD 0 = 0
      · rw [if_pos h0, if_pos (hz.mpr h0)]; exact .some hd
      · rw [if_neg h0, if_neg (fun h => h0 (hz.mp h))]; exact .none

theorem contains_rel (hu : u.Proper) {l l' : List Dataset} (hl : List.Forall₂ (RD u nr All) l l') {d d' : Dataset} (hd : RD u nr All d d') :
    l.contains d = l'.contains d' := by
  rw [Bool.eq_iff_iff, List.contains_iff_mem, List.contains_iff_mem]
  induction hl with
  | nil => simp
  | cons hab _ ih => rw [List.mem_cons, List.mem_cons, ih, RD.eq_iff hu hd hab trivial trivial]

theorem resp_globalZero (hu : u.Proper) (kind : DsType) : Resp u nr All (deleteGlobalZeroPv kind) := by
  intro l l' hl
  unfold deleteGlobalZeroPv
  refine (keys_rel (fun d d' hd => by rw [hd.type]) hl).bind fun k k' hk => ?_
  have hp : List.Forall₂ (RD u nr All) (((groupBy (·.1) k).map fun g => g.2.map (·.2)).filterMap purgedOf) (((groupBy (·.1) k').map fun g => g.2.map (·.2)).filterMap purgedOf) :=
    filterMap_rel (fun g g' hg => purged_rel hu hg) (map_rel (Q := List.Forall₂ (RD u nr All)) (fun g g' hg => map_rel (fun _ _ h => h.2) hg.2) (groupBy_rel (fun _ _ h => h.1) hk))
  exact ER.ok (forall₂_imp (fun _ _ h => h.1) (filter_rel (fun d d' hd => by rw [contains_rel hu hp hd]) hl))

theorem resp_renameAfter : Resp u nr K (fun l => .ok (renameRecycledContentAfterLinking l)) :=
  resp_map fun d d' hd => by
    obtain ⟨ex', s', rfl, hex, hn, hs⟩ := hd
    refine ⟨_, s', rfl, map_rel (fun e e' he => ?_) hex, hn, hs⟩
    exact ⟨⟨⟨he.1.1.flow, he.1.1.pv, he.1.1.price⟩, he.1.2⟩, by rw [he.2]; rfl⟩

theorem flip_rel {e e' : Exchange} (he : RE u nr e e') : ER (RE u nr) (flipExchange e) (flipExchange e') := by
  unfold flipExchange
  refine ER.ite (by rw [he.type]) (fun ht => ?_) fun _ => he
  have hf : u.flow e.id = 1 := he.flow (by rw [ht]; decide) (by rw [ht]; decide)
  have hnew : RE u nr { e with cls := none, type := .fromTechnosphere, amount := -1 * e.amount, formula := e.formula.map fun f => "-1 * (" ++ f ++ ")" }
      { e' with cls := none, type := .fromTechnosphere, amount := -1 * e'.amount, formula := e'.formula.map fun f => "-1 * (" ++ f ++ ")" } := by
    refine ⟨⟨⟨fun h => absurd hf h, he.1.1.pv, he.1.1.price⟩, fun _ h => by cases h.1⟩, ?_⟩
    rw [he.2]
    simp only [Spec.Units.exc, hf, one_mul]
  have hc := he.cls
  generalize e.cls = c at hc
  subst hc
  generalize e'.cls = c
  cases c with
  | none => exact rfl
  | some c =>
    cases c with
    | allocatable => exact he
    | waste => exact hnew
    | recyclable => exact hnew

theorem resp_flip : Resp u nr K flipNonAllocatableByproducts :=
  resp_mapE fun _ _ hd => (ER.mapE hd.exs fun _ _ he => flip_rel he).bind fun _ _ h => hd.setEx h

theorem signs_rel (hu : u.Proper) (M : MathEnv) {d d' : Dataset} (hd : RD u nr K d d') : ER (RD u nr K) (adjustMarketSigns M d) (adjustMarketSigns M d') := by
  unfold adjustMarketSigns
  refine ER.ite (by rw [hd.type]) (fun _ => ?_) fun _ => hd
  refine (single_rel hd).bind fun e e' he => ?_
  rw [he.1.cls]
  refine (ER.refl _).bind ?_
  rintro c _ rfl
  refine ER.ite ?_ (fun _ => ?_) fun _ => ER.ite ?_ (fun _ => ?_) fun _ => hd
  · rw [all_rel (fun x x' hx => decide_eq_decide.mpr (hx.nonpos hu)) hd.exs]
  · exact (scaleAll_rel hd.exs _).bind fun _ _ h => hd.setEx h
  · rw [he.1.neg hu]
  · refine (ER.mapE (Q := RE u nr) hd.exs fun x x' hx => ?_).bind fun _ _ h => hd.setEx h
    exact ER.ite (by rw [hx.name, he.1.name]) (fun _ => hx.scale _) fun _ => hx

theorem resp_signs (hu : u.Proper) (M : MathEnv) : Resp u nr K (adjustMarketSignsAll M) := resp_mapE fun _ _ hd => signs_rel hu M hd

theorem resp_normalize (M : MathEnv) : Resp u nr K (wrapAll (normalizeList M)) := by
  intro l l' hl
  refine ER.flatMapE hl fun d d' hd => ?_
  exact (normalize_rel M hd).bind fun _ _ h => ER.ok (.cons h .nil)

/-! ## Lists of results -/

/-- The second list is the first one in other units. -/
abbrev RIs (u : Spec.Units) (nr : Bool) (K : DsType → Prop) : List Item → List Item → Prop := List.Forall₂ (RI u nr K)

theorem asDatasets_rel {l l' : List Item} (hl : RIs u nr K l l') : ER (List.Forall₂ (RD u nr K)) (asDatasets l) (asDatasets l') := by
  induction hl with
  | nil => exact List.Forall₂.nil
  | cons h _ ih =>
    cases h with
    | ds h => exact ih.bind fun _ _ hr => List.Forall₂.cons h hr
    | str s => exact rfl

theorem ds_rel {l l' : List Dataset} (hl : List.Forall₂ (RD u nr K) l l') : RIs u nr K (l.map .ds) (l'.map .ds) := map_rel (fun _ _ h => .ds h) hl

theorem lift {f : List Dataset → Except Err (List Dataset)} (hf : ∀ l l', List.Forall₂ (RD u nr K) l l' → ER (List.Forall₂ (RD u nr K')) (f l) (f l'))
    (x x' : List Item) (h : RIs u nr K x x') : ER (RIs u nr K') (onDatasets f x) (onDatasets f x') :=
  (asDatasets_rel h).bind fun l l' hl => (hf l l' hl).bind fun _ _ hr => ds_rel hr

/-- The steps respect the relations. -/
def Ph (P : PipelineEnv) (S S' : List Item → List Item → Prop) (steps : List Step) : Prop :=
  ∀ x x', S x x' → ER S' (foldE (fun d s => s.run P d) x steps) (foldE (fun d s => s.run P d) x' steps)

theorem Ph.nil {P : PipelineEnv} {S : List Item → List Item → Prop} : Ph P S S [] := fun _ _ h => h

theorem Ph.cons {P : PipelineEnv} {S S1 S' : List Item → List Item → Prop} {s : Step} {steps : List Step}
    (h : ∀ x x', S x x' → ER S1 (s.run P x) (s.run P x')) (hs : Ph P S1 S' steps) : Ph P S S' (s :: steps) :=
  fun x x' hx => (h x x' hx).bind fun y y' hy => hs y y' hy

/-- As `Ph.cons`, for functions that introduce no references. -/
abbrev RIs0 (u : Spec.Units) (nr : Bool) (x x' : List Item) : Prop := RIs u nr All x x' ∧ ∀ d, Item.ds d ∈ x → NoRefs d

theorem asDatasets_mem {l : List Item} {r : List Dataset} (h : asDatasets l = .ok r) : l = r.map .ds := by
  induction l generalizing r with
  | nil => cases h; rfl
  | cons i l ih =>
    cases i with
    | str s => cases h
    | ds d =>
      unfold asDatasets at h
      obtain ⟨r', h1, h2⟩ := bind_eq_ok.mp h
      cases h2
      rw [ih h1]; rfl

theorem lift0 {f : List Dataset → Except Err (List Dataset)} (hf : Resp u nr All f) (hn : ∀ l r, f l = .ok r → (∀ d ∈ l, NoRefs d) → ∀ d ∈ r, NoRefs d)
    (x x' : List Item) (h : RIs0 u nr x x') : ER (RIs0 u nr) (onDatasets f x) (onDatasets f x') := by
  refine (asDatasets_rel h.1).mem.bind ?_
  rintro l l' ⟨hl, hx, -⟩
  refine (hf l l' hl).mem.bind ?_
  rintro r r' ⟨hr, hfr, -⟩
  refine ER.ok ⟨ds_rel hr, fun d hd => ?_⟩
  refine hn l r hfr (fun d hd => h.2 d ?_) d (by simpa using hd)
  rw [asDatasets_mem hx]
  exact List.mem_map_of_mem hd

theorem noRefs_sub {d : Dataset} (h : NoRefs d) {ex : List Exchange} (hex : ∀ e ∈ ex, ∃ e0 ∈ d.exchanges, e.numObjs = e0.numObjs) : NoRefs { d with exchanges := ex } := by
  intro o ho
  refine h o ?_
  unfold Dataset.numObjs at ho ⊢
  rcases List.mem_append.mp ho with ho | ho
  · obtain ⟨e, he, ho⟩ := List.mem_flatMap.mp ho
    obtain ⟨e0, he0, heq⟩ := hex e he
    exact List.mem_append_left _ (List.mem_flatMap.mpr ⟨e0, he0, heq ▸ ho⟩)
  · exact List.mem_append_right _ ho

theorem same {f : List Dataset → Except Err (List Dataset)} (h : ∀ l r, f l = .ok r → r = l) : ∀ l r, f l = .ok r → (∀ d ∈ l, NoRefs d) → ∀ d ∈ r, NoRefs d :=
  fun l r hr hl => h l r hr ▸ hl

theorem check_same {f : List Dataset → Except Err Unit} (l r : List Dataset) (h : (do f l; return l : Except Err (List Dataset)) = .ok r) : r = l := by
  obtain ⟨_, -, h⟩ := bind_eq_ok.mp h
  cases h; rfl

/-- The functions before implicit references are replaced. -/
theorem ph_first (hu : u.Proper) {P : PipelineEnv} {S' : List Item → List Item → Prop} {rest : List Step} (h : Ph P (RIs u nr All) S' rest) :
    Ph P (RIs0 u nr) S' (.ensureIdsAreUnique :: .copyOriginalExchangeId :: .variableNamesAreUnique :: .ensureMarketsOneProduct ::
      .ensureMarketsNoOwnConsumption :: .fixSpecificIssues :: .replaceImplicitReferences :: rest) := by
  refine .cons (lift0 resp_ids (same fun l r h => ?_)) <| .cons (lift0 resp_copyId fun l r h hl d hd => ?_) <| .cons (lift0 resp_variables (same check_same)) <|
    .cons (lift0 resp_oneProduct (same check_same)) <| .cons (lift0 (resp_ownConsumption hu) (same check_same)) <|
    .cons (lift0 (resp_fixSpecific hu) fun l r h hl d hd => ?_) <| .cons (S1 := RIs u nr All) (fun x x' hx => ?_) h
  · unfold ensureIdsAreUnique at h
    split at h
    · cases h
    · cases h; rfl
  · cases h
    obtain ⟨d0, hd0, rfl⟩ := List.mem_map.mp hd
    refine noRefs_sub (hl d0 hd0) fun e he => ?_
    obtain ⟨e0, he0, rfl⟩ := List.mem_map.mp he
    exact ⟨e0, he0, rfl⟩
  · cases h
    obtain ⟨d0, hd0, rfl⟩ := List.mem_map.mp hd
    unfold fixSpecificIssues
    split
    · exact noRefs_sub (hl d0 hd0) fun e he => ⟨e, (List.mem_filter.mp he).1, rfl⟩
    · exact hl d0 hd0
  · refine (asDatasets_rel hx.1).mem.bind ?_
    rintro l l' ⟨hl, hxl, -⟩
    refine (resp_replace hl fun d hd => hx.2 d ?_).bind fun _ _ hr => ds_rel hr
    rw [asDatasets_mem hxl]
    exact List.mem_map_of_mem hd

/-- The parameters and the volumes. -/
theorem ph_parameters (hu : u.Proper) {P : PipelineEnv} {S' : List Item → List Item → Prop} {rest : List Step} (h : Ph P (RIs u nr All) S' rest) :
    Ph P (RIs0 u nr) S' (.ensureIdsAreUnique :: .copyOriginalExchangeId :: .variableNamesAreUnique :: .ensureMarketsOneProduct ::
      .ensureMarketsNoOwnConsumption :: .fixSpecificIssues :: .replaceImplicitReferences :: .repairUncertainty :: .fixKnownBadFormulas ::
      .lowercaseParameters :: .fixMathFormulas :: .replaceReservedWords :: .deleteUnparsableFormulas :: .ensureVolumesGiven ::
      .addPvToAllocatableByproducts :: .createPvParameters :: rest) :=
  ph_first hu <| .cons (lift (resp_repair _)) <| .cons (lift resp_known) <| .cons (lift (resp_lowercase _)) <| .cons (lift (resp_fixMath _ _)) <|
    .cons (lift (resp_reserved _ _)) <| .cons (lift (resp_unparsable _)) <| .cons (lift resp_volumesGiven) <| .cons (lift (resp_addPv hu)) <|
    .cons (lift (resp_createPv _)) h

theorem allocate_step (hu : u.Proper) {P : PipelineEnv} (hP : Env u P) (label : String) (x x' : List Item) (h : RIs u nr All x x') :
    ER (RIs u nr All) (flatMapE (methodStep P.M P.F P.ord label) x) (flatMapE (methodStep P.M P.F P.ord label) x') :=
  ER.flatMapE h fun _ _ hi => methodStep_rel hu hP.ord label hi

theorem ph_allocation (hu : u.Proper) {P : PipelineEnv} (hP : Env u P) {S' : List Item → List Item → Prop} {rest : List Step} (h : Ph P (RIs u nr All) S' rest) :
    Ph P (RIs u nr All) S' (.labelAllocationMethod :: .allocate "market group" :: .allocate "unconstrained market" :: .allocate "economic" ::
      .allocate "constrained market" :: .allocate "recycling" :: .allocate "waste treatment" :: .allocate "combined production without products" ::
      .allocate "combined production" :: .allocate "combined production with byproducts" :: .deleteAllocationMethod :: rest) :=
  .cons (lift (resp_label hu)) <| .cons (allocate_step hu hP _) <| .cons (allocate_step hu hP _) <| .cons (allocate_step hu hP _) <|
    .cons (allocate_step hu hP _) <| .cons (allocate_step hu hP _) <| .cons (allocate_step hu hP _) <| .cons (allocate_step hu hP _) <|
    .cons (allocate_step hu hP _) <| .cons (allocate_step hu hP _) <| .cons (fun _ _ hx => ER.mapE hx fun _ _ hi => deleteMethod_rel hi) h

theorem forget_list {l l' : List Dataset} (hK : ∀ t, K' t → K t) (h : List.Forall₂ (RD u nr K) l l') : List.Forall₂ (RD u nr K') l l' :=
  forall₂_imp (fun _ _ h => h.forget (hK _)) h

/-- The cut-off model. -/
theorem ph_cutoff (hu : u.Proper) {P : PipelineEnv} (hP : Env u P) :
    Ph P (RIs0 u true) (RIs u true fun _ => False) (cutoffBefore ++ .addUniqueCodes :: (cutoffLinking ++ cutoffEnd)) := by
  have hend : Ph P (RIs u true fun _ => False) (RIs u true fun _ => False) cutoffEnd :=
    .cons (lift resp_rpCodes) <| .cons (lift resp_unlinked) <| .cons (lift resp_renameAfter) <| .cons (lift resp_flip) <| .cons (lift (resp_normalize _)) <|
      .cons (lift (resp_signs hu _)) .nil
  have hlink : Ph P (RIs u true All) (RIs u true fun _ => False) (.addUniqueCodes :: (cutoffLinking ++ cutoffEnd)) :=
    .cons (lift (resp_codes _ _)) <| .cons (lift resp_actualize) <| .cons (lift (resp_addRecycled hP)) <| .cons (lift (resp_addSuppliers hP _ _)) <|
      .cons (lift (resp_updateMarkets hu _ _ (by decide) trivial)) <| .cons (lift (resp_globalZero hu _)) <| .cons (lift (resp_globalZero hu _)) <|
      .cons (S1 := RIs u true (· = .marketGroup)) (lift fun l l' hl => (resp_allocate hu .market trivial hl).mono fun _ _ h => forget_list (fun t ht => ⟨trivial, by rw [ht]; decide⟩) h) <|
      .cons (lift (resp_groups _)) <| .cons (lift (resp_updateGroups hu _ rfl)) <|
      .cons (S1 := RIs u true fun _ => False) (lift fun l l' hl => (resp_allocate (K := (· = .marketGroup)) hu .marketGroup rfl hl).mono fun _ _ h => forget_list (fun t ht => ht.elim) h) <|
      .cons (lift resp_recycled) <| .cons (lift (resp_consumers hu _ _)) hend
  have hlast : Ph P (RIs u true All) (RIs u true fun _ => False) (.dropRpActivityLinks :: .labelReferenceProduct :: .deleteWhitelistedMarkets :: .assignFakePv ::
      .correctPipelineLocation :: .relabelGlobalToRow :: .checkNoRowMarketGroups :: .addUniqueCodes :: (cutoffLinking ++ cutoffEnd)) :=
    .cons (lift resp_dropRp) <| .cons (lift resp_labelProduct) <| .cons (lift resp_whitelisted) <| .cons (lift resp_fakePv) <| .cons (lift resp_pipeline) <|
      .cons (lift (resp_row hu)) <| .cons (lift resp_noRow) hlink
  exact ph_parameters hu <| .cons (lift resp_consequential) <| .cons (lift resp_dropRp) <| .cons (lift (resp_dropZero hu)) <| .cons (lift resp_parentChild) <|
    .cons (lift resp_fix35) <| .cons (lift resp_linkValidity) <| .cons (lift (resp_hardLinked hu)) <| .cons (lift (resp_transforming hu)) <| .cons (lift resp_rename) <|
    .cons (lift resp_create) <| ph_allocation hu hP hlast

/-- The consequential model. -/
theorem ph_consequential (hu : u.Proper) {P : PipelineEnv} (hP : Env u P) :
    Ph P (RIs0 u nr) (RIs u nr All) (consequentialBefore ++ .addUniqueCodes :: consequentialAfter) := by
  have hlink : Ph P (RIs u nr All) (RIs u nr All) (.addUniqueCodes :: consequentialAfter) :=
    .cons (lift (resp_codes _ _)) <| .cons (lift resp_actualize) <| .cons (lift (resp_addSuppliers hP _ _)) <| .cons (lift resp_prune) <|
      .cons (lift (resp_updateMarkets hu _ _ (by decide) trivial)) <| .cons (lift (resp_addSuppliers hP _ _)) <| .cons (lift (resp_updateGroups hu _ trivial)) <|
      .cons (lift fun l l' hl => resp_allocate hu .market trivial hl) <| .cons (lift fun l l' hl => ER.ok (resp_deleteSuppliers hl)) <|
      .cons (lift (resp_consumers hu _ _)) <| .cons (lift resp_unlinked) <| .cons (lift (resp_normalize _)) .nil
  exact ph_parameters hu <| .cons (lift (resp_dropZero hu)) <| .cons (lift (resp_split hu hP.ord)) <| .cons (lift resp_deleteLinks) <|
    .cons (lift resp_constrained) <| .cons (lift resp_alternative) <| .cons (lift resp_labelProduct) <| .cons (lift resp_whitelisted) <|
    .cons (lift resp_fakePv) <| .cons (lift (resp_row hu)) hlink

end Units
end Ocelot
