import Verif.Proofs.RenamedSteps

/-! Waste outputs, allocation and the consequential functions respect a renaming of the activities. -/

namespace Ocelot
namespace Renamed
open Spec Ocelot.Units

variable {ρ : Spec.Renaming}

/-! ## Waste outputs -/

theorem resp_rename : Resp ρ renameRecyclableContentExchanges :=
  resp_mapE fun d d' hd => (ER.mapE hd.exs fun e e' he => by
    unfold renameRecyclable isRecyclableByproduct
    rw [← RE.type he, ← RE.cls he]
    refine (ER.refl _).bind ?_
    rintro b _ rfl
    cases b
    · exact he
    · rw [he]; rfl).bind fun _ _ hex => hd.setEx hex

theorem newRecycled_rel {d d' : Dataset} (hd : RD ρ d d') {e e' : Exchange} (he : RE ρ e e') :
    ER (RD ρ) (newRecycledContentDataset d e) (newRecycledContentDataset d' e') := by
  obtain ⟨ex', s', rfl, -, -⟩ := hd
  unfold newRecycledContentDataset
  simp only
  refine (ER.refl _).bind ?_
  rintro a _ rfl
  refine (ER.refl _).bind ?_
  rintro b _ rfl
  refine (ER.refl _).bind ?_
  rintro c _ rfl
  rw [he]
  exact ER.ok ⟨_, none, rfl, .cons rfl .nil, .none⟩

theorem resp_create : Resp ρ createRecycledContentDatasets := by
  intro l l' hl
  unfold createRecycledContentDatasets recycledContentCandidates
  refine (ER.flatMapE (Q := RD ρ) hl fun d d' hd => ?_).bind fun c c' hc => ?_
  · refine (ER.filterE hd.exs fun e e' he => by rw [he]; rfl).bind fun r r' hr => ?_
    exact ER.mapE hr fun e e' he => newRecycled_rel hd he.1
  · refine ER.ok (List.rel_append hl (map_rel (fun _ _ h => h.2) (dictOf_rel (Q := fun _ => RD ρ) (fun _ _ h => RD.name h) (fun _ _ h => h) hc)))

/-! ## Choosing a reference product -/

theorem chosen_rel {e e' : Exchange} (h : RE ρ e e') : RE ρ (chosenProduct e) (chosenProduct e') := by rw [h]; rfl

theorem nonreference_rel {e e' : Exchange} (h : RE ρ e e') : RE ρ (nonreferenceProduct e) (nonreferenceProduct e') := by rw [h]; rfl

theorem scaleAll_rel {M : MathEnv} {l l' : List Exchange} (h : List.Forall₂ (RE ρ) l l') (f : ℚ) :
    ER (List.Forall₂ (RE ρ)) (mapE (fun e => scaleExchange M e f) l) (mapE (fun e => scaleExchange M e f) l') :=
  ER.mapE h fun _ _ he => RE.scale he f

theorem normalize_rel (M : MathEnv) {d d' : Dataset} (h : RD ρ d d') : ER (RD ρ) (normalize M d) (normalize M d') := by
  unfold normalize
  refine (single_rel h).bind ?_
  rintro p p' ⟨hp, -⟩
  rw [RE.amount hp]
  refine ER.ite Iff.rfl (fun _ => rfl) fun _ => ER.ite Iff.rfl (fun _ => ?_) fun _ => h
  exact (scaleAll_rel h.exs _).bind fun _ _ hex => h.setEx hex

theorem choose_rel (hu : ρ.Proper) (M : MathEnv) {d d' : Dataset} (h : RD ρ d d') {e e' : Exchange} (he : RE ρ e e') (f : ℚ) :
    ER (RD ρ) (chooseReferenceProduct M d e f) (chooseReferenceProduct M d' e' f) := by
  unfold chooseReferenceProduct
  rw [RE.amount he]
  refine ER.ite Iff.rfl (fun _ => rfl) fun _ => ?_
  refine (allocatableProduction_rel h).bind fun prod prod' hp => (nonproduction_rel h).bind fun non non' hn => (scaleAll_rel hn f).bind fun s s' hs => ?_
  refine normalize_rel M (h.setEx (List.rel_append (List.rel_append (.cons (chosen_rel he) .nil) ?_) hs))
  refine map_rel (fun x x' hx => ?_) (filter_rel (fun x x' hx => bne_rel hu hx.1 he) hp)
  exact nonreference_rel hx.1.1

/-! ## Economic allocation -/

/-- A related production exchange. -/
abbrev RA (ρ : Spec.Renaming) (e e' : Exchange) : Prop := RE ρ e e' ∧ isAllocatable e = .ok true

theorem factors_rel {l l' : List Exchange} (h : List.Forall₂ (RA ρ) l l') : economicFactors l = economicFactors l' := by
  have h1 : l' = l.map ρ.exc := list_iff.mp (forall₂_imp (fun _ _ h => h.1) h)
  subst h1
  have hr : ∀ e, revenue (ρ.exc e) = revenue e := fun _ => rfl
  have ht : ∀ e, hasTrueValue (ρ.exc e) = hasTrueValue e := fun _ => rfl
  have hv : ∀ e, trueValue (ρ.exc e) * (ρ.exc e).amount = trueValue e * e.amount := fun _ => rfl
  unfold economicFactors
  have h0 : l = [] ↔ l.map ρ.exc = [] := by simp
  have hf : (l.map ρ.exc).filter hasTrueValue = (l.filter hasTrueValue).map ρ.exc := by rw [List.filter_map]; rfl
  by_cases hl : l = []
  · rw [if_pos hl, if_pos (h0.mp hl)]
  · rw [if_neg hl, if_neg (fun h => hl (h0.mpr h))]
    simp only [hf, List.map_map, List.any_map, Function.comp_def, hr, ht, hv]

theorem economic_rel (hu : ρ.Proper) (M : MathEnv) {d d' : Dataset} (h : RD ρ d d') :
    ER (List.Forall₂ (RD ρ)) (economicAllocation M d) (economicAllocation M d') := by
  unfold economicAllocation
  refine (allocatableProduction_rel h).bind fun l l' hl => ?_
  rw [ER.forE hl fun e e' he => show checkEconomicExchange e = checkEconomicExchange e' by rw [he.1]; rfl, factors_rel hl]
  refine (ER.refl _).bind fun _ _ _ => (ER.refl _).bind ?_
  rintro fs _ rfl
  refine ER.mapE (zip_rel fs hl) ?_
  rintro ⟨f, e⟩ ⟨f', e'⟩ ⟨hff, he⟩
  simp only at hff he
  subst hff
  exact choose_rel hu M h he.1 f

/-! ## Recycling and waste treatment -/

theorem recycling_rel (hu : ρ.Proper) (M : MathEnv) {d d' : Dataset} (h : RD ρ d d') :
    ER (List.Forall₂ (RD ρ)) (recyclingAllocation M d) (recyclingAllocation M d') := by
  unfold recyclingAllocation
  refine (single_rel h).bind ?_
  rintro p p' ⟨hp, -⟩
  rw [RE.amount hp, any_allocatable_rel h.exs]
  refine ER.ite Iff.rfl (fun _ => rfl) fun _ => (ER.refl _).bind ?_
  rintro b _ rfl
  refine ER.ite Iff.rfl (fun _ => rfl) fun _ => ?_
  refine (ER.mapE h.exs fun e e' he => ?_).bind fun _ _ hex => economic_rel hu M (h.setEx hex)
  unfold recyclingInput
  refine ER.ite (by rw [RE.type he]) (fun _ => ?_) fun _ => he
  exact RE.scale (e := { e with type := .fromTechnosphere }) (by rw [he]; rfl) _

theorem waste_rel (hu : ρ.Proper) (M : MathEnv) {d d' : Dataset} (h : RD ρ d d') :
    ER (List.Forall₂ (RD ρ)) (wasteTreatmentAllocation M d) (wasteTreatmentAllocation M d') := by
  unfold wasteTreatmentAllocation
  refine (single_rel h).bind ?_
  rintro p p' ⟨hp, -⟩
  rw [RE.amount hp, RE.cls hp]
  refine ER.ite Iff.rfl (fun _ => rfl) fun _ => ER.ite Iff.rfl (fun _ => rfl) fun _ => ?_
  refine (choose_rel hu M h hp 1).bind fun a a' ha => (allocatableProduction_rel h).bind fun l l' hl => ?_
  refine (ER.mapE (filter_rel (fun e e' he => by rw [RE.type he.1]) hl) fun e e' he => ?_).bind fun r r' hr => List.Forall₂.cons ha hr
  exact choose_rel hu M (h.setEx (.cons he.1.1 .nil)) he.1.1 1

/-! ## Combined production -/

theorem extract_rel {d d' : Dataset} (h : RD ρ d d') : extractNamedParameters d = extractNamedParameters d' := by
  unfold extractNamedParameters
  rw [numObjs_rel h]

theorem recalculate_rel {P : PipelineEnv} (hord : ∀ d, P.ord (ρ.ds d) = P.ord d) {d d' : Dataset} (h : RD ρ d d') :
    ER (RD ρ) (recalculateO P.M P.F P.ord d) (recalculateO P.M P.F P.ord d') := by
  unfold recalculateO
  rw [show P.ord d' = P.ord d by rw [h.eq, hord]]
  refine (ER.refl _).bind ?_
  rintro o _ rfl
  unfold recalculate
  rw [extract_rel h]
  refine (ER.refl _).bind ?_
  rintro σ _ rfl
  exact (dataset_mapNumE _ h).bind fun _ _ h' => dataset_mapNumE _ h'

theorem subdivided_rel (hu : ρ.Proper) {d d' : Dataset} (h : RD ρ d d') {e e' : Exchange} (he : RE ρ e e') : RD ρ (subdivided d e) (subdivided d' e') := by
  refine h.setEx (List.rel_append (List.rel_append (.cons ?_ .nil) ?_) ?_)
  · rw [he]; rfl
  · refine map_rel (fun x x' hx => nonreference_rel hx.1) (filter_rel (fun x x' hx => ?_) h.exs)
    rw [RE.type hx, bne_rel hu hx he]
  · exact forall₂_imp (fun _ _ h => h.1) (filter_rel (fun x x' hx => by rw [RE.type hx]) h.exs)

theorem combined_rel (hu : ρ.Proper) {P : PipelineEnv} (hord : ∀ d, P.ord (ρ.ds d) = P.ord d) {d d' : Dataset} (h : RD ρ d d') :
    ER (List.Forall₂ (RD ρ)) (combinedProduction P.M P.F P.ord d) (combinedProduction P.M P.F P.ord d') := by
  unfold combinedProduction nonzeroReferenceProducts
  refine ER.mapE (filter_rel (fun e e' he => ?_) h.exs) fun e e' he => recalculate_rel hord (subdivided_rel hu h he.1)
  rw [RE.type he, RE.amount he]

theorem RD.rename {d d' : Dataset} (h : RD ρ d d') (s : String) :
    RD ρ { d with name := d.name ++ ", from " ++ s } { d' with name := d'.name ++ ", from " ++ s } := by
  obtain ⟨ex', s', rfl, hex, hs⟩ := h
  exact ⟨ex', s', rfl, hex, hs⟩

theorem split_rel (hu : ρ.Proper) (M : MathEnv) {d d' : Dataset} (h : RD ρ d d') :
    ER (List.Forall₂ (RD ρ)) (handleSplitDataset M d) (handleSplitDataset M d') := by
  unfold handleSplitDataset
  refine (single_rel h).bind ?_
  rintro p p' ⟨hp, -⟩
  rw [← RE.cls hp]
  unfold splitBy
  rw [← RE.name hp]
  cases p.cls with
  | none => exact rfl
  | some c =>
    cases c
    · exact rfl
    · exact waste_rel hu M h
    · exact recycling_rel hu M (h.rename _)

theorem withoutProducts_rel (hu : ρ.Proper) {P : PipelineEnv} (hord : ∀ d, P.ord (ρ.ds d) = P.ord d) {d d' : Dataset} (h : RD ρ d d') :
    ER (List.Forall₂ (RD ρ)) (combinedWithoutProducts P.M P.F P.ord d) (combinedWithoutProducts P.M P.F P.ord d') :=
  (combined_rel hu hord h).bind fun _ _ hl => ER.flatMapE hl fun _ _ h' => split_rel hu P.M h'

theorem idAmount_rel {d d' : Dataset} (h : RD ρ d d') (i : String) : idAmount d i = idAmount d' i := by
  unfold idAmount
  have h1 := dictOf_rel (Q := fun (_ : String) (a b : ℚ) => a = b) (key := fun e : Exchange => e.id) (key' := fun e : Exchange => e.id) (fun e e' (he : RE ρ e e') => RE.id he) (val := fun e => e.amount) (val' := fun e => e.amount) (fun e e' he => RE.amount he) h.exs
  have h2 : dictOf (fun e : Exchange => e.id) (fun e => e.amount) d.exchanges = dictOf (fun e : Exchange => e.id) (fun e => e.amount) d'.exchanges :=
    List.forall₂_eq_eq_eq ▸ forall₂_imp (fun p p' h => Prod.ext h.1 h.2) h1
  rw [h2]

theorem addExchanges_rel {t t' d d' : Dataset} (ht : RD ρ t t') (hd : RD ρ d d') : RD ρ (addExchanges t d) (addExchanges t' d') :=
  ht.mapEx fun e e' he => by
    unfold addTo
    rw [← idAmount_rel hd, he]
    by_cases hr : e.type = .referenceProduct
    · rw [if_pos hr, if_pos (show (ρ.exc e).type = _ from hr)]; rfl
    · rw [if_neg hr, if_neg (show ¬ (ρ.exc e).type = _ from hr)]; rfl

theorem mergeGroup_rel {l l' : List Dataset} (hl : List.Forall₂ (RD ρ) l l') : List.Forall₂ (RD ρ) (mergeGroup l) (mergeGroup l') := by
  cases hl with
  | nil => exact .nil
  | @cons a b l l' hab hl =>
    refine .cons ?_ .nil
    induction hl generalizing a b with
    | nil => exact hab
    | cons h _ ih => exact ih (addExchanges_rel hab h)

theorem grouper_rel {d d' : Dataset} (h : RD ρ d d') : activityGrouper d = activityGrouper d' := by
  unfold activityGrouper extractProductsAsTuple
  rw [h.name]
  refine ER.eq ((((allocatableProduction_rel h).bind (Q := Eq) fun l l' hl => ?_)).bind ?_)
  · rw [map_eq_rel (fun e e' he => RE.name he.1) hl]
    exact ER.refl _
  · rintro a _ rfl
    exact ER.refl _

theorem merge_rel {l l' : List Dataset} (hl : List.Forall₂ (RD ρ) l l') :
    ER (List.Forall₂ (RD ρ)) (mergeByproducts l) (mergeByproducts l') := by
  unfold mergeByproducts
  rw [ER.forE hl fun d d' hd => by unfold checkMergeable; rw [any_allocatable_rel hd.exs]]
  refine (ER.refl _).bind fun _ _ _ => ?_
  refine (ER.mapE (Q := fun p p' => p.1 = p'.1 ∧ RD ρ p.2 p'.2) hl fun d d' hd => ?_).bind fun k k' hk => ?_
  · unfold withKey
    rw [grouper_rel hd]
    refine (ER.refl _).bind ?_
    rintro a _ rfl
    exact ⟨rfl, hd⟩
  · have h1 := groupBy_rel (fun p p' h => h.1) hk
    refine ER.ok (?_ : List.Forall₂ (RD ρ) _ _)
    revert h1
    generalize groupBy (fun p : (String × List String) × Dataset => p.1) k = g
    generalize groupBy (fun p : (String × List String) × Dataset => p.1) k' = g'
    intro h1
    induction h1 with
    | nil => exact .nil
    | cons h _ ih => exact List.rel_append (mergeGroup_rel (map_rel (fun _ _ h => h.2) h.2)) ih

theorem withByproducts_rel (hu : ρ.Proper) {P : PipelineEnv} (hord : ∀ d, P.ord (ρ.ds d) = P.ord d) {d d' : Dataset} (h : RD ρ d d') :
    ER (List.Forall₂ (RD ρ)) (combinedWithByproducts P.M P.F P.ord d) (combinedWithByproducts P.M P.F P.ord d') :=
  (combined_rel hu hord h).bind fun _ _ hl => (ER.flatMapE hl fun _ _ h' => economic_rel hu P.M h').bind fun _ _ ha => merge_rel ha

/-! ## Allocation -/

theorem noAllocation_rel {d d' : Dataset} (h : RD ρ d d') : ER (List.Forall₂ (RD ρ)) (noAllocation d) (noAllocation d') := by
  unfold noAllocation checkSingleOutputActivity
  rw [any_allocatable_rel h.exs, (referenceProducts_rel h).length_eq]
  exact (ER.refl _).bind fun _ _ _ => List.Forall₂.cons h .nil

theorem datasetMethod_rel (hu : ρ.Proper) {P : PipelineEnv} (hord : ∀ d, P.ord (ρ.ds d) = P.ord d) (label : String) {d d' : Dataset} (h : RD ρ d d') :
    ER (List.Forall₂ (RD ρ)) (datasetMethod P.M P.F P.ord label d) (datasetMethod P.M P.F P.ord label d') := by
  unfold datasetMethod
  repeat' split
  · exact noAllocation_rel h
  · exact noAllocation_rel h
  · exact economic_rel hu P.M h
  · exact recycling_rel hu P.M h
  · exact waste_rel hu P.M h
  · exact withoutProducts_rel hu hord h
  · exact combined_rel hu hord h
  · exact withByproducts_rel hu hord h
  · exact rfl

/-- Related elements. -/
inductive RI (ρ : Spec.Renaming) : Item → Item → Prop
  | ds {d d'} (h : RD ρ d d') : RI ρ (.ds d) (.ds d')
  | str (s) : RI ρ (.str s) (.str s)

theorem refl_str (l : List String) : List.Forall₂ (RI ρ) (l.map .str) (l.map .str) := by
  induction l with
  | nil => exact .nil
  | cons s l ih => exact .cons (.str s) ih

theorem methodStep_rel (hu : ρ.Proper) {P : PipelineEnv} (hord : ∀ d, P.ord (ρ.ds d) = P.ord d) (label : String) {i i' : Item} (h : RI ρ i i') :
    ER (List.Forall₂ (RI ρ)) (methodStep P.M P.F P.ord label i) (methodStep P.M P.F P.ord label i') := by
  cases h with
  | str s => exact rfl
  | @ds d d' h =>
    unfold methodStep
    simp only
    rw [← h.method]
    refine (ER.refl _).bind ?_
    rintro m _ rfl
    by_cases hm : m = label
    · rw [if_pos hm, if_pos hm]
      unfold allocationMethod
      split
      · exact refl_str _
      · exact (datasetMethod_rel hu hord label h).bind fun l l' hl => map_rel (fun _ _ h => .ds h) hl
    · rw [if_neg hm, if_neg hm]
      exact List.Forall₂.cons (.ds h) .nil

theorem anyProduction_rel {p p' : Exchange → Bool} {l l' : List Exchange} (h : List.Forall₂ (RE ρ) l l')
    (hp : ∀ e e', RE ρ e e' → p e = p' e') : anyProduction p l = anyProduction p' l' := by
  induction h with
  | nil => rfl
  | cons he _ ih => unfold anyProduction; rw [RE.allocatable he, hp _ _ he, ih]

theorem chooseMethod_rel {d d' : Dataset} (h : RD ρ d d') : chooseAllocationMethod d = chooseAllocationMethod d' := by
  unfold chooseAllocationMethod
  rw [anyProduction_rel h.exs (p' := fun e => e.type == .byproduct && e.amount != 0) fun e e' he => by rw [RE.type he, RE.amount he],
    anyProduction_rel h.exs (p' := fun e => e.type == .referenceProduct && e.cls == some .allocatable) fun e e' he => by rw [RE.type he, RE.cls he],
    any_rel (q := fun e => e.type == .referenceProduct && decide (e.amount < 0)) (fun e e' he => by rw [RE.type he, RE.amount he]) h.exs,
    any_rel (q := fun e => e.conditional == some true) (fun e e' he => by rw [RE.conditional he]) h.exs,
    map_eq_rel (l' := d'.exchanges.filter fun e => e.type == .referenceProduct && e.amount != 0) (g := fun e => e.cls) (fun e e' he => RE.cls he.1)
      (filter_rel (fun e e' he => by rw [RE.type he, RE.amount he]) h.exs), h.type, h.name]

theorem resp_label : Resp ρ labelAllocationMethod :=
  resp_mapE fun d d' hd => by
    rw [chooseMethod_rel hd]
    refine (ER.refl _).bind ?_
    rintro m _ rfl
    obtain ⟨ex', s', rfl, hex, hs⟩ := hd
    exact ⟨ex', s', rfl, hex, hs⟩

theorem deleteMethod_rel {i i' : Item} (h : RI ρ i i') : ER (RI ρ) (deleteAllocationMethod i) (deleteAllocationMethod i') := by
  cases h with
  | str s =>
    unfold deleteAllocationMethod
    exact ER.ite Iff.rfl (fun _ => rfl) fun _ => RI.str s
  | ds h =>
    obtain ⟨ex', s', rfl, hex, hs⟩ := h
    exact RI.ds ⟨ex', s', rfl, hex, hs⟩

/-! ## Consequential functions -/

theorem resp_split (hu : ρ.Proper) {P : PipelineEnv} (hord : ∀ d, P.ord (ρ.ds d) = P.ord d) :
    Resp ρ (wrapFiltered (fun d => .ok (multiRp d)) (combinedProduction P.M P.F P.ord)) := by
  intro l l' hl
  unfold wrapFiltered
  refine ER.flatMapE hl fun d d' hd => ?_
  have : multiRp d = multiRp d' := by unfold multiRp; rw [(referenceProducts_rel hd).length_eq]
  simp only [this]
  refine (ER.refl _).bind ?_
  rintro b _ rfl
  cases b
  · exact List.Forall₂.cons hd .nil
  · exact combined_rel hu hord hd

theorem toInput_rel {e e' : Exchange} (h : RE ρ e e') : RE ρ (toInput e) (toInput e') := by rw [h]; rfl

theorem toProduct_rel {e e' : Exchange} (h : RE ρ e e') : RE ρ (toProduct e) (toProduct e') := by rw [h]; rfl

theorem ite_rel {c c' : Prop} [Decidable c] [Decidable c'] (hc : c ↔ c') {a a' b b' : Exchange} (ha : RE ρ a a') (hb : RE ρ b b') :
    RE ρ (if c then a else b) (if c' then a' else b') := by
  by_cases h : c
  · rw [if_pos h, if_pos (hc.mp h)]; exact ha
  · rw [if_neg h, if_neg (fun h' => h (hc.mpr h'))]; exact hb

theorem swap_rel (name : String) {d d' : Dataset} (h : RD ρ d d') : ER (RD ρ) (swapRoles name d) (swapRoles name d') := by
  unfold swapRoles
  refine (single_rel h).bind fun _ _ _ => ?_
  have ht : List.Forall₂ (RE ρ) (d.exchanges.map fun e => if e.type = .referenceProduct then toInput e else e)
      (d'.exchanges.map fun e => if e.type = .referenceProduct then toInput e else e) :=
    map_rel (fun e e' he => ite_rel (by rw [RE.type he]) (toInput_rel he) he) h.exs
  simp only
  revert ht
  generalize (d.exchanges.map fun e => if e.type = .referenceProduct then toInput e else e) = t
  generalize (d'.exchanges.map fun e => if e.type = .referenceProduct then toInput e else e) = t'
  intro ht
  have hf := filter_rel (p := fun e => e.name == name) (q := fun e => e.name == name) (fun e e' he => by rw [RE.name he]) ht
  revert hf
  generalize (t.filter fun e => e.name == name) = r
  generalize (t'.filter fun e => e.name == name) = r'
  intro hf
  cases hf with
  | nil => exact rfl
  | @cons a b l l' hab hl =>
    cases hl with
    | cons _ _ => exact rfl
    | nil =>
      simp only
      rw [← RE.type hab.1]
      split
      · exact ER.ok (h.setEx (map_rel (fun x x' hx => ite_rel (by rw [RE.name hx]) (toProduct_rel hx) hx) ht))
      · exact rfl

end Renamed
end Ocelot
