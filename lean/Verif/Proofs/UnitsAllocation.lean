import Verif.Proofs.UnitsSteps

/-! Implicit references, waste outputs, allocation and the consequential functions respect a change of units. -/

namespace Ocelot
namespace Units
open Spec

variable {u : Spec.Units} {nr : Bool} {K : DsType → Prop}

/-! ## Implicit references -/

/-- No formula contains an implicit reference. -/
def NoRefs (d : Dataset) : Prop :=
  ∀ o ∈ d.numObjs, ∀ f, o.formula = some f → exchangeReferences f.toList = [] ∧ pvReferences f.toList = []

theorem obj_mem {d : Dataset} {a : Addr} {o : NumObj} (h : d.obj? a = some o) : o ∈ d.numObjs := by
  unfold Dataset.numObjs
  have hex : ∀ e ∈ d.exchanges, ∀ o ∈ e.numObjs, o ∈ d.exchanges.flatMap Exchange.numObjs := fun e he o ho => List.mem_flatMap.mpr ⟨e, he, ho⟩
  cases a with
  | exc i =>
    obtain ⟨e, he, rfl⟩ := Option.map_eq_some_iff.mp h
    exact List.mem_append_left _ (hex e (List.mem_of_getElem? he) _ (by simp [Exchange.numObjs]))
  | pv i =>
    obtain ⟨e, he, h'⟩ := Option.bind_eq_some_iff.mp h
    obtain ⟨p, hp, rfl⟩ := Option.map_eq_some_iff.mp h'
    exact List.mem_append_left _ (hex e (List.mem_of_getElem? he) _ (by simp [Exchange.numObjs, hp]))
  | prop i j =>
    obtain ⟨e, he, h'⟩ := Option.bind_eq_some_iff.mp h
    obtain ⟨p, hp, rfl⟩ := Option.map_eq_some_iff.mp h'
    refine List.mem_append_left _ (hex e (List.mem_of_getElem? he) _ ?_)
    have := List.mem_of_getElem? hp
    simp only [Exchange.numObjs, List.mem_cons, List.mem_append, List.mem_map]
    exact .inr (.inr ⟨p, this, rfl⟩)
  | par i =>
    obtain ⟨p, hp, rfl⟩ := Option.map_eq_some_iff.mp h
    exact List.mem_append_right _ (List.mem_map.mpr ⟨p, List.mem_of_getElem? hp, rfl⟩)

theorem replace_noRefs {d : Dataset} (h : NoRefs d) : replaceImplicitReferences d = .ok d := by
  unfold replaceImplicitReferences
  have h1 : ∀ a, replaceReferencesAt d a = .ok d := by
    intro a
    have h2 : referencesAt exchangeReferences d a = [] ∧ referencesAt pvReferences d a = [] := by
      unfold referencesAt Dataset.formulaAt
      cases ho : d.obj? a with
      | none => exact ⟨rfl, rfl⟩
      | some o =>
        simp only [Option.bind_some]
        cases hf : o.formula with
        | none => exact ⟨rfl, rfl⟩
        | some f => exact h o (obj_mem ho) f hf
    unfold replaceReferencesAt
    rw [h2.1]
    simp [foldE, h2.2]
  generalize d.addrs = l
  induction l with
  | nil => rfl
  | cons a l ih => simp [foldE, h1 a, ih]

theorem noRefs_rel {d d' : Dataset} (h : RD u nr K d d') (hd : NoRefs d) : NoRefs d' := by
  intro o ho f hf
  have h1 := numObjs_filter (q := fun o => o.formula.isSome) (fun o ho => by rw [ho.1]; rfl) h
  have h2 : o ∈ d'.numObjs.filter (fun o => o.formula.isSome) := List.mem_filter.mpr ⟨ho, by rw [hf]; rfl⟩
  rw [← h1] at h2
  exact hd o (List.mem_filter.mp h2).1 f hf

theorem resp_replace {l l' : List Dataset} (hl : List.Forall₂ (RD u nr K) l l') (h : ∀ d ∈ l, NoRefs d) :
    ER (List.Forall₂ (RD u nr K)) (mapE replaceImplicitReferences l) (mapE replaceImplicitReferences l') := by
  have h1 : ∀ l : List Dataset, (∀ d ∈ l, NoRefs d) → mapE replaceImplicitReferences l = .ok l := by
    intro l h
    induction l with
    | nil => rfl
    | cons d l ih =>
      unfold mapE
      rw [replace_noRefs (h d (by simp)), ebind_ok, ih fun x hx => h x (by simp [hx])]
      rfl
  have h2 : ∀ d ∈ l', NoRefs d := by
    clear h1
    induction hl with
    | nil => simp
    | @cons a b l l' hab _ ih =>
      intro d hd
      rcases List.mem_cons.mp hd with rfl | hd
      · exact noRefs_rel hab (h a (by simp))
      · exact ih (fun x hx => h x (by simp [hx])) d hd
  rw [h1 l h, h1 l' h2]
  exact hl

/-! ## Waste outputs -/

theorem resp_rename : Resp u nr K renameRecyclableContentExchanges :=
  resp_mapE fun d d' hd => (ER.mapE hd.exs fun e e' he => by
    unfold renameRecyclable isRecyclableByproduct
    rw [← he.type, ← he.cls]
    refine (ER.refl _).bind ?_
    rintro b _ rfl
    cases b
    · exact he
    · exact ⟨⟨⟨he.1.1.flow, he.1.1.pv, he.1.1.price⟩, he.1.2⟩, by rw [he.2]; rfl⟩).bind fun _ _ hex => hd.setEx hex

theorem recyclable_none {l : List Exchange} (h : ∀ e ∈ l, ¬ RecyclableOutput e) {r : List Exchange} (hr : filterE isRecyclableByproduct l = .ok r) : r = [] := by
  induction l generalizing r with
  | nil => cases hr; rfl
  | cons e l ih =>
    obtain ⟨b, r', hb, hr', rfl⟩ := filterE_cons_ok.mp hr
    have hb' : b = false := by
      have he := h e (by simp)
      unfold isRecyclableByproduct at hb
      by_cases ht : e.type = .byproduct
      · rw [if_pos ht] at hb
        cases hc : e.cls with
        | none => rw [hc] at hb; cases hb
        | some c =>
          rw [hc] at hb
          cases c <;> cases hb
          · rfl
          · rfl
          · exact absurd ⟨ht, hc⟩ he
      · rw [if_neg ht] at hb
        cases hb; rfl
    subst hb'
    exact ih (fun x hx => h x (by simp [hx])) hr'

theorem resp_create : Resp u true K createRecycledContentDatasets := by
  intro l l' hl
  unfold createRecycledContentDatasets
  have h1 : ER (fun c c' : List Dataset => c = [] ∧ c' = []) (recycledContentCandidates l) (recycledContentCandidates l') := by
    unfold recycledContentCandidates
    refine (ER.flatMapE (Q := fun _ _ => False) hl fun d d' hd => ?_).mono ?_
    · refine (ER.filterE hd.exs fun e e' he => ?_).mem.bind ?_
      · unfold isRecyclableByproduct
        rw [he.type, he.cls]
      · rintro r r' ⟨hr, h2, -⟩
        have := recyclable_none (fun e he => ((list_iff.mp hd.exs).1 e he).2 rfl) h2
        subst this
        cases hr
        exact List.Forall₂.nil
    · intro c c' hc
      cases hc with
      | nil => exact ⟨rfl, rfl⟩
      | cons h _ => exact h.elim
  refine h1.bind ?_
  rintro _ _ ⟨rfl, rfl⟩
  exact List.rel_append hl .nil

/-! ## Choosing a reference product -/

theorem RE.real {e e' : Exchange} (h : RE u nr e e') (ha : isAllocatable e = .ok true) : u.flow e.id = 1 := by
  rcases production_type ha with ht | ht <;> exact h.flow (by simp [ht]) (by simp [ht])

theorem chosen_rel {e e' : Exchange} (h : RE u nr e e') (ha : isAllocatable e = .ok true) : RE u nr (chosenProduct e) (chosenProduct e') :=
  ⟨⟨⟨fun hf => absurd (h.real ha) hf, h.1.1.pv, h.1.1.price⟩, by rintro - ⟨h', -⟩; cases h'⟩, by rw [h.2]; rfl⟩

theorem nonreference_rel {e e' : Exchange} (h : RE u nr e e') (hf : u.flow e.id = 1) : RE u nr (nonreferenceProduct e) (nonreferenceProduct e') :=
  ⟨⟨⟨fun hn => absurd hf hn, by rintro p ⟨⟩, h.1.1.price⟩, by rintro - ⟨h', -⟩; cases h'⟩, by
    rw [h.2]
    simp [nonreferenceProduct, Spec.Units.exc]⟩

theorem scaleAll_rel {M : MathEnv} {l l' : List Exchange} (h : List.Forall₂ (RE u nr) l l') (f : ℚ) :
    ER (List.Forall₂ (RE u nr)) (mapE (fun e => scaleExchange M e f) l) (mapE (fun e => scaleExchange M e f) l') :=
  ER.mapE h fun _ _ he => he.scale f

theorem normalize_rel (M : MathEnv) {d d' : Dataset} (h : RD u nr K d d') : ER (RD u nr K) (normalize M d) (normalize M d') := by
  unfold normalize
  refine (single_rel h).bind ?_
  rintro p p' ⟨hp, ht⟩
  rw [hp.amount (by simp [ht]) (by simp [ht])]
  refine ER.ite Iff.rfl (fun _ => rfl) fun _ => ER.ite Iff.rfl (fun _ => ?_) fun _ => h
  exact (scaleAll_rel h.exs _).bind fun _ _ hex => h.setEx hex

theorem bne_rel (hu : u.Proper) {a a' b b' : Exchange} (ha : RE u nr a a') (hb : RE u nr b b') : (a != b) = (a' != b') := by
  rw [Bool.eq_iff_iff]
  simp [ha.eq_iff hu hb]

theorem choose_rel (hu : u.Proper) (M : MathEnv) {d d' : Dataset} (h : RD u nr K d d') {e e' : Exchange} (he : RE u nr e e')
    (ha : isAllocatable e = .ok true) (f : ℚ) : ER (RD u nr K) (chooseReferenceProduct M d e f) (chooseReferenceProduct M d' e' f) := by
  unfold chooseReferenceProduct
  rw [he.amountP ha]
  refine ER.ite Iff.rfl (fun _ => rfl) fun _ => ?_
  refine (allocatableProduction_rel h).bind fun prod prod' hp => (nonproduction_rel h).bind fun non non' hn => (scaleAll_rel hn f).bind fun s s' hs => ?_
  refine normalize_rel M (h.setEx (List.rel_append (List.rel_append (.cons (chosen_rel he ha) .nil) ?_) hs))
  refine map_rel (fun x x' hx => ?_) (filter_rel (fun x x' hx => bne_rel hu hx.1 he) hp)
  exact nonreference_rel hx.1.1 (hx.1.1.real hx.1.2)

/-! ## Economic allocation -/

theorem find_rel {l : List Prop'} (name : String) :
    (l.map u.prop).find? (fun p => p.name == name) = (l.find? fun p => p.name == name).map u.prop := by
  rw [List.find?_map]
  rfl

theorem property_rel {e e' : Exchange} (h : RE u nr e e') (name : String) : getPropertyByName e' name = (getPropertyByName e name).map u.prop := by
  unfold getPropertyByName
  rw [h.props, find_rel]

theorem property_name {e : Exchange} {name : String} {p : Prop'} (h : getPropertyByName e name = some p) : p.name = name := by
  have := List.find?_some h
  simpa using this

theorem numerical_price {e e' : Exchange} (h : RE u nr e e') : getNumericalProperty e' "price" = (getNumericalProperty e "price").map (u.price * ·) := by
  unfold getNumericalProperty
  rw [property_rel h]
  cases hp : getPropertyByName e "price" with
  | none => rfl
  | some p => simp [Spec.Units.prop, property_name hp]

theorem numerical_other {e e' : Exchange} (h : RE u nr e e') {name : String} (hn : name ≠ "price") :
    getNumericalProperty e' name = getNumericalProperty e name := by
  unfold getNumericalProperty
  rw [property_rel h]
  cases hp : getPropertyByName e name with
  | none => rfl
  | some p => simp [Spec.Units.prop, property_name hp, hn]

theorem price_rel {e e' : Exchange} (h : RE u nr e e') : price e' = u.price * price e := by
  unfold price
  rw [numerical_price h]
  cases getNumericalProperty e "price" <;> simp

theorem checkEconomic_rel (hu : u.Proper) {e e' : Exchange} (h : RE u nr e e') : checkEconomicExchange e = checkEconomicExchange e' := by
  unfold checkEconomicExchange
  rw [numerical_price h]
  cases getNumericalProperty e "price" with
  | none => rfl
  | some p =>
    simp only [Option.map_some]
    have h1 : u.price * p < 0 ↔ p < 0 := mul_neg_iff_of_pos_left' hu.price
    simp only [h1, ← h.neg hu]

theorem hasTrueValue_rel {e e' : Exchange} (h : RE u nr e e') : hasTrueValue e = hasTrueValue e' := by
  unfold hasTrueValue
  rw [property_rel h]
  cases getPropertyByName e "true value relation" <;> rfl

theorem trueValue_rel {e e' : Exchange} (h : RE u nr e e') : trueValue e' = trueValue e := by
  unfold trueValue
  rw [numerical_other h (by decide)]

/-- A related production exchange. -/
abbrev RA (u : Spec.Units) (nr : Bool) (e e' : Exchange) : Prop := RE u nr e e' ∧ isAllocatable e = .ok true

theorem factors_rel (hu : u.Proper) {l l' : List Exchange} (h : List.Forall₂ (RA u nr) l l') : economicFactors l = economicFactors l' := by
  have hrev : ∀ e e', RA u nr e e' → revenue e' = u.price * revenue e := by
    intro e e' he
    unfold revenue
    rw [price_rel he.1, he.1.amountP he.2]
    ring
  have htv : ∀ e e', RA u nr e e' → trueValue e * e.amount = trueValue e' * e'.amount := by
    intro e e' he
    rw [trueValue_rel he.1, he.1.amountP he.2]
  have h1 : (l'.map revenue).sum = u.price * (l.map revenue).sum := sum_rel (map_rel hrev h)
  have h2 : (l.map fun e => trueValue e * e.amount) = l'.map fun e => trueValue e * e.amount := map_eq_rel htv h
  have hf : List.Forall₂ (fun a b => RA u nr a b ∧ hasTrueValue a = true) (l.filter hasTrueValue) (l'.filter hasTrueValue) :=
    filter_rel (fun _ _ he => hasTrueValue_rel he.1) h
  have h3 : ((l'.filter hasTrueValue).map revenue).sum = u.price * ((l.filter hasTrueValue).map revenue).sum := sum_rel (map_rel (fun e e' he => hrev e e' he.1) hf)
  have h4 : l.any hasTrueValue = l'.any hasTrueValue := any_rel (fun _ _ he => hasTrueValue_rel he.1) h
  have h5 : l = [] ↔ l' = [] := by cases h <;> simp
  unfold economicFactors
  by_cases h0 : l = []
  · rw [if_pos h0, if_pos (h5.mp h0)]
  · rw [if_neg h0, if_neg (h5.not.mp h0)]
    simp only [h1, h3, ← h2, ← h4]
    have hz : u.price * (l.map revenue).sum = 0 ↔ (l.map revenue).sum = 0 := by simp [hu.price.ne']
    by_cases hs : (l.map revenue).sum = 0
    · rw [if_pos hs, if_pos (hz.mpr hs)]
    · rw [if_neg hs, if_neg (hz.not.mpr hs)]
      split
      · rfl
      · congr 1
        refine map_eq_rel (fun e e' he => ?_) h
        rw [← hasTrueValue_rel he.1, ← htv e e' he, hrev e e' he]
        have hp := hu.price.ne'
        split
        · rw [mul_div_mul_left _ _ hp]
        · rw [mul_div_mul_left _ _ hp]

theorem zip_rel {α β γ : Type} {R : α → β → Prop} (fs : List γ) {l : List α} {l' : List β} (h : List.Forall₂ R l l') :
    List.Forall₂ (fun p p' => p.1 = p'.1 ∧ R p.2 p'.2) (fs.zip l) (fs.zip l') := by
  induction h generalizing fs with
  | nil => rw [List.zip_nil_right, List.zip_nil_right]; exact .nil
  | cons hab _ ih =>
    cases fs with
    | nil => exact .nil
    | cons f fs => exact .cons ⟨rfl, hab⟩ (ih fs)

theorem economic_rel (hu : u.Proper) (M : MathEnv) {d d' : Dataset} (h : RD u nr K d d') :
    ER (List.Forall₂ (RD u nr K)) (economicAllocation M d) (economicAllocation M d') := by
  unfold economicAllocation
  refine (allocatableProduction_rel h).bind fun l l' hl => ?_
  rw [ER.forE hl fun _ _ he => checkEconomic_rel hu he.1, factors_rel hu hl]
  refine (ER.refl _).bind fun _ _ _ => (ER.refl _).bind ?_
  rintro fs _ rfl
  refine ER.mapE (zip_rel fs hl) ?_
  rintro ⟨f, e⟩ ⟨f', e'⟩ ⟨hff, he⟩
  simp only at hff he
  subst hff
  exact choose_rel hu M h he.1 he.2 f

/-! ## Recycling and waste treatment -/

theorem recycling_rel (hu : u.Proper) (M : MathEnv) {d d' : Dataset} (h : RD u nr K d d') :
    ER (List.Forall₂ (RD u nr K)) (recyclingAllocation M d) (recyclingAllocation M d') := by
  unfold recyclingAllocation
  refine (single_rel h).bind ?_
  rintro p p' ⟨hp, ht⟩
  rw [hp.amount (by simp [ht]) (by simp [ht]), any_allocatable_rel h.exs]
  refine ER.ite Iff.rfl (fun _ => rfl) fun _ => (ER.refl _).bind ?_
  rintro b _ rfl
  refine ER.ite Iff.rfl (fun _ => rfl) fun _ => ?_
  refine (ER.mapE h.exs fun e e' he => ?_).bind fun _ _ hex => economic_rel hu M (h.setEx hex)
  unfold recyclingInput
  refine ER.ite (by rw [he.type]) (fun hr => ?_) fun _ => he
  refine RE.scale (e := { e with type := .fromTechnosphere }) ⟨⟨⟨fun hf => absurd (he.flow (by simp [hr]) (by simp [hr])) hf, he.1.1.pv, he.1.1.price⟩, by rintro - ⟨h', -⟩; cases h'⟩, ?_⟩ _
  rw [he.2]; rfl

theorem waste_rel (hu : u.Proper) (M : MathEnv) {d d' : Dataset} (h : RD u nr K d d') :
    ER (List.Forall₂ (RD u nr K)) (wasteTreatmentAllocation M d) (wasteTreatmentAllocation M d') := by
  unfold wasteTreatmentAllocation
  refine (single_rel h).bind ?_
  rintro p p' ⟨hp, ht⟩
  rw [hp.amount (by simp [ht]) (by simp [ht]), hp.cls]
  have hpa : isAllocatable p = .ok true := by unfold isAllocatable; rw [ht]
  refine ER.ite Iff.rfl (fun _ => rfl) fun _ => ER.ite Iff.rfl (fun _ => rfl) fun _ => ?_
  refine (choose_rel hu M h hp hpa 1).bind fun a a' ha => (allocatableProduction_rel h).bind fun l l' hl => ?_
  refine (ER.mapE (filter_rel (fun e e' he => by rw [he.1.type]) hl) fun e e' he => ?_).bind fun r r' hr => List.Forall₂.cons ha hr
  exact choose_rel hu M (h.setEx (.cons he.1.1 .nil)) he.1.1 he.1.2 1

/-! ## Combined production -/

/-- Suppliers of all datasets are compared. -/
abbrev All : DsType → Prop := fun _ => True

theorem extract_rel {d d' : Dataset} (h : RD u nr K d d') : extractNamedParameters d = extractNamedParameters d' := by
  unfold extractNamedParameters
  rw [numObjs_filter (fun o ho => by rw [ho.2.1]; rfl) h]

theorem recalculate_rel {P : PipelineEnv} (hord : ∀ d, P.ord (u.ds d) = P.ord d) {d d' : Dataset} (h : RD u nr All d d') :
    ER (RD u nr All) (recalculateO P.M P.F P.ord d) (recalculateO P.M P.F P.ord d') := by
  unfold recalculateO
  rw [show P.ord d' = P.ord d by rw [h.eq trivial, hord]]
  refine (ER.refl _).bind ?_
  rintro o _ rfl
  unfold recalculate
  rw [extract_rel h]
  refine (ER.refl _).bind ?_
  rintro σ _ rfl
  refine (dataset_mapNumE (fun o ho => ?_) h).bind fun _ _ h' => dataset_mapNumE (plain_repair _) h'
  unfold recalcObj
  rw [ho.1, ho.2.1]

theorem subdivided_rel (hu : u.Proper) {d d' : Dataset} (h : RD u nr K d d') {e e' : Exchange} (he : RE u nr e e') (ht : e.type = .referenceProduct) :
    RD u nr K (subdivided d e) (subdivided d' e') := by
  refine h.setEx (List.rel_append (List.rel_append (.cons ?_ .nil) ?_) ?_)
  · have hf := he.flow (by simp [ht]) (by simp [ht])
    exact ⟨⟨⟨fun hn => absurd hf hn, he.1.1.pv, he.1.1.price⟩, he.1.2⟩, by rw [he.2]; rfl⟩
  · refine map_rel (fun x x' hx => ?_) (filter_rel (fun x x' hx => ?_) h.exs)
    · have ht' : x.type = .referenceProduct := by
        have := hx.2
        simp only [Bool.and_eq_true, beq_iff_eq] at this
        exact this.1
      exact nonreference_rel hx.1 (hx.1.flow (by simp [ht']) (by simp [ht']))
    · rw [hx.type, bne_rel hu hx he]
  · exact forall₂_imp (fun _ _ h => h.1) (filter_rel (fun x x' hx => by rw [hx.type]) h.exs)

theorem combined_rel (hu : u.Proper) {P : PipelineEnv} (hord : ∀ d, P.ord (u.ds d) = P.ord d) {d d' : Dataset} (h : RD u nr All d d') :
    ER (List.Forall₂ (RD u nr All)) (combinedProduction P.M P.F P.ord d) (combinedProduction P.M P.F P.ord d') := by
  unfold combinedProduction nonzeroReferenceProducts
  refine ER.mapE (filter_rel (fun e e' he => ?_) h.exs) fun e e' he => recalculate_rel hord (subdivided_rel hu h he.1 ?_)
  · rw [he.type]
    congr 1
    rw [Bool.eq_iff_iff]
    simp [he.zero hu]
  · have := he.2
    simp only [Bool.and_eq_true, beq_iff_eq] at this
    exact this.1

set_option maxRecDepth 8000 in
theorem confidential_from : ∀ n ∈ confidentialNames, ¬ (", from ".toList <:+: n.toList) := by decide

theorem RD.rename {d d' : Dataset} (h : RD u nr K d d') (s : String) :
    RD u nr K { d with name := d.name ++ ", from " ++ s } { d' with name := d'.name ++ ", from " ++ s } := by
  obtain ⟨ex', s', rfl, hex, -, hs⟩ := h
  refine ⟨ex', s', rfl, hex, ?_, hs⟩
  intro hn
  refine confidential_from _ hn ?_
  simp only [String.toList_append]
  exact ⟨d.name.toList, s.toList, rfl⟩

theorem split_rel (hu : u.Proper) (M : MathEnv) {d d' : Dataset} (h : RD u nr K d d') :
    ER (List.Forall₂ (RD u nr K)) (handleSplitDataset M d) (handleSplitDataset M d') := by
  unfold handleSplitDataset
  refine (single_rel h).bind ?_
  rintro p p' ⟨hp, -⟩
  rw [← hp.cls]
  unfold splitBy
  rw [← hp.name]
  cases p.cls with
  | none => exact rfl
  | some c =>
    cases c
    · exact rfl
    · exact waste_rel hu M h
    · exact recycling_rel hu M (h.rename _)

theorem withoutProducts_rel (hu : u.Proper) {P : PipelineEnv} (hord : ∀ d, P.ord (u.ds d) = P.ord d) {d d' : Dataset} (h : RD u nr All d d') :
    ER (List.Forall₂ (RD u nr All)) (combinedWithoutProducts P.M P.F P.ord d) (combinedWithoutProducts P.M P.F P.ord d') :=
  (combined_rel hu hord h).bind fun _ _ hl => ER.flatMapE hl fun _ _ h' => split_rel hu P.M h'

theorem idAmount_rel {d d' : Dataset} (h : RD u nr K d d') (i : String) : idAmount d' i = u.flow i * idAmount d i := by
  unfold idAmount
  have h1 := lookup_rel (R := fun (i : String) (a b : ℚ) => b = u.flow i * a) (dictOf_rel (Q := fun (i : String) (a b : ℚ) => b = u.flow i * a) (fun e e' (he : RE u nr e e') => he.id) (val := fun e => e.amount) (val' := fun e => e.amount) (fun e e' he => by rw [he.2]; rfl) h.exs) i
  revert h1
  generalize List.lookup i (dictOf (fun e : Exchange => e.id) (fun e => e.amount) d.exchanges) = o
  generalize List.lookup i (dictOf (fun e : Exchange => e.id) (fun e => e.amount) d'.exchanges) = o'
  intro h1
  cases h1 with
  | none => simp
  | some h => simp [h]

theorem addExchanges_rel {t t' d d' : Dataset} (ht : RD u nr K t t') (hd : RD u nr K d d') : RD u nr K (addExchanges t d) (addExchanges t' d') :=
  ht.mapEx fun e e' he => by
    have ha : e'.amount + idAmount d' e'.id = u.flow e.id * (e.amount + idAmount d e.id) := by
      rw [idAmount_rel hd, ← he.id, he.2, mul_add]
      rfl
    unfold addTo
    by_cases hr : e.type = .referenceProduct
    · rw [if_pos hr, if_pos (he.type ▸ hr), ha]
      have hf := he.flow (by simp [hr]) (by simp [hr])
      exact ⟨⟨⟨fun hn => absurd hf hn, he.1.1.pv, he.1.1.price⟩, he.1.2⟩, by rw [he.2]; rfl⟩
    · rw [if_neg hr, if_neg (he.type ▸ hr), ha]
      exact ⟨⟨⟨he.1.1.flow, he.1.1.pv, he.1.1.price⟩, he.1.2⟩, by rw [he.2]; rfl⟩

theorem mergeGroup_rel {l l' : List Dataset} (hl : List.Forall₂ (RD u nr K) l l') : List.Forall₂ (RD u nr K) (mergeGroup l) (mergeGroup l') := by
  cases hl with
  | nil => exact .nil
  | @cons a b l l' hab hl =>
    refine .cons ?_ .nil
    induction hl generalizing a b with
    | nil => exact hab
    | cons h _ ih => exact ih (addExchanges_rel hab h)

theorem grouper_rel {d d' : Dataset} (h : RD u nr K d d') : activityGrouper d = activityGrouper d' := by
  unfold activityGrouper extractProductsAsTuple
  rw [h.name]
  refine ER.eq ((((allocatableProduction_rel h).bind (Q := Eq) fun l l' hl => ?_)).bind ?_)
  · rw [map_eq_rel (fun e e' he => RE.name he.1) hl]
    exact ER.refl _
  · rintro a _ rfl
    exact ER.refl _

theorem merge_rel {l l' : List Dataset} (hl : List.Forall₂ (RD u nr K) l l') :
    ER (List.Forall₂ (RD u nr K)) (mergeByproducts l) (mergeByproducts l') := by
  unfold mergeByproducts
  rw [ER.forE hl fun d d' hd => by unfold checkMergeable; rw [any_allocatable_rel hd.exs]]
  refine (ER.refl _).bind fun _ _ _ => ?_
  refine (ER.mapE (Q := fun p p' => p.1 = p'.1 ∧ RD u nr K p.2 p'.2) hl fun d d' hd => ?_).bind fun k k' hk => ?_
  · unfold withKey
    rw [grouper_rel hd]
    refine (ER.refl _).bind ?_
    rintro a _ rfl
    exact ⟨rfl, hd⟩
  · have h1 := groupBy_rel (fun p p' h => h.1) hk
    refine ER.ok (?_ : List.Forall₂ (RD u nr K) _ _)
    revert h1
    generalize groupBy (fun p : (String × List String) × Dataset => p.1) k = g
    generalize groupBy (fun p : (String × List String) × Dataset => p.1) k' = g'
    intro h1
    induction h1 with
    | nil => exact .nil
    | cons h _ ih => exact List.rel_append (mergeGroup_rel (map_rel (fun _ _ h => h.2) h.2)) ih

theorem withByproducts_rel (hu : u.Proper) {P : PipelineEnv} (hord : ∀ d, P.ord (u.ds d) = P.ord d) {d d' : Dataset} (h : RD u nr All d d') :
    ER (List.Forall₂ (RD u nr All)) (combinedWithByproducts P.M P.F P.ord d) (combinedWithByproducts P.M P.F P.ord d') :=
  (combined_rel hu hord h).bind fun _ _ hl => (ER.flatMapE hl fun _ _ h' => economic_rel hu P.M h').bind fun _ _ ha => merge_rel ha

/-! ## Allocation -/

theorem noAllocation_rel {d d' : Dataset} (h : RD u nr K d d') : ER (List.Forall₂ (RD u nr K)) (noAllocation d) (noAllocation d') := by
  unfold noAllocation checkSingleOutputActivity
  rw [any_allocatable_rel h.exs, (referenceProducts_rel h).length_eq]
  exact (ER.refl _).bind fun _ _ _ => List.Forall₂.cons h .nil

theorem datasetMethod_rel (hu : u.Proper) {P : PipelineEnv} (hord : ∀ d, P.ord (u.ds d) = P.ord d) (label : String) {d d' : Dataset} (h : RD u nr All d d') :
    ER (List.Forall₂ (RD u nr All)) (datasetMethod P.M P.F P.ord label d) (datasetMethod P.M P.F P.ord label d') := by
  unfold datasetMethod
  repeat' split
  · exact noAllocation_rel h
  · exact noAllocation_rel h
  · exact economic_rel hu P.M h
  · exact recycling_rel hu P.M h
  · exact waste_rel hu P.M h
  · exact withoutProducts_rel hu hord h
  · exact combined_rel hu hord h
  · exact withByproducts_rel hu hord h
  · exact rfl

/-- Related elements. -/
inductive RI (u : Spec.Units) (nr : Bool) (K : DsType → Prop) : Item → Item → Prop
  | ds {d d'} (h : RD u nr K d d') : RI u nr K (.ds d) (.ds d')
  | str (s) : RI u nr K (.str s) (.str s)

theorem refl_str (l : List String) : List.Forall₂ (RI u nr K) (l.map .str) (l.map .str) := by
  induction l with
  | nil => exact .nil
  | cons s l ih => exact .cons (.str s) ih

theorem methodStep_rel (hu : u.Proper) {P : PipelineEnv} (hord : ∀ d, P.ord (u.ds d) = P.ord d) (label : String) {i i' : Item} (h : RI u nr All i i') :
    ER (List.Forall₂ (RI u nr All)) (methodStep P.M P.F P.ord label i) (methodStep P.M P.F P.ord label i') := by
  cases h with
  | str s => exact rfl
  | @ds d d' h =>
    unfold methodStep
    simp only
    rw [← h.method]
    refine (ER.refl _).bind ?_
    rintro m _ rfl
    by_cases hm : m = label
    · rw [if_pos hm, if_pos hm]
      unfold allocationMethod
      split
      · exact refl_str _
      · exact (datasetMethod_rel hu hord label h).bind fun l l' hl => map_rel (fun _ _ h => .ds h) hl
    · rw [if_neg hm, if_neg hm]
      exact List.Forall₂.cons (.ds h) .nil

theorem anyProduction_rel {p p' : Exchange → Bool} {l l' : List Exchange} (h : List.Forall₂ (RE u nr) l l')
    (hp : ∀ e e', RE u nr e e' → p e = p' e') : anyProduction p l = anyProduction p' l' := by
  induction h with
  | nil => rfl
  | cons he _ ih => unfold anyProduction; rw [he.allocatable, hp _ _ he, ih]

theorem chooseMethod_rel (hu : u.Proper) {d d' : Dataset} (h : RD u nr K d d') : chooseAllocationMethod d = chooseAllocationMethod d' := by
  unfold chooseAllocationMethod
  have hz : ∀ e e', RE u nr e e' → (e.amount != 0) = (e'.amount != 0) := fun e e' he => by
    rw [Bool.eq_iff_iff]; simp [he.zero hu]
  rw [anyProduction_rel h.exs (p' := fun e => e.type == .byproduct && e.amount != 0) fun e e' he => by rw [he.type, hz e e' he],
    anyProduction_rel h.exs (p' := fun e => e.type == .referenceProduct && e.cls == some .allocatable) fun e e' he => by rw [he.type, he.cls],
    any_rel (q := fun e => e.type == .referenceProduct && decide (e.amount < 0)) (fun e e' he => by rw [he.type]; congr 1; simp [he.neg hu]) h.exs,
    any_rel (q := fun e => e.conditional == some true) (fun e e' he => by rw [he.conditional]) h.exs,
    map_eq_rel (l' := d'.exchanges.filter fun e => e.type == .referenceProduct && e.amount != 0) (g := fun e => e.cls) (fun e e' he => RE.cls he.1)
      (filter_rel (fun e e' he => by rw [he.type, hz e e' he]) h.exs), h.type, h.name]

theorem resp_label (hu : u.Proper) : Resp u nr K labelAllocationMethod :=
  resp_mapE fun d d' hd => by
    rw [chooseMethod_rel hu hd]
    refine (ER.refl _).bind ?_
    rintro m _ rfl
    obtain ⟨ex', s', rfl, hex, hn, hs⟩ := hd
    exact ⟨ex', s', rfl, hex, hn, hs⟩

theorem deleteMethod_rel {i i' : Item} (h : RI u nr K i i') : ER (RI u nr K) (deleteAllocationMethod i) (deleteAllocationMethod i') := by
  cases h with
  | str s =>
    unfold deleteAllocationMethod
    exact ER.ite Iff.rfl (fun _ => rfl) fun _ => RI.str s
  | ds h =>
    obtain ⟨ex', s', rfl, hex, hn, hs⟩ := h
    exact RI.ds ⟨ex', s', rfl, hex, hn, hs⟩

/-! ## Consequential functions -/

theorem resp_split (hu : u.Proper) {P : PipelineEnv} (hord : ∀ d, P.ord (u.ds d) = P.ord d) :
    Resp u nr All (wrapFiltered (fun d => .ok (multiRp d)) (combinedProduction P.M P.F P.ord)) := by
  intro l l' hl
  unfold wrapFiltered
  refine ER.flatMapE hl fun d d' hd => ?_
  have : multiRp d = multiRp d' := by unfold multiRp; rw [(referenceProducts_rel hd).length_eq]
  simp only [this]
  refine (ER.refl _).bind ?_
  rintro b _ rfl
  cases b
  · exact List.Forall₂.cons hd .nil
  · exact combined_rel hu hord hd

theorem RE.inputType {e e' : Exchange} (h : RE u nr e e') (hf : u.flow e.id = 1) (t : ExcType) (ht : t ≠ .byproduct) (c : Option Cls) :
    RE u nr (flipSign { e with type := t, cls := c }) (flipSign { e' with type := t, cls := c }) :=
  ⟨⟨⟨fun hn => absurd hf hn, h.1.1.pv, h.1.1.price⟩, by rintro - ⟨h', -⟩; exact ht h'⟩, by
    rw [h.2]
    simp [flipSign, Spec.Units.exc, hf]⟩

theorem toInput_rel {e e' : Exchange} (h : RE u nr e e') (hf : u.flow e.id = 1) : RE u nr (toInput e) (toInput e') := by
  have := h.inputType hf .fromTechnosphere (by simp) e.cls
  unfold toInput
  rw [show ({ e' with type := .fromTechnosphere } : Exchange) = { e' with type := .fromTechnosphere, cls := e.cls } by rw [h.cls]]
  exact this

theorem toProduct_rel {e e' : Exchange} (h : RE u nr e e') (hf : u.flow e.id = 1) : RE u nr (toProduct e) (toProduct e') :=
  h.inputType hf .referenceProduct (by simp) (some .allocatable)

theorem mem_rel {α β : Type} {R : α → β → Prop} {l : List α} {l' : List β} (h : List.Forall₂ R l l') : List.Forall₂ (fun a b => R a b ∧ a ∈ l) l l' := by
  induction h with
  | nil => exact .nil
  | cons hab _ ih => exact .cons ⟨hab, by simp⟩ (forall₂_imp (fun _ _ h => ⟨h.1, by simp [h.2]⟩) ih)

theorem swap_rel (name : String) {d d' : Dataset} (h : RD u nr K d d') : ER (RD u nr K) (swapRoles name d) (swapRoles name d') := by
  unfold swapRoles
  refine (single_rel h).bind fun _ _ _ => ?_
  have ht : List.Forall₂ (RE u nr) (d.exchanges.map fun e => if e.type = .referenceProduct then toInput e else e)
      (d'.exchanges.map fun e => if e.type = .referenceProduct then toInput e else e) := map_rel (fun e e' he => by
    by_cases hr : e.type = .referenceProduct
    · rw [if_pos hr, if_pos (he.type ▸ hr)]
      exact toInput_rel he (he.flow (by simp [hr]) (by simp [hr]))
    · rw [if_neg hr, if_neg (he.type ▸ hr)]
      exact he) h.exs
  simp only
  revert ht
  generalize (d.exchanges.map fun e => if e.type = .referenceProduct then toInput e else e) = t
  generalize (d'.exchanges.map fun e => if e.type = .referenceProduct then toInput e else e) = t'
  intro ht
  have hf := filter_rel (p := fun e => e.name == name) (q := fun e => e.name == name) (fun e e' he => by rw [RE.name he]) ht
  have hm : ∀ x ∈ t, x.name = name → x ∈ t.filter fun e => e.name == name := fun x hx hn => List.mem_filter.mpr ⟨hx, by simpa using hn⟩
  revert hf hm
  generalize (t.filter fun e => e.name == name) = r
  generalize (t'.filter fun e => e.name == name) = r'
  intro hf hm
  cases hf with
  | nil => exact rfl
  | @cons a b l l' hab hl =>
    cases hl with
    | cons _ _ => exact rfl
    | nil =>
      simp only
      rw [← hab.1.type]
      split
      · next hty =>
        refine ER.ok (h.setEx (map_rel (fun x x' hx => ?_) (mem_rel ht)))
        by_cases hn : x.name = name
        · have : x = a := by simpa using hm x hx.2 hn
          rw [if_pos hn, if_pos (hx.1.name ▸ hn)]
          exact toProduct_rel hx.1 (hx.1.flow (by simp [this, hty]) (by simp [this, hty]))
        · rw [if_neg hn, if_neg (hx.1.name ▸ hn)]
          exact hx.1
      · exact rfl

theorem modify_rel {α β : Type} {R : α → β → Prop} {f : α → α} {g : β → β} (hf : ∀ a b, R a b → R (f a) (g b)) {l : List α} {l' : List β}
    (h : List.Forall₂ R l l') (i : ℕ) : List.Forall₂ R (l.modify i f) (l'.modify i g) := by
  induction h generalizing i with
  | nil => cases i <;> exact .nil
  | cons hab hl ih =>
    cases i with
    | zero => exact .cons (hf _ _ hab) hl
    | succ i => exact .cons hab (ih i)

theorem zipIdx_rel {α β : Type} {R : α → β → Prop} {l : List α} {l' : List β} (h : List.Forall₂ R l l') (n : ℕ) :
    List.Forall₂ (fun p p' => p.2 = p'.2 ∧ R p.1 p'.1) (l.zipIdx n) (l'.zipIdx n) := by
  induction h generalizing n with
  | nil => exact .nil
  | cons hab _ ih => exact .cons ⟨rfl, hab⟩ (ih (n + 1))

end Units
end Ocelot
