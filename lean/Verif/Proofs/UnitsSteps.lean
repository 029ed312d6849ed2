import Verif.Proofs.UnitsBase
import Mathlib.Data.List.Sort
import Mathlib.Algebra.Order.Ring.Abs

/-! The functions before allocation respect a change of units. -/

namespace Ocelot
namespace Units
open Spec

variable {u : Spec.Units} {nr : Bool} {K : DsType → Prop}

/-- The function respects a change of units. -/
def Resp (u : Spec.Units) (nr : Bool) (K : DsType → Prop) (f : List Dataset → Except Err (List Dataset)) : Prop :=
  ∀ l l', List.Forall₂ (RD u nr K) l l' → ER (List.Forall₂ (RD u nr K)) (f l) (f l')

theorem resp_mapE {f : Dataset → Except Err Dataset} (h : ∀ d d', RD u nr K d d' → ER (RD u nr K) (f d) (f d')) : Resp u nr K (mapE f) :=
  fun _ _ hl => ER.mapE hl h

theorem resp_map {f : Dataset → Dataset} (h : ∀ d d', RD u nr K d d' → RD u nr K (f d) (f d')) : Resp u nr K (fun l => .ok (l.map f)) :=
  fun _ _ hl => map_rel h hl

/-- A check that gives the same for both. -/
theorem resp_check {f : List Dataset → Except Err Unit} (h : ∀ l l', List.Forall₂ (RD u nr K) l l' → f l = f l') :
    Resp u nr K (fun l => do f l; return l) := by
  intro l l' hl
  simp only
  rw [h l l' hl]
  exact (ER.refl _).bind fun _ _ _ => hl

theorem RD.exs {d d' : Dataset} (h : RD u nr K d d') : List.Forall₂ (RE u nr) d.exchanges d'.exchanges := by
  obtain ⟨ex', s', rfl, hex, -⟩ := h; exact hex

theorem RD.name {d d' : Dataset} (h : RD u nr K d d') : d.name = d'.name := by obtain ⟨_, _, rfl, -⟩ := h; rfl
theorem RD.type {d d' : Dataset} (h : RD u nr K d d') : d.type = d'.type := by obtain ⟨_, _, rfl, -⟩ := h; rfl
theorem RD.id {d d' : Dataset} (h : RD u nr K d d') : d.id = d'.id := by obtain ⟨_, _, rfl, -⟩ := h; rfl
theorem RD.location {d d' : Dataset} (h : RD u nr K d d') : d.location = d'.location := by obtain ⟨_, _, rfl, -⟩ := h; rfl
theorem RD.refProduct {d d' : Dataset} (h : RD u nr K d d') : d.refProduct = d'.refProduct := by obtain ⟨_, _, rfl, -⟩ := h; rfl
theorem RD.code {d d' : Dataset} (h : RD u nr K d d') : d.code = d'.code := by obtain ⟨_, _, rfl, -⟩ := h; rfl
theorem RD.level {d d' : Dataset} (h : RD u nr K d d') : d.technologyLevel = d'.technologyLevel := by obtain ⟨_, _, rfl, -⟩ := h; rfl
theorem RD.method {d d' : Dataset} (h : RD u nr K d d') : d.allocationMethod = d'.allocationMethod := by obtain ⟨_, _, rfl, -⟩ := h; rfl
theorem RD.confidential {d d' : Dataset} (h : RD u nr K d d') : d.name ∉ confidentialNames := by obtain ⟨_, _, rfl, -, hn, -⟩ := h; exact hn

/-- Other exchanges in the same datasets. -/
theorem RD.setEx {d d' : Dataset} (h : RD u nr K d d') {ex ex' : List Exchange} (hex : List.Forall₂ (RE u nr) ex ex') :
    RD u nr K { d with exchanges := ex } { d' with exchanges := ex' } := by
  obtain ⟨_, s', rfl, -, hn, hs⟩ := h
  exact ⟨ex', s', rfl, hex, hn, hs⟩

theorem RD.mapEx {d d' : Dataset} (h : RD u nr K d d') {f g : Exchange → Exchange} (hf : ∀ e e', RE u nr e e' → RE u nr (f e) (g e')) :
    RD u nr K { d with exchanges := d.exchanges.map f } { d' with exchanges := d'.exchanges.map g } :=
  h.setEx (map_rel hf h.exs)

theorem RD.filterEx {d d' : Dataset} (h : RD u nr K d d') {p : Exchange → Bool} (hp : ∀ e e', RE u nr e e' → p e = p e') :
    RD u nr K { d with exchanges := d.exchanges.filter p } { d' with exchanges := d'.exchanges.filter p } :=
  h.setEx (forall₂_imp (fun _ _ h => h.1) (filter_rel hp h.exs))

theorem RD.mapExE {d d' : Dataset} (h : RD u nr K d d') {f : Exchange → Except Err Exchange} (hf : ∀ e e', RE u nr e e' → ER (RE u nr) (f e) (f e')) :
    ER (RD u nr K) (mapExchangesE f d) (mapExchangesE f d') :=
  (ER.mapE h.exs hf).bind fun _ _ hex => h.setEx hex

/-! ## Fields of exchanges -/

theorem RE.type {e e' : Exchange} (h : RE u nr e e') : e.type = e'.type := by rw [h.2]; rfl
theorem RE.name {e e' : Exchange} (h : RE u nr e e') : e.name = e'.name := by rw [h.2]; rfl
theorem RE.id {e e' : Exchange} (h : RE u nr e e') : e.id = e'.id := by rw [h.2]; rfl
theorem RE.cls {e e' : Exchange} (h : RE u nr e e') : e.cls = e'.cls := by rw [h.2]; rfl
theorem RE.link {e e' : Exchange} (h : RE u nr e e') : e.activityLink = e'.activityLink := by rw [h.2]; rfl
theorem RE.code {e e' : Exchange} (h : RE u nr e e') : e.code = e'.code := by rw [h.2]; rfl
theorem RE.conditional {e e' : Exchange} (h : RE u nr e e') : e.conditional = e'.conditional := by rw [h.2]; rfl
theorem RE.pv {e e' : Exchange} (h : RE u nr e e') : e'.pv = e.pv.map u.pv := by rw [h.2]; rfl
theorem RE.isNone {e e' : Exchange} (h : RE u nr e e') : e.pv.isNone = e'.pv.isNone := by rw [h.pv]; cases e.pv <;> rfl

theorem RE.pvRel {e e' : Exchange} (h : RE u nr e e') : Option.Rel (fun p p' => PlainObj p.toNumObj ∧ p' = u.pv p) e.pv e'.pv := by
  rw [h.pv]
  cases hp : e.pv with
  | none => exact .none
  | some p => exact .some ⟨h.1.1.pv p hp, rfl⟩

theorem RE.zero (hu : u.Proper) {e e' : Exchange} (h : RE u nr e e') : e.amount = 0 ↔ e'.amount = 0 := by
  rw [h.2]
  simp [Spec.Units.exc, (hu.flow e.id).ne']

theorem RE.nonpos (hu : u.Proper) {e e' : Exchange} (h : RE u nr e e') : e.amount ≤ 0 ↔ e'.amount ≤ 0 := by
  rw [h.2]
  exact (mul_nonpos_iff_pos_imp_nonpos.trans ⟨fun h' => h'.1 (hu.flow e.id), fun h' => ⟨fun _ => h', fun _ => (hu.flow e.id).le⟩⟩).symm

theorem mul_neg_iff_of_pos_left' {a b : ℚ} (h : 0 < a) : a * b < 0 ↔ b < 0 := by
  rw [mul_neg_iff]
  constructor
  · rintro (h' | h')
    · exact h'.2
    · exact absurd h (not_lt.mpr h'.1.le)
  · exact fun h' => .inl ⟨h, h'⟩

theorem RE.neg (hu : u.Proper) {e e' : Exchange} (h : RE u nr e e') : e.amount < 0 ↔ e'.amount < 0 := by
  rw [h.2]
  exact (mul_neg_iff_of_pos_left' (hu.flow e.id)).symm

theorem RE.allocatable {e e' : Exchange} (h : RE u nr e e') : isAllocatable e = isAllocatable e' := by rw [h.2]; rfl

/-- Production exchanges are not elementary flows. -/
theorem production_type {e : Exchange} (h : isAllocatable e = .ok true) : e.type = .referenceProduct ∨ e.type = .byproduct := by
  unfold isAllocatable at h
  cases ht : e.type <;> simp_all

theorem RE.amountP {e e' : Exchange} (h : RE u nr e e') (ha : isAllocatable e = .ok true) : e'.amount = e.amount := by
  rcases production_type ha with ht | ht <;> exact h.amount (by simp [ht]) (by simp [ht])

theorem allocatableProduction_rel {d d' : Dataset} (h : RD u nr K d d') :
    ER (List.Forall₂ fun e e' => RE u nr e e' ∧ isAllocatable e = .ok true) (allocatableProduction d) (allocatableProduction d') :=
  ER.filterE h.exs fun _ _ => RE.allocatable

theorem nonproduction_rel {d d' : Dataset} (h : RD u nr K d d') :
    ER (List.Forall₂ (RE u nr)) (nonproductionExchanges d) (nonproductionExchanges d') :=
  (ER.filterE h.exs fun _ _ he => by rw [he.allocatable]).mono fun _ _ hl => forall₂_imp (fun _ _ h => h.1) hl

theorem referenceProducts_rel {d d' : Dataset} (h : RD u nr K d d') :
    List.Forall₂ (fun e e' => RE u nr e e' ∧ e.type = .referenceProduct) (referenceProducts d) (referenceProducts d') :=
  forall₂_imp (fun _ _ h => ⟨h.1, by simpa using h.2⟩) (filter_rel (fun _ _ he => by rw [RE.type he]) h.exs)

theorem single_rel {d d' : Dataset} (h : RD u nr K d d') :
    ER (fun e e' => RE u nr e e' ∧ e.type = .referenceProduct) (getSingleReferenceProduct d) (getSingleReferenceProduct d') := by
  unfold getSingleReferenceProduct
  have := referenceProducts_rel h
  revert this
  generalize referenceProducts d = l
  generalize referenceProducts d' = l'
  intro hl
  cases hl with
  | nil => exact rfl
  | cons hab hl =>
    cases hl with
    | nil => exact hab
    | cons _ _ => exact rfl

theorem any_allocatable_rel {l l' : List Exchange} (h : List.Forall₂ (RE u nr) l l') : anyAllocatableByproduct l = anyAllocatableByproduct l' := by
  induction h with
  | nil => rfl
  | cons hab _ ih => unfold anyAllocatableByproduct; rw [hab.type, hab.cls, ih]

/-! ## Numbers without parameterization -/

theorem exchange_mapNumE {f : NumObj → Except Err NumObj} (hf : ∀ o, PlainObj o → f o = .ok o) {e e' : Exchange} (h : RE u nr e e') :
    ER (RE u nr) (Exchange.mapNumE f e) (Exchange.mapNumE f e') := by
  obtain ⟨h1, rfl⟩ := h
  have hpv : ∀ p : PV, e.pv = some p → mapPvE f e.pv = .ok e.pv ∧ mapPvE f (u.exc e).pv = .ok (u.exc e).pv := by
    intro p hp
    have h2 := hf _ (h1.1.pv p hp)
    have h3 : f (u.pv p).toNumObj = .ok (u.pv p).toNumObj := hf _ (h1.1.pv p hp)
    simp [mapPvE, Spec.Units.exc, hp, h2, h3]
  have hpv' : mapPvE f e.pv = .ok e.pv ∧ mapPvE f (u.exc e).pv = .ok (u.exc e).pv := by
    cases hp : e.pv with
    | none => simp [mapPvE, Spec.Units.exc, hp]
    | some p => rw [← hp]; exact hpv p hp
  have hprops : ∀ l : List Prop', (∀ p ∈ l, p.name = "price" → PlainObj p.toNumObj) →
      ER (fun l l' => (∀ p ∈ l, p.name = "price" → PlainObj p.toNumObj) ∧ l' = l.map u.prop)
        (mapE (fun p : Prop' => do let q ← f p.toNumObj; return { p with toNumObj := q }) l)
        (mapE (fun p : Prop' => do let q ← f p.toNumObj; return { p with toNumObj := q }) (l.map u.prop)) := by
    intro l
    induction l with
    | nil => intro _; exact ⟨by simp, rfl⟩
    | cons p l ih =>
      intro hl
      have ih' := ih fun p hp => hl p (by simp [hp])
      by_cases hn : p.name = "price"
      · have hp := hl p (by simp) hn
        have hp' : PlainObj (u.prop p).toNumObj := hp
        simp only [List.map_cons, mapE, hf _ hp, hf _ hp', ebind_ok]
        refine ih'.bind ?_
        rintro r _ ⟨hr, rfl⟩
        exact ⟨by intro q hq; rcases List.mem_cons.mp hq with rfl | hq; exacts [fun _ => hp, hr q hq], rfl⟩
      · have hp : (u.prop p).toNumObj = p.toNumObj := by simp [Spec.Units.prop, hn]
        simp only [List.map_cons, mapE, hp]
        cases f p.toNumObj with
        | error e => exact rfl
        | ok q =>
          simp only [ebind_ok, epure]
          refine ih'.bind ?_
          rintro r _ ⟨hr, rfl⟩
          refine ⟨?_, ?_⟩
          · intro q hq
            rcases List.mem_cons.mp hq with rfl | hq
            · exact fun h' => absurd h' hn
            · exact hr q hq
          · simp [Spec.Units.prop, hn]
  unfold Exchange.mapNumE
  rw [hpv'.1, hpv'.2]
  have hprops' := hprops e.properties h1.1.price
  by_cases hflow : u.flow e.id = 1
  · have : (u.exc e).toNumObj = e.toNumObj := by simp [Spec.Units.exc, hflow]
    rw [this]
    cases f e.toNumObj with
    | error er => exact rfl
    | ok o =>
      simp only [ebind_ok]
      refine hprops'.bind ?_
      rintro r _ ⟨hr, rfl⟩
      refine ⟨⟨⟨fun hn => absurd hflow hn, h1.1.pv, hr⟩, h1.2⟩, ?_⟩
      simp [Spec.Units.exc, hflow]
  · have hp := (h1.1.flow hflow).2.1
    have hp' : PlainObj (u.exc e).toNumObj := hp
    rw [hf _ hp, hf _ hp']
    simp only [ebind_ok]
    refine hprops'.bind ?_
    rintro r _ ⟨hr, rfl⟩
    exact ⟨⟨⟨h1.1.flow, h1.1.pv, hr⟩, h1.2⟩, rfl⟩

theorem dataset_mapNumE {f : NumObj → Except Err NumObj} (hf : ∀ o, PlainObj o → f o = .ok o) {d d' : Dataset} (h : RD u nr K d d') :
    ER (RD u nr K) (d.mapNumE f) (d'.mapNumE f) := by
  obtain ⟨ex', s', rfl, hex, hn, hs⟩ := h
  unfold Dataset.mapNumE
  refine (ER.mapE hex fun _ _ => exchange_mapNumE hf).bind fun ex1 ex2 hex' => ?_
  refine (ER.refl _).bind ?_
  rintro ps _ rfl
  exact ⟨ex2, s', rfl, hex', hn, hs⟩

/-- The numbers that take part in parameterization are the same. -/
theorem numObjs_filter {q : NumObj → Bool} (hq : ∀ o, PlainObj o → q o = false) {d d' : Dataset} (h : RD u nr K d d') :
    d.numObjs.filter q = d'.numObjs.filter q := by
  obtain ⟨ex', s', rfl, hex, -, -⟩ := h
  unfold Dataset.numObjs
  rw [List.filter_append, List.filter_append]
  congr 1
  have hprops : ∀ l : List Prop', (∀ p ∈ l, p.name = "price" → PlainObj p.toNumObj) →
      (l.map Prop'.toNumObj).filter q = ((l.map u.prop).map Prop'.toNumObj).filter q := by
    intro l
    induction l with
    | nil => intro _; rfl
    | cons p l ih =>
      intro hl
      have ih' := ih fun p hp => hl p (by simp [hp])
      simp only [List.map_cons, List.filter_cons]
      by_cases hn : p.name = "price"
      · have hp := hl p (by simp) hn
        have hp' : PlainObj (u.prop p).toNumObj := hp
        rw [hq _ hp, hq _ hp']
        simpa using ih'
      · have hp : (u.prop p).toNumObj = p.toNumObj := by simp [Spec.Units.prop, hn]
        rw [hp, ih']
  have hone : ∀ e e', RE u nr e e' → e.numObjs.filter q = e'.numObjs.filter q := by
    rintro e _ ⟨h1, rfl⟩
    have h2 : (u.exc e).numObjs = (u.exc e).toNumObj :: ((e.pv.map u.pv).toList.map PV.toNumObj ++ (e.properties.map u.prop).map Prop'.toNumObj) := rfl
    rw [h2]
    unfold Exchange.numObjs
    rw [List.filter_cons, List.filter_cons, List.filter_append, List.filter_append, hprops _ h1.1.price]
    have h3 : (e.pv.toList.map PV.toNumObj).filter q = ((e.pv.map u.pv).toList.map PV.toNumObj).filter q := by
      cases hp : e.pv with
      | none => rfl
      | some p =>
        have h4 := hq _ (h1.1.pv p hp)
        have h5 : q (u.pv p).toNumObj = false := hq _ (h1.1.pv p hp)
        simp [h4, h5]
    rw [h3]
    by_cases hflow : u.flow e.id = 1
    · have : (u.exc e).toNumObj = e.toNumObj := by simp [Spec.Units.exc, hflow]
      rw [this]
    · have hp := (h1.1.flow hflow).2.1
      have hp' : q (u.exc e).toNumObj = false := hq _ hp
      rw [hq _ hp, hp']
      rfl
  have hall : ∀ l l', List.Forall₂ (RE u nr) l l' → (l.flatMap Exchange.numObjs).filter q = (l'.flatMap Exchange.numObjs).filter q := by
    intro l l' hl
    induction hl with
    | nil => rfl
    | cons hab _ ih => simp only [List.flatMap_cons, List.filter_append, hone _ _ hab, ih]
  exact hall _ _ hex

/-! ## Validation -/

theorem resp_ids : Resp u nr K ensureIdsAreUnique := by
  intro l l' hl
  unfold ensureIdsAreUnique
  rw [map_eq_rel (fun _ _ h => RD.id h) hl, hl.length_eq]
  split
  · exact rfl
  · exact hl

theorem resp_copyId : Resp u nr K (fun l => .ok (copyOriginalExchangeId l)) :=
  resp_map fun _ _ hd => hd.mapEx fun _ _ he =>
    ⟨⟨⟨he.1.1.flow, he.1.1.pv, he.1.1.price⟩, he.1.2⟩, by rw [he.2]; rfl⟩

theorem resp_variables : Resp u nr K variableNamesAreUnique :=
  resp_check fun _ _ hl => ER.forE hl fun _ _ hd => by
    rw [numObjs_filter (fun o ho => by simp [NumObj.isParam, ho.1, ho.2.1]) hd]

theorem markets_rel {l l' : List Dataset} (hl : List.Forall₂ (RD u nr K) l l') (t : DsType) :
    List.Forall₂ (fun d d' => RD u nr K d d' ∧ d.type = t) (l.filter fun d => d.type == t) (l'.filter fun d => d.type == t) :=
  forall₂_imp (fun _ _ h => ⟨h.1, by simpa using h.2⟩) (filter_rel (fun _ _ hd => by rw [RD.type hd]) hl)

theorem resp_oneProduct : Resp u nr K ensureMarketsOneProduct :=
  resp_check fun _ _ hl => ER.forE (markets_rel hl _) fun d d' hd => by
    have h := (referenceProducts_rel hd.1).length_eq
    unfold referenceProducts at h
    unfold checkOneReferenceProduct
    rw [h]

theorem resp_ownConsumption (hu : u.Proper) : Resp u nr K ensureMarketsNoOwnConsumption :=
  resp_check fun _ _ hl => ER.forE (markets_rel hl _) fun d d' hd => by
    have h := referenceProducts_rel hd.1
    unfold referenceProducts at h
    unfold checkOwnConsumption
    revert h
    generalize (d.exchanges.filter fun e => e.type == .referenceProduct) = r
    generalize (d'.exchanges.filter fun e => e.type == .referenceProduct) = r'
    intro h
    cases h with
    | nil => rfl
    | @cons rp rp' _ _ hab _ =>
      simp only
      rw [any_rel (fun e e' he => ?_) hd.1.exs]
      rw [he.name, hab.1.name, he.link]
      congr 2
      rw [Bool.eq_iff_iff]
      simp [he.eq_iff hu hab.1]

/-! ## Parameters -/

theorem fixSpecific_rel (hu : u.Proper) {d d' : Dataset} (h : RD u nr K d d') : RD u nr K (fixSpecificIssues d) (fixSpecificIssues d') := by
  unfold fixSpecificIssues
  by_cases hc : d.name = "petroleum refinery operation"
  · rw [if_pos hc, if_pos (h.name ▸ hc)]
    refine h.filterEx (p := fun e => decide (e.name ≠ "refinery gas") || decide (e.amount ≠ 0)) fun e e' he => ?_
    rw [Bool.eq_iff_iff]
    simp [he.zero hu, he.name]
  · rw [if_neg hc, if_neg (h.name ▸ hc)]
    exact h

theorem resp_fixSpecific (hu : u.Proper) : Resp u nr K (fun l => .ok (l.map fixSpecificIssues)) := resp_map fun _ _ => fixSpecific_rel hu

theorem plain_repair (M : MathEnv) (o : NumObj) (h : PlainObj o) : repair M o = .ok o := by
  unfold repair; rw [h.2.2]

theorem resp_repair (M : MathEnv) : Resp u nr K (mapE (repairAll M)) := resp_mapE fun _ _ hd => dataset_mapNumE (plain_repair M) hd

theorem plain_eq {o : NumObj} (h : PlainObj o) {f v : Option String} (hf : f = none) (hv : v = none) : { o with formula := f, var := v } = o := by
  obtain ⟨h1, h2, -⟩ := h
  cases o; simp_all

theorem resp_lowercase (lower : String → String) : Resp u nr K (mapE (lowercaseAllParameters lower)) :=
  resp_mapE fun _ _ hd => dataset_mapNumE (fun o ho => congrArg _ (plain_eq ho (by simp [ho.1]) (by simp [ho.2.1]))) hd

theorem plain_eq_formula {o : NumObj} (h : PlainObj o) {f : Option String} (hf : f = none) : { o with formula := f } = o := by
  obtain ⟨h1, -, -⟩ := h
  cases o; simp_all

theorem resp_fixMath (ws : Char → Bool) (num : Text → Option Text) : Resp u nr K (mapE (fixMathFormulas ws num)) :=
  resp_mapE fun _ _ hd => dataset_mapNumE (fun o ho => by unfold onFormula; rw [ho.1]) hd

theorem resp_reserved (words : List Text) (parses : Text → Bool) : Resp u nr K (mapE (replaceReservedWords words parses)) :=
  resp_mapE fun _ _ hd => dataset_mapNumE (fun o ho => congrArg _ (plain_eq ho (by simp [ho.1]) (by simp [ho.2.1]))) hd

theorem resp_unparsable (parses : Text → Bool) : Resp u nr K (mapE (deleteUnparsableFormulas parses)) :=
  resp_mapE fun _ _ hd => dataset_mapNumE (fun o ho => congrArg _ (plain_eq_formula ho (by simp [ho.1]))) hd

theorem resp_known : Resp u nr K (mapE fixKnownBadFormulas) :=
  resp_mapE fun _ _ hd => ER.foldE (refl_list _) hd fun s s' a b hs hab => by
    subst hab
    unfold fixKnownStep
    rw [hs.name]
    split
    · exact dataset_mapNumE (fun o ho => congrArg _ (plain_eq_formula ho (by simp [ho.1]))) hs
    · exact hs

/-! ## Production volumes -/

theorem resp_volumesGiven : Resp u nr K ensureVolumesGiven :=
  resp_check fun _ _ hl => ER.forE hl fun _ _ hd => ER.forE hd.exs fun _ _ he => by
    unfold checkVolumeGiven
    rw [he.allocatable, he.isNone]

/-- A number measured in other units of volume. -/
def RV (u : Spec.Units) (a b : ℚ) : Prop := b = u.volume * a

theorem pvRatios_rel (hu : u.Proper) {l l' : List Exchange} (h : List.Forall₂ (RE u nr) l l') :
    ER (List.Forall₂ (RV u)) (pvRatios l) (pvRatios l') := by
  induction h with
  | nil => exact List.Forall₂.nil
  | @cons e e' l l' he _ ih =>
    unfold pvRatios
    have hz : (e.type = .referenceProduct ∧ e.amount ≠ 0) ↔ (e'.type = .referenceProduct ∧ e'.amount ≠ 0) := by rw [he.type, ne_eq, he.zero hu]
    by_cases hc : e.type = .referenceProduct ∧ e.amount ≠ 0
    · rw [if_pos hc, if_pos (hz.mp hc)]
      refine (ER.getKey he.pvRel).bind fun p p' hp => ih.bind fun r r' hr => ?_
      refine List.Forall₂.cons ?_ hr
      rw [hp.2, he.amount (by simp [hc.1]) (by simp [hc.1])]
      exact mul_div_assoc _ _ _
    · rw [if_neg hc, if_neg (hz.not.mp hc)]
      exact ih

theorem biggest_rel (hu : u.Proper) {d d' : Dataset} (h : RD u nr K d d') : ER (RV u) (getBiggestPvRatio d) (getBiggestPvRatio d') := by
  unfold getBiggestPvRatio
  refine (pvRatios_rel hu h.exs).bind fun r r' hr => ?_
  have h1 : r' = r.map (u.volume * ·) := by
    induction hr with
    | nil => rfl
    | cons hab _ ih => rw [List.map_cons, ← ih, ← show _ = u.volume * _ from hab]
  have h2 : r'.insertionSort (fun a b => |b| ≤ |a|) = (r.insertionSort (fun a b => |b| ≤ |a|)).map (u.volume * ·) := by
    rw [h1]
    refine (List.map_insertionSort _ _ _ _ fun a _ b _ => ?_).symm
    rw [abs_mul, abs_mul]
    exact (mul_le_mul_iff_right₀ (abs_pos.mpr hu.volume.ne')).symm
  rw [h2]
  cases r.insertionSort (fun a b => |b| ≤ |a|) with
  | nil => exact rfl
  | cons a l => exact ER.ok rfl

theorem fillByproduct_rel (hu : u.Proper) {e e' : Exchange} (h : RE u nr e e') {s s' : ℚ} (hs : RV u s s') :
    ER (RE u nr) (fillByproduct s e) (fillByproduct s' e') := by
  unfold fillByproduct isAllocatableByproduct
  rw [← h.type, ← h.cls]
  by_cases ht : e.type = .byproduct
  · rw [if_pos ht]
    cases e.cls with
    | none => exact rfl
    | some c =>
      simp only [getKey_some, ebind_ok, epure]
      cases c == Cls.allocatable
      · exact h
      · unfold fillVolume
        refine (ER.getKey h.pvRel).mem.bind ?_
        rintro p _ ⟨⟨hp, rfl⟩, hk, -⟩
        have hk' := getKey_eq_ok.mp hk
        have hz : (u.pv p).amount = 0 ↔ p.amount = 0 := by simp [Spec.Units.pv, hu.volume.ne']
        by_cases h0 : p.amount = 0
        · simp only [if_pos h0, if_pos (hz.mpr h0)]
          refine ⟨⟨⟨h.1.1.flow, ?_, h.1.1.price⟩, h.1.2⟩, ?_⟩
          · rintro q ⟨⟩
            exact hp
          · have ha := h.amount (by simp [ht]) (by simp [ht])
            have hh : |e'.amount * s'| = u.volume * |e.amount * s| := by
              rw [ha, show s' = u.volume * s from hs, abs_mul, abs_mul, abs_mul, abs_of_pos hu.volume]
              ring
            rw [hh, h.2]
            rfl
        · simp only [if_neg h0, if_neg (hz.not.mpr h0)]
          exact h
  · rw [if_neg ht]
    exact h

theorem resp_addPv (hu : u.Proper) : Resp u nr K addPvToAllocatableByproducts :=
  resp_mapE fun d d' hd => by
    unfold fillVolumes
    rw [any_allocatable_rel hd.exs]
    refine (ER.refl _).bind ?_
    rintro b _ rfl
    cases b
    · exact hd
    · refine (biggest_rel hu hd).bind fun s s' hs => ?_
      exact (ER.mapE hd.exs fun e e' he => fillByproduct_rel hu he hs).bind fun _ _ hex => hd.setEx hex

theorem pvParameter_plain {e : Exchange} (h : ∀ p, e.pv = some p → PlainObj p.toNumObj) (id : String) : pvParameter id e = (e, []) := by
  unfold pvParameter
  cases hp : e.pv with
  | none => rfl
  | some p =>
    have hq := h p hp
    simp only [hq.2.1]
    obtain ⟨⟨_, f, v, _, _⟩, _, _, _, _⟩ := p
    obtain ⟨h1, h2, -⟩ := hq
    simp only at h1 h2
    subst h1 h2
    cases e
    simp only at hp
    simp [hp]

theorem createPv_plain {d : Dataset} (h : ∀ e ∈ d.exchanges, ∀ p, e.pv = some p → PlainObj p.toNumObj) (uuid : Exchange → String) :
    createPvParameters uuid d = d := by
  unfold createPvParameters
  have h1 : d.exchanges.map (fun e => (pvParameter (uuid e) e).1) = d.exchanges := by
    conv_rhs => rw [← List.map_id d.exchanges]
    exact List.map_congr_left fun e he => by rw [pvParameter_plain (h e he)]; rfl
  have h2 : d.exchanges.flatMap (fun e => (pvParameter (uuid e) e).2) = [] :=
    List.flatMap_eq_nil_iff.mpr fun e he => by rw [pvParameter_plain (h e he)]
  rw [h1, h2, List.append_nil]

theorem resp_createPv (uuid : Exchange → String) : Resp u nr K (fun l => .ok (l.map (createPvParameters uuid))) :=
  resp_map fun d d' hd => by
    have h1 := (list_iff.mp hd.exs).1
    have h2 := (list_iff.mp hd.exs).2
    rw [createPv_plain fun e he => (h1 e he).1.pv, createPv_plain]
    · exact hd
    · rw [h2]
      intro e' he' p hp
      obtain ⟨e, he, rfl⟩ := List.mem_map.mp he'
      obtain ⟨q, hq, rfl⟩ := Option.map_eq_some_iff.mp hp
      exact (h1 e he).1.pv q hq

/-! ## Cleaning -/

theorem RE.props {e e' : Exchange} (h : RE u nr e e') : e'.properties = e.properties.map u.prop := by rw [h.2]; rfl

theorem resp_consequential : Resp u nr K (fun l => .ok (removeConsequentialExchanges l)) :=
  resp_map fun _ _ hd => hd.filterEx fun e e' he => by
    unfold hasConsequentialProperty
    rw [he.props, List.any_map]
    congr 2
    funext p
    by_cases hn : p.name = "consequential"
    · simp [Spec.Units.prop, hn]
    · simp [Spec.Units.prop, beq_false_of_ne hn]

/-- Dropping a link. -/
theorem RE.noLink {e e' : Exchange} (h : RE u nr e e') : RE u nr { e with activityLink := none } { e' with activityLink := none } :=
  ⟨⟨⟨fun hf => ⟨(h.1.1.flow hf).1, (h.1.1.flow hf).2.1, (h.1.1.flow hf).2.2.1, rfl⟩, h.1.1.pv, h.1.1.price⟩, h.1.2⟩, by rw [h.2]; rfl⟩

theorem resp_dropRp : Resp u nr K (fun l => .ok (dropRpActivityLinks l)) :=
  resp_map fun _ _ hd => hd.mapEx fun e e' he => by
    unfold dropRpLink
    by_cases hc : (e.type = .referenceProduct ∨ e.type = .droppedProduct) ∧ truthy e.activityLink = true
    · rw [if_pos hc, if_pos (he.type ▸ he.link ▸ hc)]
      exact he.noLink
    · rw [if_neg hc, if_neg (he.type ▸ he.link ▸ hc)]
      exact he

theorem resp_dropZero (hu : u.Proper) : Resp u nr K (fun l => .ok (dropZeroAmountActivityLinks l)) :=
  resp_map fun _ _ hd => hd.mapEx fun e e' he => by
    unfold dropZeroLink
    have hl := he.link
    by_cases hc : e.amount = 0 ∧ truthy e.activityLink = true
    · rw [if_pos hc, if_pos ⟨(he.zero hu).mp hc.1, hl ▸ hc.2⟩]
      exact he.noLink
    · rw [if_neg hc, if_neg fun h => hc ⟨(he.zero hu).mpr h.1, hl ▸ h.2⟩]
      exact he

theorem resp_parentChild : Resp u nr K updateActivityLinkParentChild :=
  resp_mapE fun d d' hd => by
    unfold updateParentChild
    have hp : d'.parent = d.parent := by obtain ⟨_, _, rfl, -⟩ := hd; rfl
    rw [hp]
    cases hp' : d.parent with
    | none => exact hd
    | some p =>
      simp only
      by_cases hpn : p = ""
      · rw [if_pos hpn, if_pos hpn]; exact hd
      · rw [if_neg hpn, if_neg hpn]
        refine (ER.mapE hd.exs fun e e' he => ?_).bind fun _ _ hex => by
          have := hd.setEx hex
          rw [hp, hp'] at *
          exact this
        unfold redirectToChild
        rw [he.allocatable, ← hd.id]
        refine (ER.refl _).bind ?_
        rintro b _ rfl
        cases b
        · simp only [Bool.false_eq_true, if_false]
          by_cases hl : e.activityLink = some p
          · rw [if_pos hl, if_pos (he.link ▸ hl)]
            have hflow : u.flow e.id = 1 := by
              by_contra hf
              have := (he.1.1.flow hf).2.2.2
              rw [hl] at this
              exact hpn this
            exact ⟨⟨⟨fun hf => absurd hflow hf, he.1.1.pv, he.1.1.price⟩, he.1.2⟩, by rw [he.2]; rfl⟩
          · rw [if_neg hl, if_neg (he.link ▸ hl)]
            exact he
        · exact he

theorem resp_fix35 : Resp u nr K (fun l => .ok (fix35ActivityLinks l)) :=
  resp_map fun _ _ hd => hd.mapEx fun e e' he => by
    by_cases hl : e.activityLink = some removedLink35
    · rw [if_pos hl, if_pos (he.link ▸ hl)]
      exact he.noLink
    · rw [if_neg hl, if_neg (he.link ▸ hl)]
      exact he

/-! ## Activity links -/

theorem productionNamed_rel {d d' : Dataset} (h : RD u nr K d d') (name : String) :
    ER (List.Forall₂ (RE u nr)) (productionNamed d name) (productionNamed d' name) := by
  unfold productionNamed
  refine (allocatableProduction_rel h).bind fun l l' hl => ?_
  exact forall₂_imp (fun _ _ h => h.1.1) (filter_rel (fun _ _ he => by rw [he.1.name]) hl)

theorem idMapping_rel {l l' : List Dataset} (hl : List.Forall₂ (RD u nr K) l l') (id : String) :
    ER (RD u nr K) (idMapping l id) (idMapping l' id) :=
  ER.getKey (lookup_rel (R := fun _ => RD u nr K) (dictOf_rel (Q := fun _ => RD u nr K) (fun _ _ h => RD.id h) (fun _ _ h => h) hl) id)

theorem resp_linkValidity : Resp u nr K checkActivityLinkValidity :=
  resp_check fun l l' hl => ER.forE hl fun d d' hd => ER.forE hd.exs fun e e' he => by
    unfold checkLink
    rw [← he.link, ← he.name]
    cases e.activityLink with
    | none => rfl
    | some s =>
      simp only
      by_cases hs : s = ""
      · rw [if_pos hs, if_pos hs]
      · rw [if_neg hs, if_neg hs]
        have h1 := idMapping_rel hl s
        revert h1
        generalize idMapping l s = x
        generalize idMapping l' s = y
        intro h1
        cases x <;> cases y
        · rfl
        · exact h1.elim
        · exact h1.elim
        · refine ER.eq ((productionNamed_rel (K := K) h1 e.name).bind fun r r' hr => ?_)
          rw [hr.length_eq]
          exact ER.refl _

theorem isProductionNamed_rel {e e' : Exchange} (he : RE u nr e e') (name : String) : isProductionNamed name e = isProductionNamed name e' := by
  unfold isProductionNamed
  rw [he.allocatable, he.name]

/-- A function of the volume. -/
theorem RE.onPv {e e' : Exchange} (h : RE u nr e e') {f g : PV → PV} (hf : ∀ p, PlainObj p.toNumObj → PlainObj (f p).toNumObj ∧ g (u.pv p) = u.pv (f p)) :
    RE u nr { e with pv := e.pv.map f } { e' with pv := e'.pv.map g } := by
  refine ⟨⟨⟨h.1.1.flow, ?_, h.1.1.price⟩, h.1.2⟩, ?_⟩
  · intro p hp
    obtain ⟨q, hq, rfl⟩ := Option.map_eq_some_iff.mp hp
    exact (hf q (h.1.1.pv q hq)).1
  · rw [h.2]
    have : ((u.exc e).pv).map g = (e.pv.map f).map u.pv := by
      simp only [Spec.Units.exc, Option.map_map]
      cases hp : e.pv with
      | none => rfl
      | some p => simp [(hf p (h.1.1.pv p hp)).2]
    rw [this]
    rfl

theorem addSubtracted_rel {v v' : ℚ} (hv : RV u v v') (p : PV) : addSubtracted v' (u.pv p) = u.pv (addSubtracted v p) := by
  unfold addSubtracted Spec.Units.pv
  have : ((p.subtracted.map fun x => u.volume * x).getD 0 + v') = u.volume * (p.subtracted.getD 0 + v) := by
    rw [show v' = u.volume * v from hv]
    cases p.subtracted <;> simp [mul_add]
  simp [this]

theorem addToTarget_rel {name : String} {amount : ℚ} {s s' : Except Err ℚ} (hs : ER (RV u) s s') {d d' : Dataset} (hd : RD u nr K d d') :
    ER (RD u nr K) (addToTarget name amount s d) (addToTarget name amount s' d') := by
  unfold addToTarget
  refine (productionNamed_rel hd name).bind fun l l' hl => ?_
  cases hl with
  | nil => exact rfl
  | cons he hl =>
    cases hl with
    | cons _ _ => exact rfl
    | nil =>
      refine hs.bind fun v v' hv => (ER.getKey he.pvRel).bind fun _ _ _ => ?_
      refine ER.ok (hd.mapEx fun x x' hx => ?_)
      rw [isProductionNamed_rel hx]
      split
      · refine hx.onPv fun p hp => ⟨hp, addSubtracted_rel ?_ p⟩
        rw [RV, show v' = u.volume * v from hv]
        ring
      · exact hx

theorem modifyLast_rel {id : String} {f f' : Dataset → Except Err Dataset} (hf : ∀ d d', RD u nr K d d' → ER (RD u nr K) (f d) (f' d'))
    {l l' : List Dataset} (hl : List.Forall₂ (RD u nr K) l l') : ER (List.Forall₂ (RD u nr K)) (modifyLast id f l) (modifyLast id f' l') := by
  induction hl with
  | nil => exact rfl
  | @cons d d' l l' hd hl ih =>
    unfold modifyLast
    rw [any_rel (fun _ _ h => by rw [RD.id h]) hl, ← hd.id]
    split
    · exact ih.bind fun r r' hr => List.Forall₂.cons hd hr
    · split
      · exact (hf _ _ hd).bind fun r r' hr => List.Forall₂.cons hr hl
      · exact rfl

theorem hardLink_rel (hu : u.Proper) {d d' : Dataset} (hd : RD u nr K d d') {st st' : List Dataset} (hst : List.Forall₂ (RD u nr K) st st')
    {e e' : Exchange} (he : RE u nr e e') : ER (List.Forall₂ (RD u nr K)) (hardLinkStep d st e) (hardLinkStep d' st' e') := by
  unfold hardLinkStep
  rw [← he.link, ← hd.id, ← he.name]
  cases hl : e.activityLink with
  | none => exact hst
  | some s =>
    simp only
    by_cases hs : s = ""
    · rw [if_pos hs, if_pos hs]; exact hst
    · rw [if_neg hs, if_neg hs]
      have hflow : u.flow e.id = 1 := by
        by_contra hf
        have := (he.1.1.flow hf).2.2.2
        rw [hl] at this
        exact hs this
      have ha : e'.amount = e.amount := by rw [he.2]; simp [Spec.Units.exc, hflow]
      rw [ha]
      split
      · exact hst
      · exact modifyLast_rel (fun _ _ hd' => addToTarget_rel (biggest_rel hu hd) hd') hst

theorem resp_hardLinked (hu : u.Proper) : Resp u nr K addHardLinkedProductionVolumes := fun _ _ hl =>
  ER.foldE hl hl fun _ _ _ _ hs hd => ER.foldE hd.exs hs fun _ _ _ _ hs' he => hardLink_rel hu hd hs' he

theorem reduceVolume_rel (hu : u.Proper) (p : PV) : reduceVolume (u.pv p) = u.pv (reduceVolume p) := by
  unfold reduceVolume
  have h : (u.pv p).subtracted = p.subtracted.map fun x => u.volume * x := rfl
  rw [h]
  cases p.subtracted with
  | none => rfl
  | some s =>
    have : max (u.volume * p.amount - u.volume * s) 0 = u.volume * max (p.amount - s) 0 := by
      rw [← mul_sub, mul_max_of_nonneg _ _ hu.volume.le, mul_zero]
    simp [Spec.Units.pv, this]

theorem updateProduction_rel (hu : u.Proper) {e e' : Exchange} (he : RE u nr e e') : ER (RE u nr) (updateProduction e) (updateProduction e') := by
  unfold updateProduction
  rw [he.allocatable]
  refine (ER.refl _).bind ?_
  rintro b _ rfl
  cases b
  · exact he
  · refine (ER.getKey he.pvRel).mem.bind ?_
    rintro p _ ⟨⟨hp, rfl⟩, hk, hk'⟩
    have h1 := he.onPv (f := reduceVolume) (g := reduceVolume) fun p hp => ⟨by unfold reduceVolume; split <;> exact hp, reduceVolume_rel hu p⟩
    rw [getKey_eq_ok.mp hk, getKey_eq_ok.mp hk'] at h1
    exact h1

theorem resp_transforming (hu : u.Proper) : Resp u nr K updateTransformingVolumes :=
  resp_mapE fun d d' hd => by
    by_cases ht : d.type = .transforming
    · rw [if_pos ht, if_pos (hd.type ▸ ht)]
      exact (ER.mapE hd.exs fun _ _ => updateProduction_rel hu).bind fun _ _ hex => hd.setEx hex
    · rw [if_neg ht, if_neg (hd.type ▸ ht)]
      exact hd

end Units
end Ocelot
