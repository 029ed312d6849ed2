import Verif.Spec.Renaming
import Verif.Proofs.UnitsLinking

/-! The functions before allocation respect a renaming of the activities. -/

namespace Ocelot
namespace Renamed
open Spec Ocelot.Units

/-- The second exchange is the first one, renamed. -/
abbrev RE (ρ : Spec.Renaming) (e e' : Exchange) : Prop := e' = ρ.exc e

/-- The second dataset is the first one, renamed. -/
def RD (ρ : Spec.Renaming) (d d' : Dataset) : Prop :=
  ∃ ex' s', d' = { d with id := ρ.id d.id, parent := d.parent.map ρ.id, filepath := ρ.file d.filepath, extra := ρ.extra d.extra, exchanges := ex', suppliers := s' } ∧
    List.Forall₂ (RE ρ) d.exchanges ex' ∧ Option.Rel (List.Forall₂ (RE ρ)) d.suppliers s'

variable {ρ : Spec.Renaming}

theorem list_iff {l l' : List Exchange} : List.Forall₂ (RE ρ) l l' ↔ l' = l.map ρ.exc := by
  constructor
  · intro h
    induction h with
    | nil => rfl
    | cons hab _ ih => rw [hab, ih]; rfl
  · rintro rfl
    induction l with
    | nil => exact .nil
    | cons a l ih => exact .cons rfl ih

theorem opt_iff {s s' : Option (List Exchange)} : Option.Rel (List.Forall₂ (RE ρ)) s s' ↔ s' = s.map fun l => l.map ρ.exc := by
  constructor
  · intro h
    cases h with
    | some h => rw [list_iff.mp h]; rfl
    | none => rfl
  · rintro rfl
    cases s with
    | none => exact .none
    | some l => exact .some (list_iff.mpr rfl)

theorem RD.eq {d d' : Dataset} (h : RD ρ d d') : d' = ρ.ds d := by
  obtain ⟨ex', s', rfl, hex, hs⟩ := h
  rw [list_iff.mp hex, opt_iff.mp hs]
  rfl

theorem RD.mk (d : Dataset) : RD ρ d (ρ.ds d) := ⟨_, _, rfl, list_iff.mpr rfl, opt_iff.mpr rfl⟩

theorem exc_injective (hu : ρ.Proper) : Function.Injective ρ.exc := by
  intro a b h
  have h1 := Option.map_injective hu.id (congrArg Exchange.activityLink h)
  have h2 : ({ ρ.exc a with activityLink := a.activityLink } : Exchange) = { ρ.exc b with activityLink := a.activityLink } := by rw [h]
  calc a = { ρ.exc a with activityLink := a.activityLink } := rfl
    _ = { ρ.exc b with activityLink := a.activityLink } := h2
    _ = b := by rw [h1]; rfl

theorem RE.eq_iff (hu : ρ.Proper) {a a' b b' : Exchange} (ha : RE ρ a a') (hb : RE ρ b b') : a' = b' ↔ a = b := by
  rw [ha, hb]
  exact (exc_injective hu).eq_iff

theorem RD.eq_iff (hu : ρ.Proper) {a a' b b' : Dataset} (ha : RD ρ a a') (hb : RD ρ b b') : a' = b' ↔ a = b := by
  rw [ha.eq, hb.eq]
  constructor
  · intro h
    have h1 := List.map_injective_iff.mpr (exc_injective hu) (congrArg Dataset.exchanges h)
    have h2 := Option.map_injective (List.map_injective_iff.mpr (exc_injective hu)) (congrArg Dataset.suppliers h)
    have h3 := hu.id (congrArg Dataset.id h)
    have h4 := Option.map_injective hu.id (congrArg Dataset.parent h)
    have h5 := hu.file (congrArg Dataset.filepath h)
    have h6 := hu.extra (congrArg Dataset.extra h)
    have h7 : ({ ρ.ds a with exchanges := a.exchanges, suppliers := a.suppliers, id := a.id, parent := a.parent, filepath := a.filepath, extra := a.extra } : Dataset) =
        { ρ.ds b with exchanges := a.exchanges, suppliers := a.suppliers, id := a.id, parent := a.parent, filepath := a.filepath, extra := a.extra } := by rw [h]
    calc a = { ρ.ds a with exchanges := a.exchanges, suppliers := a.suppliers, id := a.id, parent := a.parent, filepath := a.filepath, extra := a.extra } := rfl
      _ = _ := h7
      _ = b := by rw [h1, h2, h3, h4, h5, h6]; rfl
  · rintro rfl; rfl

/-- The function respects a renaming. -/
def Resp (ρ : Spec.Renaming) (f : List Dataset → Except Err (List Dataset)) : Prop :=
  ∀ l l', List.Forall₂ (RD ρ) l l' → ER (List.Forall₂ (RD ρ)) (f l) (f l')

theorem resp_mapE {f : Dataset → Except Err Dataset} (h : ∀ d d', RD ρ d d' → ER (RD ρ) (f d) (f d')) : Resp ρ (mapE f) :=
  fun _ _ hl => ER.mapE hl h

theorem resp_map {f : Dataset → Dataset} (h : ∀ d d', RD ρ d d' → RD ρ (f d) (f d')) : Resp ρ (fun l => .ok (l.map f)) :=
  fun _ _ hl => map_rel h hl

/-- A check that gives the same for both. -/
theorem resp_check {f : List Dataset → Except Err Unit} (h : ∀ l l', List.Forall₂ (RD ρ) l l' → f l = f l') :
    Resp ρ (fun l => do f l; return l) := by
  intro l l' hl
  simp only
  rw [h l l' hl]
  exact (ER.refl _).bind fun _ _ _ => hl

theorem RD.exs {d d' : Dataset} (h : RD ρ d d') : List.Forall₂ (RE ρ) d.exchanges d'.exchanges := by
  obtain ⟨ex', s', rfl, hex, -⟩ := h; exact hex

theorem RD.sup {d d' : Dataset} (h : RD ρ d d') : Option.Rel (List.Forall₂ (RE ρ)) d.suppliers d'.suppliers := by
  obtain ⟨_, _, rfl, -, hs⟩ := h; exact hs

theorem RD.name {d d' : Dataset} (h : RD ρ d d') : d.name = d'.name := by obtain ⟨_, _, rfl, -⟩ := h; rfl
theorem RD.type {d d' : Dataset} (h : RD ρ d d') : d.type = d'.type := by obtain ⟨_, _, rfl, -⟩ := h; rfl
theorem RD.id {d d' : Dataset} (h : RD ρ d d') : d'.id = ρ.id d.id := by obtain ⟨_, _, rfl, -⟩ := h; rfl
theorem RD.location {d d' : Dataset} (h : RD ρ d d') : d.location = d'.location := by obtain ⟨_, _, rfl, -⟩ := h; rfl
theorem RD.refProduct {d d' : Dataset} (h : RD ρ d d') : d.refProduct = d'.refProduct := by obtain ⟨_, _, rfl, -⟩ := h; rfl
theorem RD.code {d d' : Dataset} (h : RD ρ d d') : d.code = d'.code := by obtain ⟨_, _, rfl, -⟩ := h; rfl
theorem RD.level {d d' : Dataset} (h : RD ρ d d') : d.technologyLevel = d'.technologyLevel := by obtain ⟨_, _, rfl, -⟩ := h; rfl
theorem RD.method {d d' : Dataset} (h : RD ρ d d') : d.allocationMethod = d'.allocationMethod := by obtain ⟨_, _, rfl, -⟩ := h; rfl
theorem RD.parameters {d d' : Dataset} (h : RD ρ d d') : d.parameters = d'.parameters := by obtain ⟨_, _, rfl, -⟩ := h; rfl

/-- Other exchanges in the same datasets. -/
theorem RD.setEx {d d' : Dataset} (h : RD ρ d d') {ex ex' : List Exchange} (hex : List.Forall₂ (RE ρ) ex ex') :
    RD ρ { d with exchanges := ex } { d' with exchanges := ex' } := by
  obtain ⟨_, s', rfl, -, hs⟩ := h
  exact ⟨ex', s', rfl, hex, hs⟩

theorem RD.mapEx {d d' : Dataset} (h : RD ρ d d') {f g : Exchange → Exchange} (hf : ∀ e e', RE ρ e e' → RE ρ (f e) (g e')) :
    RD ρ { d with exchanges := d.exchanges.map f } { d' with exchanges := d'.exchanges.map g } :=
  h.setEx (map_rel hf h.exs)

theorem RD.filterEx {d d' : Dataset} (h : RD ρ d d') {p : Exchange → Bool} (hp : ∀ e e', RE ρ e e' → p e = p e') :
    RD ρ { d with exchanges := d.exchanges.filter p } { d' with exchanges := d'.exchanges.filter p } :=
  h.setEx (forall₂_imp (fun _ _ h => h.1) (filter_rel hp h.exs))

/-! ## Fields of exchanges -/

theorem RE.type {e e' : Exchange} (h : RE ρ e e') : e.type = e'.type := by rw [h]; rfl
theorem RE.name {e e' : Exchange} (h : RE ρ e e') : e.name = e'.name := by rw [h]; rfl
theorem RE.id {e e' : Exchange} (h : RE ρ e e') : e.id = e'.id := by rw [h]; rfl
theorem RE.cls {e e' : Exchange} (h : RE ρ e e') : e.cls = e'.cls := by rw [h]; rfl
theorem RE.code {e e' : Exchange} (h : RE ρ e e') : e.code = e'.code := by rw [h]; rfl
theorem RE.conditional {e e' : Exchange} (h : RE ρ e e') : e.conditional = e'.conditional := by rw [h]; rfl
theorem RE.pv {e e' : Exchange} (h : RE ρ e e') : e.pv = e'.pv := by rw [h]; rfl
theorem RE.props {e e' : Exchange} (h : RE ρ e e') : e.properties = e'.properties := by rw [h]; rfl
theorem RE.num {e e' : Exchange} (h : RE ρ e e') : e.toNumObj = e'.toNumObj := by rw [h]; rfl
theorem RE.amount {e e' : Exchange} (h : RE ρ e e') : e.amount = e'.amount := by rw [h]; rfl
theorem RE.link {e e' : Exchange} (h : RE ρ e e') : e'.activityLink = e.activityLink.map ρ.id := by rw [h]; rfl
theorem RE.allocatable {e e' : Exchange} (h : RE ρ e e') : isAllocatable e = isAllocatable e' := by rw [h]; rfl

theorem id_empty (hu : ρ.Proper) {s : String} : ρ.id s = "" ↔ s = "" := ⟨fun h => hu.id (h.trans hu.empty.symm), fun h => h ▸ hu.empty⟩

/-- A link is present in both or in none. -/
theorem RE.noLink_iff (hu : ρ.Proper) {e e' : Exchange} (h : RE ρ e e') : e.activityLink.getD "" = "" ↔ e'.activityLink.getD "" = "" := by
  rw [h.link]
  cases e.activityLink with
  | none => simp
  | some s => simpa using (id_empty hu).symm

theorem RE.truthy (hu : ρ.Proper) {e e' : Exchange} (h : RE ρ e e') : truthy e.activityLink = true ↔ truthy e'.activityLink = true := by
  rw [h.link]
  cases e.activityLink with
  | none => simp [Ocelot.truthy]
  | some s => simp [Ocelot.truthy, id_empty hu]

theorem RE.link_iff (hu : ρ.Proper) {e e' : Exchange} (h : RE ρ e e') {s : String} : e.activityLink = some s ↔ e'.activityLink = some (ρ.id s) := by
  rw [h.link]
  cases e.activityLink with
  | none => simp
  | some t => simp [hu.id.eq_iff]

/-- Dropping a link. -/
theorem RE.noLink {e e' : Exchange} (h : RE ρ e e') : RE ρ { e with activityLink := none } { e' with activityLink := none } := by rw [h]; rfl

theorem allocatableProduction_rel {d d' : Dataset} (h : RD ρ d d') :
    ER (List.Forall₂ fun e e' => RE ρ e e' ∧ isAllocatable e = .ok true) (allocatableProduction d) (allocatableProduction d') :=
  ER.filterE h.exs fun _ _ => RE.allocatable

theorem nonproduction_rel {d d' : Dataset} (h : RD ρ d d') :
    ER (List.Forall₂ (RE ρ)) (nonproductionExchanges d) (nonproductionExchanges d') :=
  (ER.filterE h.exs fun _ _ he => by rw [RE.allocatable he]).mono fun _ _ hl => forall₂_imp (fun _ _ h => h.1) hl

theorem referenceProducts_rel {d d' : Dataset} (h : RD ρ d d') :
    List.Forall₂ (fun e e' => RE ρ e e' ∧ e.type = .referenceProduct) (referenceProducts d) (referenceProducts d') :=
  forall₂_imp (fun _ _ h => ⟨h.1, by simpa using h.2⟩) (filter_rel (fun _ _ he => by rw [RE.type he]) h.exs)

theorem single_rel {d d' : Dataset} (h : RD ρ d d') :
    ER (fun e e' => RE ρ e e' ∧ e.type = .referenceProduct) (getSingleReferenceProduct d) (getSingleReferenceProduct d') := by
  unfold getSingleReferenceProduct
  have := referenceProducts_rel h
  revert this
  generalize referenceProducts d = l
  generalize referenceProducts d' = l'
  intro hl
  cases hl with
  | nil => exact rfl
  | cons hab hl =>
    cases hl with
    | nil => exact hab
    | cons _ _ => exact rfl

theorem any_allocatable_rel {l l' : List Exchange} (h : List.Forall₂ (RE ρ) l l') : anyAllocatableByproduct l = anyAllocatableByproduct l' := by
  induction h with
  | nil => rfl
  | cons hab _ ih => unfold anyAllocatableByproduct; rw [RE.type hab, RE.cls hab, ih]

/-! ## Numbers -/

theorem RE.scale {M : MathEnv} {e e' : Exchange} (h : RE ρ e e') (f : ℚ) : ER (RE ρ) (scaleExchange M e f) (scaleExchange M e' f) := by
  unfold scaleExchange
  rw [← h.num]
  refine (ER.refl _).bind ?_
  rintro o _ rfl
  rw [h]; rfl

theorem exchange_mapNumE (f : NumObj → Except Err NumObj) {e e' : Exchange} (h : RE ρ e e') : ER (RE ρ) (Exchange.mapNumE f e) (Exchange.mapNumE f e') := by
  unfold Exchange.mapNumE
  rw [← h.num, ← h.pv, ← h.props]
  refine (ER.refl _).bind ?_
  rintro a _ rfl
  refine (ER.refl _).bind ?_
  rintro b _ rfl
  refine (ER.refl _).bind ?_
  rintro c _ rfl
  rw [h]; rfl

theorem dataset_mapNumE (f : NumObj → Except Err NumObj) {d d' : Dataset} (h : RD ρ d d') : ER (RD ρ) (d.mapNumE f) (d'.mapNumE f) := by
  obtain ⟨ex', s', rfl, hex, hs⟩ := h
  unfold Dataset.mapNumE
  refine (ER.mapE hex fun _ _ => exchange_mapNumE f).bind fun ex1 ex2 hex' => ?_
  refine (ER.refl _).bind ?_
  rintro ps _ rfl
  exact ⟨ex2, s', rfl, hex', hs⟩

theorem numObjs_rel {d d' : Dataset} (h : RD ρ d d') : d.numObjs = d'.numObjs := by
  unfold Dataset.numObjs
  rw [h.parameters]
  congr 1
  refine List.forall₂_eq_eq_eq ▸ flatMap_rel (Q := Eq) (fun e e' he => ?_) h.exs
  have : e.numObjs = e'.numObjs := by rw [he]; rfl
  rw [this]
  exact refl_list _

/-! ## Validation -/

theorem distinct_rel (hu : ρ.Proper) (l : List String) : distinctCount (l.map ρ.id) = distinctCount l := by
  unfold distinctCount
  rw [List.dedup_map_of_injective hu.id, List.length_map]

theorem resp_ids (hu : ρ.Proper) : Resp ρ ensureIdsAreUnique := by
  intro l l' hl
  unfold ensureIdsAreUnique
  have : l'.map (·.id) = (l.map (·.id)).map ρ.id := by
    rw [List.map_map]
    exact (map_eq_rel (R := RD ρ) (f := fun d => ρ.id d.id) (fun _ _ h => (RD.id h).symm) hl).symm
  rw [this, distinct_rel hu, hl.length_eq]
  split
  · exact rfl
  · exact hl

theorem resp_copyId : Resp ρ (fun l => .ok (copyOriginalExchangeId l)) :=
  resp_map fun _ _ hd => hd.mapEx fun _ _ he => by rw [he]; rfl

theorem resp_variables : Resp ρ variableNamesAreUnique :=
  resp_check fun _ _ hl => ER.forE hl fun _ _ hd => by rw [numObjs_rel hd]

theorem markets_rel {l l' : List Dataset} (hl : List.Forall₂ (RD ρ) l l') (t : DsType) :
    List.Forall₂ (fun d d' => RD ρ d d' ∧ d.type = t) (l.filter fun d => d.type == t) (l'.filter fun d => d.type == t) :=
  forall₂_imp (fun _ _ h => ⟨h.1, by simpa using h.2⟩) (filter_rel (fun _ _ hd => by rw [RD.type hd]) hl)

theorem resp_oneProduct : Resp ρ ensureMarketsOneProduct :=
  resp_check fun _ _ hl => ER.forE (markets_rel hl _) fun d d' hd => by
    have h := (referenceProducts_rel hd.1).length_eq
    unfold referenceProducts at h
    unfold checkOneReferenceProduct
    rw [h]

theorem bne_rel (hu : ρ.Proper) {a a' b b' : Exchange} (ha : RE ρ a a') (hb : RE ρ b b') : (a != b) = (a' != b') := by
  rw [Bool.eq_iff_iff]
  simp [RE.eq_iff hu ha hb]

theorem resp_ownConsumption (hu : ρ.Proper) : Resp ρ ensureMarketsNoOwnConsumption :=
  resp_check fun _ _ hl => ER.forE (markets_rel hl _) fun d d' hd => by
    have h := referenceProducts_rel hd.1
    unfold referenceProducts at h
    unfold checkOwnConsumption
    revert h
    generalize (d.exchanges.filter fun e => e.type == .referenceProduct) = r
    generalize (d'.exchanges.filter fun e => e.type == .referenceProduct) = r'
    intro h
    cases h with
    | nil => rfl
    | @cons rp rp' _ _ hab _ =>
      simp only
      rw [any_rel (fun e e' he => ?_) hd.1.exs]
      rw [RE.name he, RE.name hab.1, bne_rel hu he hab.1]
      congr 1
      rw [Bool.eq_iff_iff]
      simpa using RE.noLink_iff hu he

/-! ## Implicit references -/

theorem get_rel' {d d' : Dataset} (h : RD ρ d d') (i : ℕ) : d'.exchanges[i]? = d.exchanges[i]?.map ρ.exc := by
  rw [list_iff.mp h.exs, List.getElem?_map]

theorem obj_rel {d d' : Dataset} (h : RD ρ d d') (a : Addr) : d.obj? a = d'.obj? a := by
  cases a with
  | exc i => simp only [Dataset.obj?, get_rel' h]; cases d.exchanges[i]? <;> rfl
  | pv i => simp only [Dataset.obj?, get_rel' h]; cases d.exchanges[i]? <;> rfl
  | prop i j => simp only [Dataset.obj?, get_rel' h]; cases d.exchanges[i]? <;> rfl
  | par i => simp only [Dataset.obj?, h.parameters]

theorem change_rel (f : NumObj → NumObj) (a : Addr) {d d' : Dataset} (h : RD ρ d d') : RD ρ (d.change f a) (d'.change f a) := by
  cases a with
  | exc i => exact h.setEx (modify_rel (fun e e' he => by rw [he]; rfl) h.exs i)
  | pv i => exact h.setEx (modify_rel (fun e e' he => by rw [he]; rfl) h.exs i)
  | prop i j => exact h.setEx (modify_rel (fun e e' he => by rw [he]; rfl) h.exs i)
  | par i =>
    obtain ⟨ex', s', rfl, hex, hs⟩ := h
    exact ⟨ex', s', rfl, hex, hs⟩

theorem findIdx_rel {d d' : Dataset} (h : RD ρ d d') (p : String → Bool) : d.exchanges.findIdx? (fun e => p e.id) = d'.exchanges.findIdx? (fun e => p e.id) := by
  rw [list_iff.mp h.exs, List.findIdx?_map]
  rfl

theorem findById_rel {d d' : Dataset} (h : RD ρ d d') (t : Text) : findById d t = findById d' t := by
  unfold findById
  rw [findIdx_rel h fun i => decide (i.toList = t), h.parameters]

theorem findPvById_rel {d d' : Dataset} (h : RD ρ d d') (t : Text) : findPvById d t = findPvById d' t := by
  unfold findPvById
  rw [findIdx_rel h fun i => decide (i.toList = t)]
  have : ∀ i : ℕ, (d.exchanges[i]?.bind (·.pv)) = (d'.exchanges[i]?.bind (·.pv)) := by
    intro i
    rw [get_rel' h]
    cases d.exchanges[i]? <;> rfl
  simp only [this]

theorem replaceReference_rel {find : Dataset → Text → Except Err Addr} (hf : ∀ d d' t, RD ρ d d' → find d t = find d' t) (name : Text → String) (a : Addr)
    (r : Text × Text) {d d' : Dataset} (h : RD ρ d d') : ER (RD ρ) (replaceReference find name a d r) (replaceReference find name a d' r) := by
  unfold replaceReference
  rw [hf d d' _ h]
  refine (ER.refl _).bind ?_
  rintro t _ rfl
  unfold giveVariable Dataset.varAt
  rw [obj_rel h]
  cases ((d'.obj? t).bind fun x => x.var) with
  | none => exact ER.ok (change_rel _ _ (change_rel _ _ h))
  | some v => exact ER.ok (change_rel _ _ h)

theorem references_rel (refs : Text → List (Text × Text)) {d d' : Dataset} (h : RD ρ d d') (a : Addr) : referencesAt refs d a = referencesAt refs d' a := by
  unfold referencesAt Dataset.formulaAt
  rw [obj_rel h]

theorem addrs_rel {d d' : Dataset} (h : RD ρ d d') : d.addrs = d'.addrs := by
  unfold Dataset.addrs
  rw [h.parameters]
  congr 1
  refine List.forall₂_eq_eq_eq ▸ flatMap_rel (Q := Eq) (fun p p' hp => ?_) (zipIdx_rel h.exs 0)
  have : p.1.addrs p.2 = p'.1.addrs p'.2 := by rw [hp.1, hp.2]; rfl
  rw [this]
  exact refl_list _

theorem resp_replace : Resp ρ (mapE replaceImplicitReferences) :=
  resp_mapE fun d d' hd => by
    unfold replaceImplicitReferences
    rw [addrs_rel hd]
    refine ER.foldE (refl_list _) hd fun s s' a _ hs hab => ?_
    subst hab
    unfold replaceReferencesAt
    rw [references_rel _ hs]
    refine (ER.foldE (refl_list _) hs fun s s' r _ hs hab => ?_).bind fun t t' ht => ?_
    · subst hab
      exact replaceReference_rel (fun _ _ _ h => findById_rel h _) _ _ _ hs
    · rw [references_rel _ ht]
      refine ER.foldE (refl_list _) ht fun s s' r _ hs hab => ?_
      subst hab
      exact replaceReference_rel (fun _ _ _ h => findPvById_rel h _) _ _ _ hs

/-! ## Parameters -/

theorem fixSpecific_rel {d d' : Dataset} (h : RD ρ d d') : RD ρ (fixSpecificIssues d) (fixSpecificIssues d') := by
  unfold fixSpecificIssues
  by_cases hc : d.name = "petroleum refinery operation"
  · rw [if_pos hc, if_pos (h.name ▸ hc)]
    exact h.filterEx (p := fun e => decide (e.name ≠ "refinery gas") || decide (e.amount ≠ 0)) fun e e' he => by rw [he]; rfl
  · rw [if_neg hc, if_neg (h.name ▸ hc)]
    exact h

theorem resp_fixSpecific : Resp ρ (fun l => .ok (l.map fixSpecificIssues)) := resp_map fun _ _ => fixSpecific_rel

theorem resp_repair (M : MathEnv) : Resp ρ (mapE (repairAll M)) := resp_mapE fun _ _ hd => dataset_mapNumE _ hd

theorem resp_lowercase (lower : String → String) : Resp ρ (mapE (lowercaseAllParameters lower)) := resp_mapE fun _ _ hd => dataset_mapNumE _ hd

theorem resp_fixMath (ws : Char → Bool) (num : Text → Option Text) : Resp ρ (mapE (fixMathFormulas ws num)) := resp_mapE fun _ _ hd => dataset_mapNumE _ hd

theorem resp_reserved (words : List Text) (parses : Text → Bool) : Resp ρ (mapE (replaceReservedWords words parses)) := resp_mapE fun _ _ hd => dataset_mapNumE _ hd

theorem resp_unparsable (parses : Text → Bool) : Resp ρ (mapE (deleteUnparsableFormulas parses)) := resp_mapE fun _ _ hd => dataset_mapNumE _ hd

theorem resp_known : Resp ρ (mapE fixKnownBadFormulas) :=
  resp_mapE fun _ _ hd => ER.foldE (refl_list _) hd fun s s' a b hs hab => by
    subst hab
    unfold fixKnownStep
    rw [hs.name]
    split
    · exact dataset_mapNumE _ hs
    · exact hs

/-! ## Production volumes -/

theorem resp_volumesGiven : Resp ρ ensureVolumesGiven :=
  resp_check fun _ _ hl => ER.forE hl fun _ _ hd => ER.forE hd.exs fun _ _ he => by rw [he]; rfl

theorem pvRatios_rel {l l' : List Exchange} (h : List.Forall₂ (RE ρ) l l') : pvRatios l = pvRatios l' := by
  induction h with
  | nil => rfl
  | cons he _ ih => unfold pvRatios; rw [ih, RE.type he, RE.amount he, RE.pv he]

theorem biggest_rel {d d' : Dataset} (h : RD ρ d d') : getBiggestPvRatio d = getBiggestPvRatio d' := by
  unfold getBiggestPvRatio
  rw [pvRatios_rel h.exs]

theorem fillVolume_rel {e e' : Exchange} (h : RE ρ e e') (s : ℚ) : ER (RE ρ) (fillVolume s e) (fillVolume s e') := by
  rw [h]
  unfold fillVolume
  have : (ρ.exc e).pv = e.pv := rfl
  rw [this]
  refine (ER.refl _).bind ?_
  rintro p _ rfl
  exact ER.ite Iff.rfl (fun _ => rfl) fun _ => rfl

theorem fillByproduct_rel {e e' : Exchange} (h : RE ρ e e') (s : ℚ) : ER (RE ρ) (fillByproduct s e) (fillByproduct s e') := by
  unfold fillByproduct
  have : isAllocatableByproduct e = isAllocatableByproduct e' := by rw [h]; rfl
  rw [this]
  refine (ER.refl _).bind ?_
  rintro b _ rfl
  cases b
  · exact h
  · exact fillVolume_rel h s

theorem resp_addPv : Resp ρ addPvToAllocatableByproducts :=
  resp_mapE fun d d' hd => by
    unfold fillVolumes
    rw [any_allocatable_rel hd.exs, biggest_rel hd]
    refine (ER.refl _).bind ?_
    rintro b _ rfl
    cases b
    · exact hd
    · refine (ER.refl _).bind ?_
      rintro s _ rfl
      exact (ER.mapE hd.exs fun e e' he => fillByproduct_rel he s).bind fun _ _ hex => hd.setEx hex

theorem pvParameter_rel (i : String) {e e' : Exchange} (h : RE ρ e e') : RE ρ (pvParameter i e).1 (pvParameter i e').1 ∧ (pvParameter i e).2 = (pvParameter i e').2 := by
  rw [h]
  unfold pvParameter
  have : (ρ.exc e).pv = e.pv := rfl
  rw [this]
  cases e.pv with
  | none => exact ⟨rfl, rfl⟩
  | some p =>
    simp only
    cases p.var with
    | none => exact ⟨rfl, rfl⟩
    | some v => exact ⟨rfl, rfl⟩

theorem resp_createPv {uuid : Exchange → String} (hid : ∀ e, uuid (ρ.exc e) = uuid e) : Resp ρ (fun l => .ok (l.map (createPvParameters uuid))) :=
  resp_map fun d d' hd => by
    unfold createPvParameters
    have h1 : ∀ e e', RE ρ e e' → uuid e = uuid e' := fun e e' he => by rw [he, hid]
    have h2 : (d.exchanges.flatMap fun e => (pvParameter (uuid e) e).2) = d'.exchanges.flatMap fun e => (pvParameter (uuid e) e).2 := by
      refine List.forall₂_eq_eq_eq ▸ flatMap_rel (Q := Eq) (fun e e' he => ?_) hd.exs
      rw [← h1 e e' he, (pvParameter_rel _ he).2]
      exact refl_list _
    rw [h2]
    have h3 := hd.mapEx (f := fun e => (pvParameter (uuid e) e).1) (g := fun e => (pvParameter (uuid e) e).1) fun e e' he => by
      rw [← h1 e e' he]; exact (pvParameter_rel _ he).1
    obtain ⟨ex', s', heq, hex, hs⟩ := h3
    refine ⟨ex', s', ?_, hex, hs⟩
    have h4 := congrArg (fun x : Dataset => { x with parameters := d.parameters ++ d'.exchanges.flatMap fun e => (pvParameter (uuid e) e).2 }) heq
    rw [hd.parameters] at h4 ⊢
    exact h4

/-! ## Cleaning -/

theorem resp_consequential : Resp ρ (fun l => .ok (removeConsequentialExchanges l)) :=
  resp_map fun _ _ hd => hd.filterEx fun e e' he => by rw [he]; rfl

theorem resp_dropRp (hu : ρ.Proper) : Resp ρ (fun l => .ok (dropRpActivityLinks l)) :=
  resp_map fun _ _ hd => hd.mapEx fun e e' he => by
    unfold dropRpLink
    have hl' := Bool.eq_iff_iff.mpr (RE.truthy hu he)
    by_cases hc : (e.type = .referenceProduct ∨ e.type = .droppedProduct) ∧ truthy e.activityLink = true
    · rw [if_pos hc, if_pos (RE.type he ▸ hl' ▸ hc)]
      exact RE.noLink he
    · rw [if_neg hc, if_neg (RE.type he ▸ hl' ▸ hc)]
      exact he

theorem resp_dropZero (hu : ρ.Proper) : Resp ρ (fun l => .ok (dropZeroAmountActivityLinks l)) :=
  resp_map fun _ _ hd => hd.mapEx fun e e' he => by
    unfold dropZeroLink
    have hl' := Bool.eq_iff_iff.mpr (RE.truthy hu he)
    by_cases hc : e.amount = 0 ∧ truthy e.activityLink = true
    · rw [if_pos hc, if_pos (RE.amount he ▸ hl' ▸ hc)]
      exact RE.noLink he
    · rw [if_neg hc, if_neg (RE.amount he ▸ hl' ▸ hc)]
      exact he

theorem resp_parentChild (hu : ρ.Proper) : Resp ρ updateActivityLinkParentChild :=
  resp_mapE fun d d' hd => by
    unfold updateParentChild
    have hp : d'.parent = d.parent.map ρ.id := by obtain ⟨_, _, rfl, -⟩ := hd; rfl
    rw [hp]
    cases hp' : d.parent with
    | none => exact hd
    | some p =>
      simp only [Option.map_some]
      by_cases hpn : p = ""
      · rw [if_pos hpn, if_pos ((id_empty hu).mpr hpn)]; exact hd
      · rw [if_neg hpn, if_neg (fun h => hpn ((id_empty hu).mp h))]
        refine (ER.mapE hd.exs fun e e' he => ?_).bind fun _ _ hex => by
          have := hd.setEx hex
          rw [hp, hp'] at *
          exact this
        unfold redirectToChild
        rw [RE.allocatable he, hd.id]
        refine (ER.refl _).bind ?_
        rintro b _ rfl
        cases b
        · simp only [Bool.false_eq_true, if_false]
          by_cases hl : e.activityLink = some p
          · rw [if_pos hl, if_pos ((RE.link_iff hu he).mp hl)]
            rw [he]; rfl
          · rw [if_neg hl, if_neg (fun h => hl ((RE.link_iff hu he).mpr h))]
            exact he
        · exact he

theorem resp_fix35 (hu : ρ.Proper) : Resp ρ (fun l => .ok (fix35ActivityLinks l)) :=
  resp_map fun _ _ hd => hd.mapEx fun e e' he => by
    have h35 : ρ.id removedLink35 = removedLink35 := hu.removed
    have hi := RE.link_iff hu he (s := removedLink35)
    rw [h35] at hi
    by_cases hl : e.activityLink = some removedLink35
    · rw [if_pos hl, if_pos (hi.mp hl)]
      exact RE.noLink he
    · rw [if_neg hl, if_neg (fun h => hl (hi.mpr h))]
      exact he

/-! ## Activity links -/

theorem productionNamed_rel {d d' : Dataset} (h : RD ρ d d') (name : String) :
    ER (List.Forall₂ (RE ρ)) (productionNamed d name) (productionNamed d' name) := by
  unfold productionNamed
  refine (allocatableProduction_rel h).bind fun l l' hl => ?_
  exact forall₂_imp (fun _ _ h => h.1.1) (filter_rel (fun _ _ he => by rw [RE.name he.1]) hl)

theorem dictSet_id (hu : ρ.Proper) (k : String) {a b : Dataset} (hab : RD ρ a b) {m m' : List (String × Dataset)}
    (h : List.Forall₂ (fun p p' => p'.1 = ρ.id p.1 ∧ RD ρ p.2 p'.2) m m') :
    List.Forall₂ (fun p p' => p'.1 = ρ.id p.1 ∧ RD ρ p.2 p'.2) (dictSet k a m) (dictSet (ρ.id k) b m') := by
  induction h with
  | nil => exact .cons ⟨rfl, hab⟩ .nil
  | @cons p p' m m' hp hm ih =>
    obtain ⟨k1, x⟩ := p
    obtain ⟨k2, y⟩ := p'
    obtain ⟨rfl, hxy⟩ := hp
    unfold dictSet
    by_cases hk : k1 = k
    · rw [if_pos hk, if_pos (congrArg _ hk)]
      exact .cons ⟨rfl, hab⟩ hm
    · rw [if_neg hk, if_neg (fun h => hk (hu.id h))]
      exact .cons ⟨rfl, hxy⟩ ih

theorem idMapping_rel (hu : ρ.Proper) {l l' : List Dataset} (hl : List.Forall₂ (RD ρ) l l') (i : String) : ER (RD ρ) (idMapping l i) (idMapping l' (ρ.id i)) := by
  refine ER.getKey ?_
  have h1 : List.Forall₂ (fun p p' : String × Dataset => p'.1 = ρ.id p.1 ∧ RD ρ p.2 p'.2) (dictOf (fun d : Dataset => d.id) (fun d => d) l) (dictOf (fun d : Dataset => d.id) (fun d => d) l') := by
    unfold dictOf
    suffices H : ∀ m m' : List (String × Dataset), List.Forall₂ (fun p p' : String × Dataset => p'.1 = ρ.id p.1 ∧ RD ρ p.2 p'.2) m m' →
        List.Forall₂ (fun p p' : String × Dataset => p'.1 = ρ.id p.1 ∧ RD ρ p.2 p'.2) (l.foldl (fun acc a => dictSet a.id a acc) m) (l'.foldl (fun acc a => dictSet a.id a acc) m') from H [] [] .nil
    induction hl with
    | nil => intro m m' h; exact h
    | cons hab _ ih =>
      intro m m' h
      simp only [List.foldl_cons]
      rw [RD.id hab]
      exact ih _ _ (dictSet_id hu _ hab h)
  revert h1
  generalize dictOf (fun d : Dataset => d.id) (fun d => d) l = m
  generalize dictOf (fun d : Dataset => d.id) (fun d => d) l' = m'
  intro h1
  induction h1 with
  | nil => exact .none
  | @cons p p' m m' hp _ ih =>
    obtain ⟨k1, x⟩ := p
    obtain ⟨k2, y⟩ := p'
    obtain ⟨rfl, hxy⟩ := hp
    simp only [List.lookup_cons]
    by_cases hk : i = k1
    · subst hk
      simpa using Option.Rel.some hxy
    · rw [beq_false_of_ne hk, beq_false_of_ne fun h => hk (hu.id h)]
      exact ih

theorem resp_linkValidity (hu : ρ.Proper) : Resp ρ checkActivityLinkValidity :=
  resp_check fun l l' hl => ER.forE hl fun d d' hd => ER.forE hd.exs fun e e' he => by
    unfold checkLink
    rw [RE.link he, ← RE.name he]
    cases e.activityLink with
    | none => rfl
    | some s =>
      simp only [Option.map_some]
      by_cases hs : s = ""
      · rw [if_pos hs, if_pos ((id_empty hu).mpr hs)]
      · rw [if_neg hs, if_neg (fun h => hs ((id_empty hu).mp h))]
        have h1 := idMapping_rel hu hl s
        revert h1
        generalize idMapping l s = x
        generalize idMapping l' (ρ.id s) = y
        intro h1
        cases x <;> cases y
        · rfl
        · exact h1.elim
        · exact h1.elim
        · refine ER.eq ((productionNamed_rel h1 e.name).bind fun r r' hr => ?_)
          rw [hr.length_eq]
          exact ER.refl _

theorem isProductionNamed_rel {e e' : Exchange} (he : RE ρ e e') (name : String) : isProductionNamed name e = isProductionNamed name e' := by
  rw [he]; rfl

/-- A function of the volume. -/
theorem RE.onPv {e e' : Exchange} (h : RE ρ e e') (f : PV → PV) : RE ρ { e with pv := e.pv.map f } { e' with pv := e'.pv.map f } := by
  rw [h]; rfl

theorem addToTarget_rel {name : String} {amount : ℚ} {s : Except Err ℚ} {d d' : Dataset} (hd : RD ρ d d') :
    ER (RD ρ) (addToTarget name amount s d) (addToTarget name amount s d') := by
  unfold addToTarget
  refine (productionNamed_rel hd name).bind fun l l' hl => ?_
  cases hl with
  | nil => exact rfl
  | cons he hl =>
    cases hl with
    | cons _ _ => exact rfl
    | nil =>
      simp only
      rw [RE.pv he]
      refine (ER.refl _).bind ?_
      rintro v _ rfl
      refine (ER.refl _).bind fun _ _ _ => ?_
      refine ER.ok (hd.mapEx fun x x' hx => ?_)
      rw [isProductionNamed_rel hx]
      split
      · exact RE.onPv hx _
      · exact hx

theorem modifyLast_rel (hu : ρ.Proper) {i : String} {f f' : Dataset → Except Err Dataset} (hf : ∀ d d', RD ρ d d' → ER (RD ρ) (f d) (f' d'))
    {l l' : List Dataset} (hl : List.Forall₂ (RD ρ) l l') : ER (List.Forall₂ (RD ρ)) (modifyLast i f l) (modifyLast (ρ.id i) f' l') := by
  have hi : ∀ d d', RD ρ d d' → (d.id = i ↔ d'.id = ρ.id i) := fun d d' hd => by rw [hd.id, hu.id.eq_iff]
  induction hl with
  | nil => exact rfl
  | @cons d d' l l' hd hl ih =>
    unfold modifyLast
    rw [any_rel (q := fun x => x.id == ρ.id i) (fun d d' h => by rw [Bool.eq_iff_iff]; simpa using hi d d' h) hl]
    refine ER.ite Iff.rfl (fun _ => ih.bind fun r r' hr => List.Forall₂.cons hd hr) fun _ => ?_
    exact ER.ite (hi d d' hd) (fun _ => (hf _ _ hd).bind fun r r' hr => List.Forall₂.cons hr hl) fun _ => rfl

theorem hardLink_rel (hu : ρ.Proper) {d d' : Dataset} (hd : RD ρ d d') {st st' : List Dataset} (hst : List.Forall₂ (RD ρ) st st')
    {e e' : Exchange} (he : RE ρ e e') : ER (List.Forall₂ (RD ρ)) (hardLinkStep d st e) (hardLinkStep d' st' e') := by
  unfold hardLinkStep
  rw [RE.link he, hd.id, ← RE.name he, ← RE.amount he, biggest_rel hd]
  cases e.activityLink with
  | none => exact hst
  | some s =>
    simp only [Option.map_some]
    refine ER.ite (id_empty hu).symm (fun _ => hst) fun _ => ER.ite hu.id.eq_iff.symm (fun _ => hst) fun _ => ?_
    exact modifyLast_rel hu (fun _ _ hd' => addToTarget_rel hd') hst

theorem resp_hardLinked (hu : ρ.Proper) : Resp ρ addHardLinkedProductionVolumes := fun _ _ hl =>
  ER.foldE hl hl fun _ _ _ _ hs hd => ER.foldE hd.exs hs fun _ _ _ _ hs' he => hardLink_rel hu hd hs' he

theorem updateProduction_rel {e e' : Exchange} (he : RE ρ e e') : ER (RE ρ) (updateProduction e) (updateProduction e') := by
  unfold updateProduction
  rw [RE.allocatable he, RE.pv he]
  refine (ER.refl _).bind ?_
  rintro b _ rfl
  cases b
  · exact he
  · refine (ER.refl _).bind ?_
    rintro p _ rfl
    rw [he]; rfl

theorem resp_transforming : Resp ρ updateTransformingVolumes :=
  resp_mapE fun d d' hd => by
    by_cases ht : d.type = .transforming
    · rw [if_pos ht, if_pos (hd.type ▸ ht)]
      exact (ER.mapE hd.exs fun _ _ => updateProduction_rel).bind fun _ _ hex => hd.setEx hex
    · rw [if_neg ht, if_neg (hd.type ▸ ht)]
      exact hd

end Renamed
end Ocelot
