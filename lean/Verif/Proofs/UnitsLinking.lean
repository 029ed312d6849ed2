import Verif.Proofs.UnitsAllocation

/-! The rest of the consequential functions, and linking, respect a change of units. -/

namespace Ocelot
namespace Units
open Spec

variable {u : Spec.Units} {nr : Bool} {K : DsType → Prop}

/-! ## Constrained markets -/

theorem flatMap_rel {α β γ δ : Type} {R : α → β → Prop} {Q : γ → δ → Prop} {f : α → List γ} {g : β → List δ} (hf : ∀ a b, R a b → List.Forall₂ Q (f a) (g b))
    {l : List α} {l' : List β} (h : List.Forall₂ R l l') : List.Forall₂ Q (l.flatMap f) (l'.flatMap g) := by
  induction h with
  | nil => exact .nil
  | cons hab _ ih => simp only [List.flatMap_cons]; exact List.rel_append (hf _ _ hab) ih

theorem filterMap_rel {α β γ δ : Type} {R : α → β → Prop} {Q : γ → δ → Prop} {f : α → Option γ} {g : β → Option δ} (hf : ∀ a b, R a b → Option.Rel Q (f a) (g b))
    {l : List α} {l' : List β} (h : List.Forall₂ R l l') : List.Forall₂ Q (l.filterMap f) (l'.filterMap g) := by
  induction h with
  | nil => exact .nil
  | @cons a b _ _ hab _ ih =>
    have := hf _ _ hab
    revert this
    cases hfa : f a <;> cases hgb : g b <;> intro hr <;> cases hr
    · rw [List.filterMap_cons_none hfa, List.filterMap_cons_none hgb]; exact ih
    · next h => rw [List.filterMap_cons_some hfa, List.filterMap_cons_some hgb]; exact .cons h ih

theorem constrained_rel {l l' : List Dataset} (hl : List.Forall₂ (RD u nr K) l l') :
    List.Forall₂ (fun p p' : ℕ × ℕ × Exchange => p.1 = p'.1 ∧ p.2.1 = p'.2.1 ∧ RE u nr p.2.2 p'.2.2) (constrainedExchanges l) (constrainedExchanges l') := by
  refine flatMap_rel (fun d d' hd => filterMap_rel (fun e e' he => ?_) (zipIdx_rel hd.2.exs 0)) (zipIdx_rel hl 0)
  rw [he.2.conditional]
  split
  · exact .some ⟨hd.1, he.1, he.2⟩
  · exact .none

/-- A change of the exchange at one position, made only if it is constrained. -/
theorem modifyExchange_rel {l l' : List Dataset} (hl : List.Forall₂ (RD u nr K) l l') (i j : ℕ)
    (hf : ∀ d ∈ l[i]?, ∀ e ∈ d.exchanges[j]?, u.flow e.id = 1) : List.Forall₂ (RD u nr K) (modifyExchange i j toInput l) (modifyExchange i j toInput l') := by
  unfold modifyExchange
  induction hl generalizing i with
  | nil => cases i <;> exact .nil
  | @cons d d' l l' hd hl ih =>
    cases i with
    | succ i => exact .cons hd (ih i hf)
    | zero =>
      refine .cons (hd.setEx ?_) hl
      have hf' := hf d (by simp)
      have hex := hd.exs
      revert hf' hex
      generalize d.exchanges = ex
      generalize d'.exchanges = ex'
      intro hf' hex
      clear * - hf' hex
      induction hex generalizing j with
      | nil => cases j <;> exact .nil
      | @cons e e' _ _ he hl ih =>
        cases j with
        | zero => exact .cons (toInput_rel he (hf' e (by simp))) hl
        | succ j => exact .cons he (ih j (fun x hx => hf' x (by simpa using hx)))

/-- Identifiers by position. -/
def idsOf (l : List Dataset) : List (List String) := l.map fun d => d.exchanges.map (·.id)

theorem ids_modify (i j : ℕ) (f : Exchange → Exchange) (hf : ∀ e, (f e).id = e.id) (l : List Dataset) : idsOf (modifyExchange i j f l) = idsOf l := by
  unfold idsOf modifyExchange
  induction l generalizing i with
  | nil => cases i <;> rfl
  | cons d l ih =>
    cases i with
    | succ i => simp [List.modify_succ_cons, ih]
    | zero =>
      simp only [List.modify_zero_cons, List.map_cons, List.cons.injEq, and_true]
      generalize d.exchanges = ex
      clear ih
      induction ex generalizing j with
      | nil => cases j <;> rfl
      | cons e ex ih' =>
        cases j with
        | zero => simp [hf]
        | succ j => simp [List.modify_succ_cons, ih']

theorem ids_swap {name : String} {d r : Dataset} (h : swapRoles name d = .ok r) : r.exchanges.map (·.id) = d.exchanges.map (·.id) := by
  unfold swapRoles at h
  obtain ⟨_, -, h⟩ := bind_eq_ok.mp h
  simp only at h
  split at h
  · split at h
    · cases h
      simp only [List.map_map]
      refine List.map_congr_left fun e _ => ?_
      simp only [Function.comp]
      split <;> split <;> rfl
    · cases h
  · cases h

theorem ids_modifyLast {id : String} {f : Dataset → Except Err Dataset} (hf : ∀ d r, f d = .ok r → r.exchanges.map (·.id) = d.exchanges.map (·.id))
    {l r : List Dataset} (h : modifyLast id f l = .ok r) : idsOf r = idsOf l := by
  induction l generalizing r with
  | nil => cases h
  | cons d l ih =>
    unfold modifyLast at h
    split at h
    · obtain ⟨r', h1, h2⟩ := bind_eq_ok.mp h
      cases h2
      simp only [idsOf, List.map_cons] at ih ⊢
      rw [ih h1]
    · split at h
      · obtain ⟨r', h1, h2⟩ := bind_eq_ok.mp h
        cases h2
        simp only [idsOf, List.map_cons, hf d r' h1]
      · cases h

theorem ids_step {st r : List Dataset} {p : ℕ × ℕ × Exchange} (h : constrainedStep st p = .ok r) : idsOf r = idsOf st := by
  unfold constrainedStep at h
  obtain ⟨_, -, h⟩ := bind_eq_ok.mp h
  rw [ids_modifyLast (fun _ _ => ids_swap) h, ids_modify p.1 p.2.1 toInput (fun _ => rfl)]

theorem ids_get {l : List Dataset} {i j : ℕ} {d : Dataset} {e : Exchange} (hd : l[i]? = some d) (he : d.exchanges[j]? = some e) :
    ((idsOf l)[i]?.bind fun x => x[j]?) = some e.id := by
  simp [idsOf, hd, he]

theorem constrained_mem {l : List Dataset} {p : ℕ × ℕ × Exchange} (h : p ∈ constrainedExchanges l) :
    p.2.2.conditional = some true ∧ ((idsOf l)[p.1]?.bind fun x => x[p.2.1]?) = some p.2.2.id := by
  unfold constrainedExchanges at h
  obtain ⟨⟨d, i⟩, hd, h⟩ := List.mem_flatMap.mp h
  obtain ⟨⟨e, j⟩, he, h⟩ := List.mem_filterMap.mp h
  simp only at h he
  split at h
  · next hc =>
    cases h
    exact ⟨hc, ids_get (List.mem_zipIdx_iff_getElem?.mp hd) (List.mem_zipIdx_iff_getElem?.mp he)⟩
  · cases h

theorem resp_constrained : Resp u nr K handleConstrainedMarkets := by
  intro l l' hl
  unfold handleConstrainedMarkets
  refine (ER.foldE (S := fun st st' => List.Forall₂ (RD u nr K) st st' ∧ idsOf st = idsOf l) (mem_rel (constrained_rel hl)) ⟨hl, rfl⟩ ?_).mono fun _ _ h => h.1
  rintro st st' p p' ⟨hst, hids⟩ ⟨⟨h1, h2, h3⟩, hm⟩
  have hc := constrained_mem hm
  have hstep : ER (List.Forall₂ (RD u nr K)) (constrainedStep st p) (constrainedStep st' p') := by
    unfold constrainedStep
    rw [← h3.link, ← h1, ← h2, ← h3.name]
    refine (ER.refl _).bind ?_
    rintro link _ rfl
    refine modifyLast_rel (fun d d' hd => swap_rel _ hd) (modifyExchange_rel hst _ _ ?_)
    intro d hd e he
    have := ids_get hd he
    rw [hids, hc.2, Option.some.injEq] at this
    rw [← this]
    by_contra hf
    exact (h3.1.1.flow hf).2.2.1 hc.1
  refine hstep.mem.mono ?_
  rintro r r' ⟨hr, he, -⟩
  exact ⟨hr, (ids_step he).trans hids⟩

theorem resp_deleteLinks : Resp u nr K deleteLinksToConstrained := by
  intro l l' hl
  unfold deleteLinksToConstrained constrainedActivities
  have h1 : List.Forall₂ (RE u nr) (l.flatMap fun ds => ds.exchanges.filter fun e => e.conditional == some true)
      (l'.flatMap fun ds => ds.exchanges.filter fun e => e.conditional == some true) :=
    flatMap_rel (fun d d' hd => forall₂_imp (fun _ _ h => h.1) (filter_rel (fun e e' he => by rw [RE.conditional he]) hd.exs)) hl
  refine (ER.mapE (Q := Eq) h1 fun e e' he => by rw [he.link]; exact ER.refl _).bind fun _ _ _ => ?_
  refine ER.ok (map_rel (fun d d' hd => hd.mapEx fun e e' he => ?_) hl)
  unfold dropLink
  by_cases hc : e.conditional ≠ some true ∧ e.activityLink.getD "" ≠ ""
  · rw [if_pos hc, if_pos (he.conditional ▸ he.link ▸ hc)]
    exact he.noLink
  · rw [if_neg hc, if_neg (he.conditional ▸ he.link ▸ hc)]
    exact he

theorem namesOfType_rel (t : ExcType) {l l' : List Dataset} (hl : List.Forall₂ (RD u nr K) l l') : namesOfType t l = namesOfType t l' := by
  unfold namesOfType
  refine List.forall₂_eq_eq_eq ▸ flatMap_rel (Q := Eq) (fun d d' hd => ?_) hl
  rw [map_eq_rel (fun e e' he => RE.name he.1) (filter_rel (fun e e' he => by rw [RE.type he]) hd.exs)]
  exact refl_list _

theorem resp_alternative : Resp u nr K ensureAlternativeProduction := by
  intro l l' hl
  unfold ensureAlternativeProduction
  rw [namesOfType_rel .byproduct hl, namesOfType_rel .referenceProduct hl]
  exact ER.ite Iff.rfl (fun _ => hl) fun _ => rfl

/-! ## Suppliers -/

theorem RD.sup {d d' : Dataset} (h : RD u nr K d d') (hK : K d.type) : Option.Rel (List.Forall₂ (RE u nr)) d.suppliers d'.suppliers := by
  obtain ⟨_, _, rfl, -, -, hs⟩ := h; exact hs hK

theorem getD_rel {α β : Type} {R : α → β → Prop} {o : Option (List α)} {o' : Option (List β)} (h : Option.Rel (List.Forall₂ R) o o') :
    List.Forall₂ R (o.getD []) (o'.getD []) := by
  cases h with
  | some h => exact h
  | none => exact .nil

theorem RD.setSup {d d' : Dataset} (h : RD u nr K d d') {s s' : Option (List Exchange)} (hs : K d.type → Option.Rel (List.Forall₂ (RE u nr)) s s') :
    RD u nr K { d with suppliers := s } { d' with suppliers := s' } := by
  obtain ⟨ex', _, rfl, hex, hn, -⟩ := h
  exact ⟨ex', s', rfl, hex, hn, hs⟩

theorem bestSuppliers_rel {l l' : List Exchange} (hl : List.Forall₂ (RE u nr) l l') (levels : List String) :
    ER (List.Forall₂ (RE u nr)) (bestSuppliers l levels) (bestSuppliers l' levels) := by
  induction levels with
  | nil => exact rfl
  | cons level rest ih =>
    unfold bestSuppliers suppliersAt
    refine (ER.filterE hl fun e e' he => by rw [he.2]; rfl).bind fun r r' hr => ?_
    exact ER.ite (nil_rel hr) (fun _ => ih) fun _ => forall₂_imp (fun _ _ h => h.1) hr

theorem resp_prune : Resp u nr All pruneByTechnologyLevel :=
  resp_mapE fun d d' hd => by
    have hs := getD_rel (hd.sup trivial)
    unfold pruneSuppliers
    refine ER.ite (by rw [hd.type, ne_eq, ne_eq, nil_rel hs]) (fun _ => ?_) fun _ => hd
    exact (bestSuppliers_rel hs _).bind fun _ _ hb => hd.setSup fun _ => .some hb

/-! ## Labels, codes and locations -/

theorem resp_labelProduct : Resp u nr K labelReferenceProduct :=
  resp_mapE fun d d' hd => (single_rel hd).bind fun e e' he => by
    rw [he.1.name]
    obtain ⟨ex', s', rfl, hex, hn, hs⟩ := hd
    exact ⟨ex', s', rfl, hex, hn, hs⟩

theorem withRefProduct_rel {d d' : Dataset} (hd : RD u nr K d d') :
    ER (fun p p' => p.1 = p'.1 ∧ RD u nr K p.2 p'.2) (withRefProduct d) (withRefProduct d') := by
  unfold withRefProduct
  rw [hd.refProduct]
  refine (ER.refl _).bind ?_
  rintro a _ rfl
  exact ⟨rfl, hd⟩

theorem keys_rel {p q : Dataset → Bool} (hp : ∀ d d', RD u nr K d d' → p d = q d') {l l' : List Dataset} (hl : List.Forall₂ (RD u nr K) l l') :
    ER (List.Forall₂ fun a a' : String × Dataset => a.1 = a'.1 ∧ RD u nr K a.2 a'.2) (mapE withRefProduct (l.filter p)) (mapE withRefProduct (l'.filter q)) :=
  ER.mapE (filter_rel hp hl) fun _ _ h => withRefProduct_rel h.1

theorem resp_whitelisted : Resp u nr K deleteWhitelistedMarkets := by
  intro l l' hl
  have hw : ∀ d d', RD u nr K d d' → isWhitelisted d = isWhitelisted d' := fun d d' hd => by
    unfold isWhitelisted; rw [hd.type, hd.name, hd.location]
  unfold deleteWhitelistedMarkets
  refine (keys_rel hw hl).bind fun _ _ _ => ?_
  exact ER.ok (forall₂_imp (fun _ _ h => h.1) (filter_rel (fun d d' hd => by rw [hw d d' hd]) hl))

theorem resp_fakePv : Resp u nr K assignFakePvToConfidential :=
  resp_mapE fun d d' hd => by
    unfold assignFakePv
    have h1 : confidentialNames.contains d.name = false := by simpa using hd.confidential
    rw [← hd.name, h1]
    simp only [Bool.false_eq_true, and_false, if_false]
    exact hd

theorem resp_pipeline : Resp u nr K (fun l => .ok (correctPipelineLocation l)) :=
  resp_map fun d d' hd => by
    obtain ⟨ex', s', rfl, hex, hn, hs⟩ := hd
    split
    · exact ⟨ex', s', rfl, hex, hn, hs⟩
    · exact ⟨ex', s', rfl, hex, hn, hs⟩

theorem resp_noRow : Resp u nr K checkNoRowMarketGroups := by
  intro l l' hl
  unfold checkNoRowMarketGroups
  rw [any_rel (fun d d' hd => by rw [RD.type hd, RD.location hd]) hl]
  exact ER.ite Iff.rfl (fun _ => rfl) fun _ => hl

theorem hash_rel (lower md5 : String → String) {d d' : Dataset} (hd : RD u nr K d d') : activityHash lower md5 d = activityHash lower md5 d' := by
  obtain ⟨ex', s', rfl, -⟩ := hd; rfl

theorem resp_codes (lower md5 : String → String) : Resp u nr K (addUniqueCodes lower md5) := by
  intro l l' hl
  unfold addUniqueCodes
  generalize ([] : List String) = seen
  induction hl generalizing seen with
  | nil => exact List.Forall₂.nil
  | @cons d d' l l' hd _ ih =>
    unfold addCodesFrom
    rw [hash_rel lower md5 hd]
    refine ER.ite Iff.rfl (fun _ => rfl) fun _ => (ih _).bind fun r r' hr => List.Forall₂.cons ?_ hr
    obtain ⟨ex', s', rfl, hex, hn, hs⟩ := hd
    exact ⟨ex', s', rfl, hex, hn, hs⟩

/-- A code. -/
theorem RE.setCode {e e' : Exchange} (h : RE u nr e e') (c : Option String) : RE u nr { e with code := c } { e' with code := c } :=
  ⟨⟨⟨h.1.1.flow, h.1.1.pv, h.1.1.price⟩, h.1.2⟩, by rw [h.2]; rfl⟩

theorem linkToOnly_rel {e e' : Exchange} (h : RE u nr e e') {l l' : List Dataset} (hl : List.Forall₂ (RD u nr K) l l') :
    ER (RE u nr) (linkToOnly e l) (linkToOnly e' l') := by
  cases hl with
  | nil => exact h
  | cons hd hl =>
    cases hl with
    | cons _ _ => exact h
    | nil =>
      unfold linkToOnly
      simp only
      rw [hd.code]
      refine (ER.refl _).bind ?_
      rintro c _ rfl
      exact h.setCode _

theorem makesProduct_rel (name : String) {d d' : Dataset} (hd : RD u nr K d d') : makesProduct name d = makesProduct name d' := by
  unfold makesProduct
  rw [hd.refProduct]

theorem RD.mapExE2 {f g : Exchange → Except Err Exchange} {d d' : Dataset} (hd : RD u nr K d d') (hf : ∀ e e', RE u nr e e' → ER (RE u nr) (f e) (g e')) :
    ER (RD u nr K) (mapExchangesE f d) (mapExchangesE g d') := by
  unfold mapExchangesE
  exact (ER.mapE hd.exs hf).bind fun _ _ h => hd.setEx h

theorem resp_actualize : Resp u nr K actualizeActivityLinks := by
  intro l l' hl
  refine ER.mapE hl fun d d' hd => hd.mapExE2 fun e e' he => ?_
  unfold actualizeLink
  rw [he.link, he.name]
  refine ER.ite Iff.rfl (fun _ => he) fun _ => ?_
  have hg := filter_rel (p := fun ds : Dataset => decide (some ds.id = e'.activityLink)) (q := fun ds : Dataset => decide (some ds.id = e'.activityLink))
    (fun d d' hd => by rw [RD.id hd]) hl
  refine ER.ite (nil_rel hg) (fun _ => rfl) fun _ => ?_
  refine (ER.filterE hg fun d d' hd => makesProduct_rel _ hd.1).bind fun r r' hr => ?_
  exact linkToOnly_rel he (forall₂_imp (fun _ _ h => h.1.1) hr)

/-! ## Rest of the world -/

theorem productionVolume_rel {d d' : Dataset} (hd : RD u nr K d d') : productionVolume d' = (productionVolume d).map (u.volume * ·) := by
  unfold productionVolume
  have h := referenceProducts_rel hd
  revert h
  generalize referenceProducts d = l
  generalize referenceProducts d' = l'
  intro h
  cases h with
  | nil => rfl
  | cons he hl =>
    cases hl with
    | cons _ _ => rfl
    | nil => simp only; rw [he.1.pv, Option.map_map, Option.map_map]; rfl

theorem originalVolume_rel {d d' : Dataset} (hd : RD u nr K d d') : originalProductionVolume d' = (originalProductionVolume d).map (u.volume * ·) := by
  unfold originalProductionVolume
  have h := referenceProducts_rel hd
  revert h
  generalize referenceProducts d = l
  generalize referenceProducts d' = l'
  intro h
  cases h with
  | nil => rfl
  | cons he hl =>
    cases hl with
    | cons _ _ => rfl
    | nil =>
      simp only
      rw [he.1.pv, Option.map_map, Option.map_map]
      congr 1
      funext p
      simp only [Function.comp, Spec.Units.pv]
      cases p.originalAmount <;> rfl

theorem getD_volume {o : Option ℚ} : (o.map (u.volume * ·)).getD 0 = u.volume * o.getD 0 := by cases o <;> simp

theorem map_max (hu : u.Proper) (a b : ℚ) : max (u.volume * a - u.volume * b) 0 = u.volume * max (a - b) 0 := by
  rw [← mul_sub, mul_max_of_nonneg _ _ hu.volume.le, mul_zero]

theorem regional_rel {l l' : List Dataset} (hl : List.Forall₂ (RD u nr K) l l') : regionalVolume l' = u.volume * regionalVolume l := by
  unfold regionalVolume
  exact sum_rel (map_rel (fun d d' hd => by rw [originalVolume_rel hd.1, getD_volume]) (filter_rel (fun d d' hd => by rw [RD.location hd]) hl))

theorem relabel_rel (hu : u.Proper) {r r' : ℚ} (hr : r' = u.volume * r) {d d' : Dataset} (hd : RD u nr K d d') :
    ER (RD u nr K) (relabelGlobal r d) (relabelGlobal r' d') := by
  unfold relabelGlobal
  refine (single_rel hd).bind fun e e' he => (ER.getKey he.1.pvRel).bind fun _ _ _ => ?_
  have h := hd.mapEx (f := relabelVolume r) (g := relabelVolume r') fun x x' hx => by
    unfold relabelVolume
    by_cases ht : x.type = .referenceProduct
    · rw [if_pos ht, if_pos (hx.type ▸ ht)]
      refine hx.onPv fun p hp => ⟨hp, ?_⟩
      have : max (u.volume * p.amount - r') 0 = u.volume * max (p.amount - r) 0 := by rw [hr, map_max hu]
      simp only [Spec.Units.pv, this]
      rfl
    · rw [if_neg ht, if_neg (hx.type ▸ ht)]
      exact hx
  obtain ⟨ex', s', heq, hex, hn, hs⟩ := h
  refine ER.ok ⟨ex', s', ?_, hex, hn, hs⟩
  have := congrArg (fun x : Dataset => { x with location := "RoW" }) heq
  exact this

/-- Datasets with their grouping key. -/
abbrev RK (u : Spec.Units) (nr : Bool) (K : DsType → Prop) (p p' : (String × List String) × Dataset) : Prop := p.1 = p'.1 ∧ RD u nr K p.2 p'.2

theorem relabelGroup_rel (hu : u.Proper) (k : String × List String) {st st' : List ((String × List String) × Dataset)} (hst : List.Forall₂ (RK u nr K) st st') :
    ER (List.Forall₂ (RK u nr K)) (relabelGroup st k) (relabelGroup st' k) := by
  unfold relabelGroup
  have hg : List.Forall₂ (RD u nr K) ((st.filter fun p => decide (p.1 = k)).map (·.2)) ((st'.filter fun p => decide (p.1 = k)).map (·.2)) :=
    map_rel (fun _ _ h => h.1.2) (filter_rel (fun p p' hp => by rw [hp.1]) hst)
  simp only
  revert hg
  generalize (st.filter fun p => decide (p.1 = k)).map (·.2) = g
  generalize (st'.filter fun p => decide (p.1 = k)).map (·.2) = g'
  intro hg
  have hh : g.head?.map (·.type) = g'.head?.map (·.type) := by
    cases hg with
    | nil => rfl
    | cons h _ => simp [h.type]
  refine ER.ite (by rw [hh]) (fun _ => hst) fun _ => ER.ite ?_ (fun _ => ?_) fun _ => hst
  · rw [hg.length_eq, any_rel (fun d d' hd => by rw [RD.location hd]) hg]
  · have hc : checkSingleGlobalDataset g = checkSingleGlobalDataset g' := by
      unfold checkSingleGlobalDataset
      rw [(filter_rel (p := fun ds : Dataset => ds.location == "GLO") (q := fun ds => ds.location == "GLO") (fun d d' hd => by rw [RD.location hd]) hg).length_eq]
    rw [hc]
    refine (ER.refl _).bind fun _ _ _ => ER.mapE hst fun p p' hp => ?_
    unfold relabelMember
    refine ER.ite (by rw [hp.1, hp.2.location]) (fun _ => ?_) fun _ => hp
    exact (relabel_rel hu (regional_rel hg) hp.2).bind fun _ _ hd => ⟨rfl, hd⟩

theorem rowKey_rel {d d' : Dataset} (hd : RD u nr K d d') : ER (RK u nr K) (withRowKey d) (withRowKey d') := by
  unfold withRowKey
  have : rowGrouper d = rowGrouper d' := by
    unfold rowGrouper
    rw [hd.name]
    refine ER.eq ((allocatableProduction_rel hd).bind fun l l' hl => ?_)
    rw [map_eq_rel (fun e e' he => RE.name he.1.1) (filter_rel (q := fun e => e.amount != 0) (fun e e' he => by rw [he.1.amountP he.2]) hl)]
    exact ER.refl _
  rw [this]
  refine (ER.refl _).bind ?_
  rintro k _ rfl
  exact ⟨rfl, hd⟩

theorem resp_row (hu : u.Proper) : Resp u nr K relabelGlobalToRow := by
  intro l l' hl
  unfold relabelGlobalToRow
  refine (ER.mapE hl fun _ _ => rowKey_rel).bind fun st st' hst => ?_
  have hk : (groupBy (fun p : (String × List String) × Dataset => p.1) st).map (·.1) = (groupBy (fun p : (String × List String) × Dataset => p.1) st').map (·.1) :=
    map_eq_rel (fun _ _ h => h.1) (groupBy_rel (fun _ _ h => h.1) hst)
  rw [hk]
  refine (ER.foldE (refl_list _) hst fun s s' a b hs hab => by subst hab; exact relabelGroup_rel hu a hs).bind fun r r' hr => ?_
  exact ER.ok (map_rel (fun _ _ h => h.2) hr)

/-! ## Suppliers of markets -/

theorem noOverlaps_rel (T : Topology) {l l' : List Dataset} (hl : List.Forall₂ (RD u nr K) l l') : noOverlaps T l = noOverlaps T l' := by
  unfold noOverlaps
  rw [map_eq_rel (fun _ _ h => RD.location h) hl, hl.length_eq]

theorem geo_rel {l l' : List Dataset} (hl : List.Forall₂ (RD u nr K) l l') : noGeoDuplicates l = noGeoDuplicates l' := by
  unfold noGeoDuplicates
  rw [map_eq_rel (fun _ _ h => RD.location h) hl, hl.length_eq]

/-- Datasets by location. -/
abbrev RL (u : Spec.Units) (nr : Bool) (K : DsType → Prop) (p p' : String × Dataset) : Prop := p.1 = p'.1 ∧ RD u nr K p.2 p'.2

theorem byLocation_rel {l l' : List Dataset} (hl : List.Forall₂ (RD u nr K) l l') : List.Forall₂ (RL u nr K) (byLocation l) (byLocation l') :=
  dictOf_rel (Q := fun _ => RD u nr K) (fun _ _ h => RD.location h) (fun _ _ h => h) hl

theorem lookupL_rel {l l' : List (String × Dataset)} (hl : List.Forall₂ (RL u nr K) l l') (k : String) : Option.Rel (RD u nr K) (l.lookup k) (l'.lookup k) :=
  lookup_rel (R := fun _ => RD u nr K) hl k

theorem annotate_rel {e e' : Exchange} (he : RE u nr e e') {d d' : Dataset} (hd : RD u nr K d d') : RE u nr (annotateExchange e d) (annotateExchange e' d') := by
  unfold annotateExchange
  rw [← hd.location, ← hd.code, ← hd.level, ← hd.name]
  exact ⟨⟨⟨he.1.1.flow, he.1.1.pv, he.1.1.price⟩, he.1.2⟩, by rw [he.2]; rfl⟩

theorem supplierEntry_rel {d d' : Dataset} (hd : RD u nr K d d') : ER (RE u nr) (supplierEntry d) (supplierEntry d') :=
  (single_rel hd).bind fun _ _ he => annotate_rel he.1 hd

/-- What the pipeline uses from outside does not depend on units. -/
structure Env (u : Spec.Units) (P : PipelineEnv) : Prop where
  ord : ∀ d, P.ord (u.ds d) = P.ord d
  set : ∀ d n l, P.σ (u.ds d) n l = P.σ d n l

theorem ofGroup_rel {P : PipelineEnv} (hP : Env u P) {c c' : Dataset} (hc : RD u nr All c c') (loc : Loc) (name : String) {g g' : List Dataset}
    (hg : List.Forall₂ (RD u nr All) g g') : ER (List.Forall₂ (RE u nr)) (suppliersOfGroup P.T P.σ c loc name g) (suppliersOfGroup P.T P.σ c' loc name g') := by
  have hb := byLocation_rel hg
  unfold suppliersOfGroup
  rw [noOverlaps_rel P.T hg, map_eq_rel (fun _ _ h => RD.location h) hg]
  refine (ER.refl _).bind fun _ _ _ => (ER.refl _).bind ?_
  rintro row _ rfl
  refine (ER.refl _).bind ?_
  rintro inside _ rfl
  have hk : (inside.dedup.filter fun k => (byLocation g).any fun p => p.1 == k) = inside.dedup.filter fun k => (byLocation g').any fun p => p.1 == k := by
    congr 1
    funext k
    exact any_rel (fun _ _ h => by rw [h.1]) hb
  simp only
  rw [hk, hc.eq trivial, hP.set]
  refine ER.mapE (refl_list _) ?_
  rintro k _ rfl
  exact (ER.getKey (lookupL_rel hb k)).bind fun _ _ hd => supplierEntry_rel hd

theorem supply_rel {P : PipelineEnv} (hP : Env u P) (row : Finset ℕ) {s s' : List Dataset} (hs : List.Forall₂ (RD u nr All) s s') {c c' : Dataset}
    (hc : RD u nr All c c') : ER (RD u nr All) (supplyConsumer P.T P.σ row s c) (supplyConsumer P.T P.σ row s' c') := by
  unfold supplyConsumer
  rw [← hc.location]
  refine (ER.flatMapE (Q := RE u nr) (groupBy_rel (fun _ _ h => RD.name h) hs) fun g g' hg => ?_).bind fun new new' hn => ?_
  · rw [← hg.1]
    exact ofGroup_rel hP hc _ _ hg.2
  · have hsup := getD_rel (hc.sup trivial)
    obtain ⟨ex', s', rfl, hex, hno, -⟩ := hc
    exact ER.ok ⟨ex', _, rfl, hex, hno, fun _ => .some (List.rel_append hsup hn)⟩

/-- The same call. -/
structure RAp (u : Spec.Units) (nr : Bool) (a a' : Apportion) : Prop where
  consumer : ∀ d d', RD u nr All d d' → a.isConsumer d = a'.isConsumer d'
  row : a.row = a'.row
  suppliers : List.Forall₂ (RD u nr All) a.suppliers a'.suppliers

theorem apportionPrep_rel (T : Topology) {c c' : Dataset → Bool} (hcc : ∀ d d', RD u nr All d d' → c d = c' d') {l l' s s' : List Dataset}
    (hl : List.Forall₂ (RD u nr All) l l') (hs : List.Forall₂ (RD u nr All) s s') :
    ER (Option.Rel (RAp u nr)) (apportionPrep T c l s) (apportionPrep T c' l' s') := by
  unfold apportionPrep
  rw [geo_rel hl, map_eq_rel (fun _ _ h => RD.location h) hl]
  refine (ER.refl _).bind fun _ _ _ => (ER.refl _).bind ?_
  rintro row _ rfl
  exact ER.ok (.some ⟨hcc, rfl, hs⟩)

theorem apportionUpd_rel {P : PipelineEnv} (hP : Env u P) {a a' : Option Apportion} (ha : Option.Rel (RAp u nr) a a') {d d' : Dataset} (hd : RD u nr All d d') :
    ER (RD u nr All) (apportionUpd P.T P.σ a d) (apportionUpd P.T P.σ a' d') := by
  cases ha with
  | none => exact hd
  | some ha =>
    unfold apportionUpd
    simp only
    rw [ha.consumer d d' hd, ha.row]
    exact ER.ite Iff.rfl (fun _ => supply_rel hP _ ha.suppliers hd) fun _ => hd

theorem groupStep_rel {κ τ τ' : Type} [DecidableEq κ] {key key' : Dataset → Option κ} (hk : ∀ d d', RD u nr K d d' → key d = key' d') {R : τ → τ' → Prop}
    {prep : κ → List Dataset → Except Err τ} {prep' : κ → List Dataset → Except Err τ'} (hprep : ∀ k l l', List.Forall₂ (RD u nr K) l l' → ER R (prep k l) (prep' k l'))
    {upd : τ → Dataset → Except Err Dataset} {upd' : τ' → Dataset → Except Err Dataset}
    (hupd : ∀ t t' d d', R t t' → RD u nr K d d' → ER (RD u nr K) (upd t d) (upd' t' d')) {st st' : List Dataset} (hst : List.Forall₂ (RD u nr K) st st') (k : κ) :
    ER (List.Forall₂ (RD u nr K)) (groupStep key prep upd st k) (groupStep key' prep' upd' st' k) := by
  unfold groupStep
  refine (hprep k _ _ (forall₂_imp (fun _ _ h => h.1) (filter_rel (fun d d' hd => by rw [hk d d' hd]) hst))).bind fun t t' ht => ?_
  refine ER.mapE hst fun d d' hd => ?_
  exact ER.ite (by rw [hk d d' hd]) (fun _ => hupd _ _ _ _ ht hd) fun _ => hd

theorem groupKeys_rel {κ : Type} [DecidableEq κ] {key key' : Dataset → Option κ} (hk : ∀ d d', RD u nr K d d' → key d = key' d') {l l' : List Dataset}
    (hl : List.Forall₂ (RD u nr K) l l') : groupKeys key l = groupKeys key' l' := by
  unfold groupKeys
  have : l.filterMap key = l'.filterMap key' := by
    refine List.forall₂_eq_eq_eq ▸ filterMap_rel (Q := Eq) (fun d d' hd => ?_) hl
    rw [hk d d' hd]
    cases key' d' with
    | none => exact .none
    | some k => exact .some rfl
  rw [this]

theorem productIf_rel {p p' : Dataset → Bool} (hp : ∀ d d', RD u nr K d d' → p d = p' d') {d d' : Dataset} (hd : RD u nr K d d') :
    productIf p d = productIf p' d' := by
  unfold productIf
  rw [hp d d' hd, hd.refProduct]

theorem resp_addRecycled {P : PipelineEnv} (hP : Env u P) : Resp u nr All (addRecycledContentSuppliers P.T P.σ) := by
  intro l l' hl
  unfold addRecycledContentSuppliers
  have hm : ∀ d d', RD u nr All d d' → (d.type == DsType.market) = (d'.type == DsType.market) := fun d d' hd => by rw [hd.type]
  refine (keys_rel hm hl).bind fun _ _ _ => ?_
  refine (ER.filterE hl fun d d' hd => by rw [hd.type, hd.refProduct]).bind fun rc rc' hrc => ?_
  have hrc' : List.Forall₂ (RD u nr All) rc rc' := forall₂_imp (fun _ _ h => h.1) hrc
  rw [groupKeys_rel (fun d d' hd => productIf_rel hm hd) hl]
  refine ER.foldE (refl_list _) hl fun s s' k _ hs hkk => ?_
  subst hkk
  refine groupStep_rel (R := Option.Rel (RAp u nr)) (fun d d' hd => productIf_rel hm hd) (fun k g g' hg => ?_) (fun t t' d d' ht hd => apportionUpd_rel hP ht hd) hs k
  unfold recycledPrep
  have hs' := filter_rel (p := fun ds : Dataset => ds.refProduct == some (k ++ rcString)) (q := fun ds => ds.refProduct == some (k ++ rcString))
    (fun d d' hd => by rw [RD.refProduct hd]) hrc'
  simp only
  rw [noOverlaps_rel P.T hg]
  refine (ER.refl _).bind fun _ _ _ => ER.ite (nil_rel hs') (fun _ => ER.ok .none) fun _ => ?_
  exact apportionPrep_rel P.T (fun _ _ _ => rfl) hg (forall₂_imp (fun _ _ h => h.1) hs')

theorem wants_rel (to_ : DsType) {d d' : Dataset} (hd : RD u nr All d d') : wantsSuppliers to_ d = wantsSuppliers to_ d' := by
  unfold wantsSuppliers
  rw [hd.type, Bool.eq_iff_iff]
  simp only [Bool.and_eq_true, List.isEmpty_iff, nil_rel (getD_rel (hd.sup trivial))]

theorem resp_addSuppliers {P : PipelineEnv} (hP : Env u P) (from_ to_ : DsType) : Resp u nr All (addSuppliersToMarkets P.T P.σ from_ to_) := by
  intro l l' hl
  unfold addSuppliersToMarkets
  have hm : ∀ d d', RD u nr All d d' → (d.type == from_ || d.type == to_) = (d'.type == from_ || d'.type == to_) := fun d d' hd => by rw [hd.type]
  refine (keys_rel hm hl).bind fun _ _ _ => ?_
  rw [groupKeys_rel (fun d d' hd => productIf_rel hm hd) hl]
  refine ER.foldE (refl_list _) hl fun s s' k _ hs hkk => ?_
  subst hkk
  refine groupStep_rel (R := Option.Rel (RAp u nr)) (fun d d' hd => productIf_rel hm hd) (fun k g g' hg => ?_) (fun t t' d d' ht hd => apportionUpd_rel hP ht hd) hs k
  unfold addSuppliersPrep
  have hsup := forall₂_imp (fun _ _ h => h.1) (filter_rel (p := fun ds : Dataset => ds.type == from_) (q := fun ds => ds.type == from_) (fun d d' hd => by rw [RD.type hd]) hg)
  have hcon := forall₂_imp (fun _ _ h => h.1) (filter_rel (p := wantsSuppliers to_) (q := wantsSuppliers to_) (fun d d' hd => wants_rel to_ hd) hg)
  refine ER.ite (nil_rel hcon) (fun _ => ER.ok .none) fun _ => ER.ite Iff.rfl (fun _ => ?_) fun _ => ?_
  · rw [noOverlaps_rel P.T hcon]
    exact (ER.refl _).bind fun _ _ _ => apportionPrep_rel P.T (fun d d' hd => wants_rel to_ hd) hcon hsup
  · exact apportionPrep_rel P.T (fun d d' hd => wants_rel to_ hd) hcon hsup

/-! ## Volumes of markets -/

theorem entryVolume_rel {e e' : Exchange} (he : RE u nr e e') : ER (fun a b => b = u.volume * a) (entryVolume e) (entryVolume e') :=
  (ER.getKey he.pvRel).bind fun p p' hp => by rw [hp.2]; exact ER.ok rfl

theorem entryOriginal_rel {e e' : Exchange} (he : RE u nr e e') : ER (fun a b => b = u.volume * a) (entryOriginalVolume e) (entryOriginalVolume e') :=
  (ER.getKey he.pvRel).bind fun p p' hp => by
    rw [hp.2]
    refine ER.ok ?_
    simp only [Spec.Units.pv]
    cases p.originalAmount <;> rfl

theorem mapRefVolume_rel {f g : PV → PV} (hf : ∀ p, PlainObj p.toNumObj → PlainObj (f p).toNumObj ∧ g (u.pv p) = u.pv (f p)) {e e' : Exchange} (he : RE u nr e e') :
    RE u nr (mapRefVolume f e) (mapRefVolume g e') := by
  unfold mapRefVolume
  by_cases ht : e.type = .referenceProduct
  · rw [if_pos ht, if_pos (he.type ▸ ht)]
    exact he.onPv hf
  · rw [if_neg ht, if_neg (he.type ▸ ht)]
    exact he

theorem setMarketVolume_rel (hu : u.Proper) {a a' b b' : ℚ} (ha : a' = u.volume * a) (hb : b' = u.volume * b) (p : PV) :
    setMarketVolume a' b' (u.pv p) = u.pv (setMarketVolume a b p) := by
  subst ha hb
  have h1 : max (u.volume * b - (p.subtracted.map fun x => u.volume * x).getD 0) 0 = u.volume * max (b - p.subtracted.getD 0) 0 := by
    rw [getD_volume, map_max hu]
  simp only [setMarketVolume, Spec.Units.pv, h1]
  rfl

theorem updateMarket_rel (hu : u.Proper) {d d' : Dataset} (hd : RD u nr K d d') (hK : K d.type) : ER (RD u nr K) (updateMarketVolume d) (updateMarketVolume d') := by
  unfold updateMarketVolume
  refine (single_rel hd).bind fun rp rp' hrp => (ER.getKey (hd.sup hK)).bind fun s s' hs => (ER.mapE hs fun _ _ => entryOriginal_rel).bind fun o o' ho =>
    (ER.getKey hrp.1.pvRel).bind fun _ _ _ => (ER.mapE hs fun _ _ => entryVolume_rel).bind fun v v' hv => ?_
  refine ER.ok (hd.mapEx fun e e' he => mapRefVolume_rel (f := setMarketVolume o.sum v.sum) (g := setMarketVolume o'.sum v'.sum) (fun p hp => ⟨hp, ?_⟩) he)
  exact setMarketVolume_rel hu (sum_rel ho) (sum_rel hv) p

theorem resp_updateMarkets (hu : u.Proper) (T : Topology) (kind : DsType) (hk : kind ≠ .marketGroup) (hK : K kind) : Resp u nr K (updateMarketProductionVolumes T kind) := by
  intro l l' hl
  unfold updateMarketProductionVolumes
  rw [if_neg hk, if_neg hk]
  refine ER.mapE hl fun d d' hd => ?_
  exact ER.ite (by rw [hd.type]) (fun ht => updateMarket_rel hu hd (ht ▸ hK)) fun _ => hd

theorem propagateVolume_rel {c : Option String} {v v' : ℚ} (hv : v' = u.volume * v) {e e' : Exchange} (he : RE u nr e e') :
    ER (RE u nr) (propagateVolume c v e) (propagateVolume c v' e') := by
  unfold propagateVolume
  rw [he.code]
  refine (ER.refl _).bind ?_
  rintro a _ rfl
  refine (ER.refl _).bind ?_
  rintro b _ rfl
  by_cases hab : a = b
  · rw [if_pos hab, if_pos hab]
    refine ER.ok ⟨⟨⟨he.1.1.flow, ?_, he.1.1.price⟩, he.1.2⟩, ?_⟩
    · rintro p ⟨⟩
      exact ⟨rfl, rfl, rfl⟩
    · rw [he.2, hv]
      rfl
  · rw [if_neg hab, if_neg hab]
    exact he

theorem RD.ne_iff (hu : u.Proper) {a a' b b' : Dataset} (ha : RD u nr K a a') (hb : RD u nr K b b') (hKb : K b.type) : a' ≠ b' ↔ a ≠ b := by
  by_cases ht : a.type = b.type
  · exact (RD.eq_iff hu ha hb (ht ▸ hKb) hKb).not
  · constructor
    · rintro - rfl; exact ht rfl
    · rintro - h
      refine ht ?_
      rw [ha.type, hb.type, h]

theorem positions_rel (kind : DsType) {l l' : List Dataset} (hl : List.Forall₂ (RD u nr K) l l') : positionsOf kind l = positionsOf kind l' := by
  unfold positionsOf
  exact map_eq_rel (fun _ _ h => h.1.1) (filter_rel (fun p p' hp => by rw [hp.2.type]) (zipIdx_rel hl 0))

theorem get_rel {α β : Type} {R : α → β → Prop} {l : List α} {l' : List β} (h : List.Forall₂ R l l') (i : ℕ) : Option.Rel R l[i]? l'[i]? := by
  induction h generalizing i with
  | nil => simpa using Option.Rel.none
  | cons hab _ ih =>
    cases i with
    | zero => simpa using Option.Rel.some hab
    | succ i => simpa using ih i

theorem set_rel {α β : Type} {R : α → β → Prop} {l : List α} {l' : List β} (h : List.Forall₂ R l l') (i : ℕ) {a : α} {b : β} (hab : R a b) :
    List.Forall₂ R (l.set i a) (l'.set i b) := by
  induction h generalizing i with
  | nil => exact .nil
  | cons hcd hl ih =>
    cases i with
    | zero => exact .cons hab hl
    | succ i => exact .cons hcd (ih i)

theorem updateMarket_type {d r : Dataset} (h : updateMarketVolume d = .ok r) : r.type = d.type := by
  unfold updateMarketVolume at h
  obtain ⟨_, -, h⟩ := bind_eq_ok.mp h
  obtain ⟨_, -, h⟩ := bind_eq_ok.mp h
  obtain ⟨_, -, h⟩ := bind_eq_ok.mp h
  obtain ⟨_, -, h⟩ := bind_eq_ok.mp h
  obtain ⟨_, -, h⟩ := bind_eq_ok.mp h
  cases h; rfl

theorem propagate_type {m : List ℕ} {d : Dataset} {v : ℚ} {p : Dataset × ℕ} {r : Dataset} (h : propagateTo m d v p = .ok r) : r.type = p.1.type := by
  unfold propagateTo at h
  split at h
  · obtain ⟨_, -, h⟩ := bind_eq_ok.mp h
    obtain ⟨_, -, h⟩ := bind_eq_ok.mp h
    cases h; rfl
  · cases h; rfl

theorem mapE_types {α : Type} {f : α → Except Err Dataset} {t : α → DsType} (hf : ∀ a r, f a = .ok r → r.type = t a) {l : List α} {r : List Dataset}
    (h : mapE f l = .ok r) : r.map (·.type) = l.map t := by
  induction l generalizing r with
  | nil => cases h; rfl
  | cons a l ih =>
    unfold mapE at h
    obtain ⟨b, h1, h⟩ := bind_eq_ok.mp h
    obtain ⟨r', h2, h⟩ := bind_eq_ok.mp h
    cases h
    simp [hf a b h1, ih h2]

theorem groupStep_types {m : List ℕ} {st r : List Dataset} {i : ℕ} (h : updateGroupStep m st i = .ok r) : r.map (·.type) = st.map (·.type) := by
  unfold updateGroupStep at h
  cases hi : st[i]? with
  | none => rw [hi] at h; cases h; rfl
  | some d =>
    rw [hi] at h
    obtain ⟨d', h1, h⟩ := bind_eq_ok.mp h
    rw [mapE_types (t := fun p : Dataset × ℕ => p.1.type) (fun p r hr => propagate_type hr) h]
    have : (st.set i d').map (·.type) = st.map (·.type) := by
      rw [List.map_set, updateMarket_type h1]
      refine List.ext_getElem? fun j => ?_
      rw [List.getElem?_set]
      split
      · next hij =>
        subst hij
        rw [List.getElem?_map, hi]
        have hlt : i < st.length := (List.getElem?_eq_some_iff.mp hi).1
        simp [hlt]
      · rfl
    rw [← this]
    generalize st.set i d' = l
    rw [show (fun p : Dataset × ℕ => p.1.type) = (fun d : Dataset => d.type) ∘ Prod.fst from rfl, ← List.map_map, List.zipIdx_map_fst]

theorem updateGroup_rel (hu : u.Proper) (hK : K .marketGroup) {m : List ℕ} {st st' : List Dataset} (hst : List.Forall₂ (RD u nr K) st st')
    (hm : ∀ j ∈ m, ∀ t, (st.map (·.type))[j]? = some t → t = .marketGroup) {i : ℕ} (hi : i ∈ m) :
    ER (List.Forall₂ (RD u nr K)) (updateGroupStep m st i) (updateGroupStep m st' i) := by
  unfold updateGroupStep
  have hg := get_rel hst i
  revert hg
  generalize hd' : st'[i]? = od'
  cases h1 : st[i]? with
  | none => intro hg; cases hg; exact hst
  | some d =>
    intro hg
    cases hg with
    | some hd =>
      simp only
      have ht : d.type = .marketGroup := hm i hi _ (by rw [List.getElem?_map, h1]; rfl)
      refine (updateMarket_rel hu hd (ht ▸ hK)).mem.bind ?_
      rintro r r' ⟨hr, he, -⟩
      have htr : r.type = .marketGroup := by rw [updateMarket_type he, ht]
      refine ER.mapE (mem_rel (zipIdx_rel (set_rel hst i hr) 0)) fun p p' hp => ?_
      obtain ⟨⟨hp1, hp2⟩, hmem⟩ := hp
      unfold propagateTo
      refine ER.ite ?_ (fun hc => ?_) fun _ => hp2
      · rw [hp1, RD.ne_iff hu hp2 hr (htr ▸ hK)]
      · have hKp : K p.1.type := by
          have hp := List.mem_zipIdx_iff_getElem?.mp hmem
          rw [List.getElem?_set] at hp
          split at hp
          · split at hp
            · cases hp; rw [htr]; exact hK
            · cases hp
          · have := hm p.2 hc.1 p.1.type (by rw [List.getElem?_map, hp]; rfl)
            rw [this]; exact hK
        refine (ER.getKey (hp2.sup hKp)).bind fun s s' hs => ?_
        rw [← hr.code]
        refine (ER.mapE hs fun e e' he => propagateVolume_rel ?_ he).bind fun s s' hs => hp2.setSup fun _ => .some hs
        rw [productionVolume_rel hr, getD_volume]

theorem positions_types {kind : DsType} {l : List Dataset} {j : ℕ} (hj : j ∈ positionsOf kind l) (t : DsType) (ht : (l.map (·.type))[j]? = some t) : t = kind := by
  unfold positionsOf at hj
  obtain ⟨p, hp, rfl⟩ := List.mem_map.mp hj
  obtain ⟨hp, hk⟩ := List.mem_filter.mp hp
  rw [List.getElem?_map, List.mem_zipIdx_iff_getElem?.mp hp] at ht
  cases ht
  simpa using hk

theorem sizeRank_rel (o : List String) {l l' : List Dataset} (hl : List.Forall₂ (RD u nr K) l l') (i : ℕ) : sizeRank o l i = sizeRank o l' i := by
  unfold sizeRank
  have hg := get_rel hl i
  revert hg
  generalize l[i]? = a
  generalize l'[i]? = b
  intro hg
  cases hg with
  | none => rfl
  | some h => simp only; rw [h.location]

theorem groupOrder_rel (T : Topology) {l l' : List Dataset} (hl : List.Forall₂ (RD u nr K) l l') : groupOrder T l = groupOrder T l' := by
  unfold groupOrder
  rw [positions_rel _ hl, map_eq_rel (fun _ _ h => RD.location h.1) (filter_rel (q := fun ds : Dataset => ds.type == .marketGroup) (fun d d' hd => by rw [RD.type hd]) hl)]
  simp only [sizeRank_rel _ hl]

theorem groupOrder_mem {T : Topology} {l : List Dataset} {o : List ℕ} (h : groupOrder T l = .ok o) {i : ℕ} (hi : i ∈ o) : i ∈ positionsOf .marketGroup l := by
  unfold groupOrder at h
  obtain ⟨_, -, h⟩ := bind_eq_ok.mp h
  cases h
  exact (List.mem_insertionSort _).mp hi

theorem resp_updateGroups (hu : u.Proper) (T : Topology) (hK : K .marketGroup) : Resp u nr K (updateMarketProductionVolumes T .marketGroup) := by
  intro l l' hl
  unfold updateMarketProductionVolumes
  rw [if_pos rfl, if_pos rfl, ← groupOrder_rel T hl, ← positions_rel _ hl]
  refine (ER.refl (groupOrder T l)).mem.bind ?_
  rintro o _ ⟨rfl, ho, -⟩
  refine (ER.foldE (S := fun st st' => List.Forall₂ (RD u nr K) st st' ∧ st.map (·.type) = l.map (·.type)) (mem_rel (refl_list o)) ⟨hl, rfl⟩ ?_).mono fun _ _ h => h.1
  rintro st st' i _ ⟨hst, hty⟩ ⟨rfl, hi⟩
  refine (updateGroup_rel hu hK hst (fun j hj t ht => positions_types hj t (hty ▸ ht)) (groupOrder_mem ho hi)).mem.mono ?_
  rintro r r' ⟨hr, he, -⟩
  exact ⟨hr, (groupStep_types he).trans hty⟩

/-! ## Allocating suppliers -/

theorem div_volume (hu : u.Proper) (a b : ℚ) : u.volume * a / (u.volume * b) = a / b := mul_div_mul_left _ _ hu.volume.ne'

/-- A new exchange without identifier, amount as in the other units. -/
theorem new_rel (hu : u.Proper) {e : Exchange} (hid : e.id = "") (hpv : e.pv = none) (hpr : e.properties = []) (ht : e.type ≠ .byproduct) : RE u nr e e := by
  refine ⟨⟨⟨fun h => ?_, fun p hp => ?_, fun p hp => ?_⟩, fun _ h => ht h.1⟩, ?_⟩
  · rw [hid] at h; exact absurd hu.noId h
  · rw [hpv] at hp; cases hp
  · rw [hpr] at hp; cases hp
  · unfold Spec.Units.exc
    rw [hid, hu.noId, one_mul, hpv, hpr]
    cases e
    simp_all

theorem marketInput_share (hu : u.Proper) (a t : ℚ) {e e' : Exchange} (he : RE u nr e e') :
    ER (List.Forall₂ (RE u nr)) (marketInput a t e) (marketInput a (u.volume * t) e') := by
  unfold marketInput
  refine (ER.getKey he.pvRel).bind fun p p' hp => ?_
  have hf : p'.amount / (u.volume * t) = p.amount / t := by rw [hp.2]; exact div_volume hu _ _
  simp only [hf]
  refine ER.ite Iff.rfl (fun _ => ER.ok .nil) fun _ => ?_
  rw [← he.code]
  refine (ER.refl _).bind ?_
  rintro c _ rfl
  have hloc : e'.location = e.location := by rw [he.2]; rfl
  have hunit : e'.unit = e.unit := by rw [he.2]; rfl
  rw [hloc, hunit, ← he.name]
  refine (ER.refl _).bind fun _ _ _ => ER.ok (.cons (new_rel hu rfl rfl rfl (by simp)) .nil)

theorem default_rel (hu : u.Proper) (a : ℚ) {e e' : Exchange} (he : RE u nr e e') :
    ER (List.Forall₂ (RE u nr)) (marketInput a 4321 (defaultVolume e)) (marketInput a 4321 (defaultVolume e')) := by
  unfold marketInput defaultVolume
  have hloc : e'.location = e.location := by rw [he.2]; rfl
  have hunit : e'.unit = e.unit := by rw [he.2]; rfl
  have hpv : (e'.pv.map fun p => { p with amount := (4321 : ℚ) }) = (e.pv.map u.pv).map fun p => { p with amount := (4321 : ℚ) } := by rw [he.pv]
  simp only
  rw [hpv]
  cases e.pv with
  | none => exact rfl
  | some p =>
    simp only [Option.map_some]
    refine (ER.ok (R := fun p p' : PV => p.amount = 4321 ∧ p'.amount = 4321) ⟨rfl, rfl⟩).bind fun p p' hp => ?_
    rw [hp.1, hp.2]
    refine ER.ite Iff.rfl (fun _ => ER.ok .nil) fun _ => ?_
    rw [← he.code, hloc, hunit, ← he.name]
    refine (ER.refl _).bind ?_
    rintro c _ rfl
    refine (ER.refl _).bind fun _ _ _ => ER.ok (.cons (new_rel hu rfl rfl rfl (by simp)) .nil)

theorem RD.forget {K' : DsType → Prop} {d d' : Dataset} (h : RD u nr K d d') (hK : K' d.type → K d.type) : RD u nr K' d d' := by
  obtain ⟨ex', s', rfl, hex, hn, hs⟩ := h
  exact ⟨ex', s', rfl, hex, hn, fun h => hs (hK h)⟩

theorem allocateSuppliers_rel (hu : u.Proper) {d d' : Dataset} (hd : RD u nr K d d') (hK : K d.type) :
    ER (RD u nr fun t => K t ∧ t ≠ d.type) (allocateSuppliers d) (allocateSuppliers d') := by
  have hd2 : RD u nr (fun t => K t ∧ t ≠ d.type) d d' := hd.forget fun h => h.1
  unfold allocateSuppliers
  refine (single_rel hd).bind fun e e' he => (ER.getKey (hd.sup hK)).bind fun s s' hs => (ER.mapE hs fun _ _ => entryVolume_rel).bind fun v v' hv => ?_
  have hamt : e'.amount = e.amount := he.1.amount (by rw [he.2]; decide) (by rw [he.2]; decide)
  have hsum : v'.sum = u.volume * v.sum := sum_rel hv
  refine ER.ite ?_ (fun _ => ?_) fun _ => ?_
  · rw [hsum, mul_eq_zero, or_iff_right hu.volume.ne']
  · refine ER.ite (by rw [hs.length_eq]) (fun _ => hd2) fun _ => ?_
    rw [← hd.refProduct]
    refine (ER.refl _).bind fun _ _ _ => ?_
    refine (ER.mapE (Q := Eq) hs fun e e' he => by rw [he.2]; exact ER.refl _).bind fun _ _ _ => ?_
    have hdef : List.Forall₂ (fun x x' => ∃ y y', RE u nr y y' ∧ x = defaultVolume y ∧ x' = defaultVolume y') (s.map defaultVolume) (s'.map defaultVolume) :=
      map_rel (fun y y' hy => ⟨y, y', hy, rfl, rfl⟩) hs
    refine (ER.flatMapE (Q := RE u nr) hdef ?_).bind fun n n' hn => ?_
    · rintro _ _ ⟨y, y', hy, rfl, rfl⟩
      rw [hamt]
      exact default_rel hu _ hy
    · obtain ⟨ex', s', rfl, hex, hno, -⟩ := hd2
      exact ER.ok ⟨_, _, rfl, List.rel_append hex hn, hno, fun h => absurd rfl h.2⟩
  · rw [hsum, hamt]
    refine (ER.flatMapE (Q := RE u nr) hs fun _ _ hx => marketInput_share hu _ _ hx).bind fun n n' hn => ?_
    exact hd2.setEx (List.rel_append hd2.exs hn)

theorem resp_allocate (hu : u.Proper) (kind : DsType) (hK : K kind) {l l' : List Dataset} (hl : List.Forall₂ (RD u nr K) l l') :
    ER (List.Forall₂ (RD u nr fun t => K t ∧ t ≠ kind)) (allocateAllMarketSuppliers kind l) (allocateAllMarketSuppliers kind l') := by
  refine ER.mapE hl fun d d' hd => ?_
  refine ER.ite (by rw [hd.type]) (fun ht => ?_) fun _ => ER.ok (hd.forget (K' := fun t => K t ∧ t ≠ kind) fun h => h.1)
  subst ht
  exact allocateSuppliers_rel hu hd hK

theorem resp_deleteSuppliers {l l' : List Dataset} (hl : List.Forall₂ (RD u nr K) l l') : List.Forall₂ (RD u nr All) (deleteSuppliersList l) (deleteSuppliersList l') :=
  map_rel (fun d d' hd => by
    obtain ⟨ex', s', rfl, hex, hn, -⟩ := hd
    exact ⟨ex', none, rfl, hex, hn, fun _ => .none⟩) hl

/-! ## Market groups -/

theorem places_rel (kind : DsType) (r : String) {l l' : List Dataset} (hl : List.Forall₂ (RD u nr K) l l') :
    ER (List.Forall₂ (RL u nr K)) (placesOf kind r l) (placesOf kind r l') := by
  unfold placesOf
  refine (keys_rel (fun d d' hd => by rw [hd.type]) hl).bind fun a a' ha => ?_
  exact ER.ok (byLocation_rel (map_rel (fun _ _ h => h.1.2) (filter_rel (fun p p' hp => by rw [hp.1]) ha)))

theorem locs_rel {m m' : List (String × Dataset)} (h : List.Forall₂ (RL u nr K) m m') : m.map (·.1) = m'.map (·.1) := map_eq_rel (fun _ _ h => h.1) h

theorem candidateAt_rel {m m' g g' : List (String × Dataset)} (hm : List.Forall₂ (RL u nr K) m m') (hg : List.Forall₂ (RL u nr K) g g') (s : String) :
    ER (RD u nr K) (candidateAt m g s) (candidateAt m' g' s) := by
  unfold candidateAt
  rw [locs_rel hm]
  exact ER.ite Iff.rfl (fun _ => ER.getKey (lookupL_rel hm s)) fun _ => ER.getKey (lookupL_rel hg s)

theorem orderedInsert_rel {α β : Type} {R : α → β → Prop} {r : α → α → Prop} {r' : β → β → Prop} [DecidableRel r] [DecidableRel r'] (hr : ∀ a b a' b', R a a' → R b b' → (r a b ↔ r' a' b'))
    {a : α} {a' : β} (ha : R a a') {l : List α} {l' : List β} (hl : List.Forall₂ R l l') : List.Forall₂ R (l.orderedInsert r a) (l'.orderedInsert r' a') := by
  induction hl with
  | nil => exact .cons ha .nil
  | @cons b b' l l' hb hl ih =>
    simp only [List.orderedInsert]
    by_cases h : r a b
    · rw [if_pos h, if_pos ((hr _ _ _ _ ha hb).mp h)]; exact .cons ha (.cons hb hl)
    · rw [if_neg h, if_neg (fun h' => h ((hr _ _ _ _ ha hb).mpr h'))]; exact .cons hb ih

theorem insertionSort_rel {α β : Type} {R : α → β → Prop} {r : α → α → Prop} {r' : β → β → Prop} [DecidableRel r] [DecidableRel r'] (hr : ∀ a b a' b', R a a' → R b b' → (r a b ↔ r' a' b'))
    {l : List α} {l' : List β} (hl : List.Forall₂ R l l') : List.Forall₂ R (l.insertionSort r) (l'.insertionSort r') := by
  induction hl with
  | nil => exact .nil
  | cons ha _ ih => simp only [List.insertionSort_cons]; exact orderedInsert_rel hr ha ih

theorem groupEntries_rel {l l' : List Dataset} (hl : List.Forall₂ (RD u nr K) l l') : ER (List.Forall₂ (RE u nr)) (groupEntries l) (groupEntries l') := by
  unfold groupEntries
  refine (ER.mapE (Q := RL u nr K) hl fun d d' hd => ?_).bind fun k k' hk => ?_
  · unfold withCode
    rw [hd.code]
    refine (ER.refl _).bind ?_
    rintro c _ rfl
    exact ⟨rfl, hd⟩
  · exact ER.mapE (insertionSort_rel (fun a b a' b' ha hb => by rw [ha.1, hb.1]) hk) fun _ _ h => supplierEntry_rel h.2

theorem linkGroup_rel (T : Topology) (r : String) {l l' : List Dataset} (hl : List.Forall₂ (RD u nr K) l l') {d d' : Dataset} (hd : RD u nr K d d') :
    ER (RD u nr K) (linkMarketGroup T l r d) (linkMarketGroup T l' r d') := by
  unfold linkMarketGroup
  refine (places_rel _ r hl).bind fun m m' hm => (places_rel _ r hl).bind fun g g' hg => ?_
  have hrow : T.marketsRow m = T.marketsRow m' := by unfold Topology.marketsRow; rw [locs_rel hm]
  rw [hrow, locs_rel hm, locs_rel hg, hd.location]
  refine (ER.refl _).bind ?_
  rintro row _ rfl
  refine (ER.refl _).bind ?_
  rintro o _ rfl
  have hstep : chooseStep T row m d'.location = chooseStep T row m' d'.location := by
    funext f c
    unfold chooseStep
    rw [locs_rel hm]
  rw [hstep]
  refine (ER.refl _).bind ?_
  rintro f _ rfl
  refine (ER.mapE (refl_list f) fun a b hab => by subst hab; exact candidateAt_rel hm hg a).bind fun c c' hc => ?_
  refine (groupEntries_rel hc).bind fun e e' he => ?_
  obtain ⟨ex', s', rfl, hex, hno, -⟩ := hd
  refine ER.ok ⟨ex', _, rfl, hex, hno, fun _ => ?_⟩
  by_cases h : e = []
  · rw [if_pos h, if_pos ((nil_rel he).mp h)]; exact .none
  · rw [if_neg h, if_neg (fun h' => h ((nil_rel he).mpr h'))]; exact .some he

theorem drop_rel {α β : Type} {R : α → β → Prop} {l : List α} {l' : List β} (h : List.Forall₂ R l l') (n : ℕ) : List.Forall₂ R (l.drop n) (l'.drop n) := by
  induction h generalizing n with
  | nil => simp
  | cons hab hl ih =>
    cases n with
    | zero => exact .cons hab hl
    | succ n => exact ih n

theorem names_rel {l l' : List Dataset} (hl : List.Forall₂ (RD u nr K) l l') : checkGroupNames l = checkGroupNames l' := by
  unfold checkGroupNames
  refine ER.eq ((keys_rel (fun d d' hd => by rw [hd.type]) hl).bind fun k k' hk => ?_)
  refine ER.ite ?_ (fun _ => ER.refl _) fun _ => ER.refl _
  rw [all_rel (R := fun g g' : String × List (String × Dataset) => g.1 = g'.1 ∧ List.Forall₂ (fun a a' : String × Dataset => a.1 = a'.1 ∧ RD u nr K a.2 a'.2) g.2 g'.2)
    (fun g g' hg => ?_) (groupBy_rel (fun _ _ h => h.1) hk)]
  rw [map_eq_rel (fun _ _ h => RD.name h.2) hg.2]

theorem resp_groups (T : Topology) : Resp u nr K (linkMarketGroupSuppliers T) := by
  intro l l' hl
  unfold linkMarketGroupSuppliers
  rw [names_rel hl]
  refine (ER.refl _).bind fun _ _ _ => ER.mapE (zipIdx_rel hl 0) fun p p' hp => ?_
  refine ER.ite ?_ (fun _ => ?_) fun _ => hp.2
  · have : isShadowed l p.2 p.1 = isShadowed l' p'.2 p'.1 := by
      unfold isShadowed
      rw [← hp.1, ← hp.2.refProduct, ← hp.2.location]
      exact any_rel (fun d d' hd => by rw [RD.type hd, RD.refProduct hd, RD.location hd]) (drop_rel hl _)
    rw [this, hp.2.type]
  · rw [hp.2.refProduct]
    refine (ER.refl _).bind ?_
    rintro r _ rfl
    exact linkGroup_rel T r hl hp.2

/-! ## Consumers -/

theorem unlinked_rel {e e' : Exchange} (he : RE u nr e e') : isUnlinked e = isUnlinked e' := by
  unfold isUnlinked
  rw [he.type, he.code]

theorem resp_recycled : Resp u nr K linkRecycledContent := by
  intro l l' hl
  unfold linkRecycledContent
  refine (ER.filterE hl fun d d' hd => by unfold makesRecycledContent; rw [hd.refProduct, hd.type]).bind fun rc rc' hrc => ?_
  have hrc' : List.Forall₂ (RD u nr K) rc rc' := forall₂_imp (fun _ _ h => h.1) hrc
  refine ER.mapE hl fun d d' hd => hd.mapExE2 fun e e' he => ?_
  unfold linkRecycledInput
  rw [unlinked_rel he, he.name]
  refine ER.ite Iff.rfl (fun _ => ?_) fun _ => he
  exact linkToOnly_rel he (forall₂_imp (fun _ _ h => h.1) (filter_rel (fun d d' hd => by rw [RD.refProduct hd]) hrc'))

theorem consumerRow_rel (T : Topology) {l l' : List Dataset} (hl : List.Forall₂ (RD u nr K) l l') {d d' : Dataset} (hd : RD u nr K d d') :
    consumerRow T l d = consumerRow T l' d' := by
  unfold consumerRow peerType
  rw [hd.location, hd.type, hd.name]
  have h := filter_rel (p := fun x : Dataset => x.type == (if d'.type = .transforming then .transforming else .market) && x.name == d'.name)
    (q := fun x : Dataset => x.type == (if d'.type = .transforming then .transforming else .market) && x.name == d'.name) (fun a b hab => by rw [RD.type hab, RD.name hab]) hl
  refine ER.eq (ER.ite Iff.rfl (fun _ => ?_) fun _ => ER.refl _)
  simp only
  rw [map_eq_rel (fun _ _ h => RD.location h.1) h]
  exact ER.ite (nil_rel h) (fun _ => ER.refl _) fun _ => ER.refl _

theorem chooseMarkets_rel (T : Topology) (loc : String) (crow : Option (Finset ℕ)) {l l' : List Dataset} (hl : List.Forall₂ (RD u nr K) l l') :
    ER (List.Forall₂ (RD u nr K)) (chooseMarkets T loc crow l) (chooseMarkets T loc crow l') := by
  unfold chooseMarkets
  have hm := byLocation_rel (forall₂_imp (fun _ _ h => h.1) (filter_rel (p := fun d : Dataset => d.type == .market) (q := fun d : Dataset => d.type == .market) (fun d d' hd => by rw [RD.type hd]) hl))
  have hg := byLocation_rel (forall₂_imp (fun _ _ h => h.1) (filter_rel (p := fun d : Dataset => d.type == .marketGroup) (q := fun d : Dataset => d.type == .marketGroup) (fun d d' hd => by rw [RD.type hd]) hl))
  have hrow : T.marketsRow (byLocation (l.filter fun d => d.type == .market)) = T.marketsRow (byLocation (l'.filter fun d => d.type == .market)) := by
    unfold Topology.marketsRow; rw [locs_rel hm]
  simp only
  rw [hrow, locs_rel hm, locs_rel hg]
  refine (ER.refl _).bind ?_
  rintro row _ rfl
  refine (ER.refl _).bind ?_
  rintro o _ rfl
  refine (ER.refl _).bind ?_
  rintro f _ rfl
  refine (ER.refl _).bind ?_
  rintro f' _ rfl
  exact ER.mapE (refl_list f') fun a b hab => by subst hab; exact candidateAt_rel hm hg a

theorem mapping_rel (r : String) {l l' : List Dataset} (hl : List.Forall₂ (RD u nr K) l l') : List.Forall₂ (RD u nr K) (marketsMapping l r) (marketsMapping l' r) :=
  forall₂_imp (fun _ _ h => h.1) (filter_rel (fun d d' hd => by rw [RD.type hd, RD.refProduct hd]) hl)

theorem candidatesFor_rel {l l' : List Dataset} (hl : List.Forall₂ (RD u nr K) l l') {p p' : Option (List Dataset)} (hp : Option.Rel (List.Forall₂ (RD u nr K)) p p') (name : String) :
    ER (List.Forall₂ (RD u nr K)) (candidatesFor l p name) (candidatesFor l' p' name) := by
  unfold candidatesFor
  refine ER.ite (nil_rel (mapping_rel name hl)).not (fun _ => mapping_rel name hl) fun _ => ER.ite Iff.rfl (fun _ => ?_) fun _ => rfl
  cases hp with
  | none => exact rfl
  | some h => exact h

theorem consumerEntry_rel {e e' : Exchange} (he : RE u nr e e') {d d' : Dataset} (hd : RD u nr K d d') : RE u nr (consumerEntry e d) (consumerEntry e' d') := by
  unfold consumerEntry
  have ha := annotate_rel he hd
  have hv : (productionVolume d').getD 0 = u.volume * (productionVolume d).getD 0 := by rw [productionVolume_rel hd, getD_volume]
  refine ⟨⟨⟨ha.1.1.flow, ?_, ha.1.1.price⟩, ha.1.2⟩, ?_⟩
  · rintro p ⟨⟩
    exact ⟨rfl, rfl, rfl⟩
  · rw [ha.2, hv]
    rfl

theorem RE.asInput {e e' : Exchange} (h : RE u nr e e') (hf : u.flow e.id = 1) (c : String) :
    RE u nr { e with type := .fromTechnosphere, tag := "intermediateExchange", code := some c } { e' with type := .fromTechnosphere, tag := "intermediateExchange", code := some c } :=
  ⟨⟨⟨fun hn => absurd hf hn, h.1.1.pv, h.1.1.price⟩, fun _ h => by cases h.1⟩, by rw [h.2]; rfl⟩

theorem scale_id {M : MathEnv} {e r : Exchange} {f : ℚ} (h : scaleExchange M e f = .ok r) : r.id = e.id := by
  unfold scaleExchange at h
  obtain ⟨_, -, h⟩ := bind_eq_ok.mp h
  cases h; rfl

theorem inputShare_rel (hu : u.Proper) (M : MathEnv) {e e' : Exchange} (he : RE u nr e e') (hf : u.flow e.id = 1) (t : ℚ) {s s' : Exchange} (hs : RE u nr s s') :
    ER (List.Forall₂ (RE u nr)) (inputShare M e t s) (inputShare M e' (u.volume * t) s') := by
  unfold inputShare
  refine (ER.getKey hs.pvRel).bind fun p p' hp => ?_
  have hfr : p'.amount / (u.volume * t) = p.amount / t := by rw [hp.2]; exact div_volume hu _ _
  simp only [hfr]
  refine ER.ite Iff.rfl (fun _ => ER.ok .nil) fun _ => (he.scale _).mem.bind ?_
  rintro n n' ⟨hn, heq, -⟩
  have hloc : s'.location = s.location := by rw [hs.2]; rfl
  rw [← hs.code, hloc]
  refine (ER.refl _).bind ?_
  rintro c _ rfl
  refine (ER.refl _).bind fun _ _ _ => ER.ok (.cons (hn.asInput ?_ c) .nil)
  rw [scale_id heq]; exact hf

/-- Exchanges with their position. -/
abbrev RP (u : Spec.Units) (nr : Bool) (p p' : Option ℕ × Exchange) : Prop := p.1 = p'.1 ∧ RE u nr p.2 p'.2

theorem splitInput_rel (hu : u.Proper) (M : MathEnv) {e e' : Exchange} (he : RE u nr e e') (hf : u.flow e.id = 1) {s s' : List Exchange} (hs : List.Forall₂ (RE u nr) s s')
    {x x' : List (Option ℕ × Exchange)} (hx : List.Forall₂ (RP u nr) x x') : ER (List.Forall₂ (RP u nr)) (splitInput M e s x) (splitInput M e' s' x') := by
  unfold splitInput
  refine (ER.mapE hs fun _ _ => entryVolume_rel).bind fun v v' hv => ?_
  have hsum : v'.sum = u.volume * v.sum := sum_rel hv
  refine ER.ite ?_ (fun _ => hx) fun _ => ?_
  · rw [hsum, mul_eq_zero, or_iff_right hu.volume.ne']
  rw [hsum]
  refine (ER.flatMapE (Q := RE u nr) hs fun _ _ h => inputShare_rel hu M he hf _ h).bind fun n n' hn => ?_
  refine ER.ok (forall₂_imp (fun _ _ h => h.1) (filter_rel (fun p p' hp => ?_) (List.rel_append hx (map_rel (Q := RP u nr) (f := fun n => (none, n)) (g := fun n => (none, n)) (fun a b hab => ⟨rfl, hab⟩) hn))))
  rw [decide_eq_decide]
  exact (RE.eq_iff hu hp.2 he).not.symm

/-- The state of the loop. -/
structure RS (u : Spec.Units) (nr : Bool) (K : DsType → Prop) (t : DsType) (s s' : LinkState) : Prop where
  candidates : Option.Rel (List.Forall₂ (RD u nr K)) s.candidates s'.candidates
  exchanges : List.Forall₂ (RP u nr) s.exchanges s'.exchanges
  suppliers : K t → Option.Rel (List.Forall₂ (RE u nr)) s.suppliers s'.suppliers

theorem useMarkets_rel (hu : u.Proper) (M : MathEnv) {t : DsType} {s s' : LinkState} (hs : RS u nr K t s s') {e e' : Exchange} (he : RE u nr e e') (hf : u.flow e.id = 1) (i : ℕ)
    {c c' : List Dataset} (hc : List.Forall₂ (RD u nr K) c c') : ER (RS u nr K t) (useMarkets M s e i c) (useMarkets M s' e' i c') := by
  cases hc with
  | nil => exact ER.ok ⟨hs.candidates, hs.exchanges, fun _ => .none⟩
  | @cons a a' c c' ha hc =>
    cases hc with
    | nil =>
      unfold useMarkets
      simp only
      rw [ha.code]
      refine (ER.refl _).bind ?_
      rintro k _ rfl
      refine ER.ok ⟨hs.candidates, map_rel (fun p p' hp => ?_) hs.exchanges, hs.suppliers⟩
      unfold setCodeAt
      by_cases h : p.1 = some i
      · rw [if_pos h, if_pos (hp.1 ▸ h)]
        exact ⟨hp.1, hp.2.setCode _⟩
      · rw [if_neg h, if_neg (hp.1 ▸ h)]
        exact hp
    | @cons b b' c c' hb hc =>
      have hall : List.Forall₂ (RD u nr K) (a :: b :: c) (a' :: b' :: c') := .cons ha (.cons hb hc)
      unfold useMarkets
      simp only
      refine (splitInput_rel hu M he hf (map_rel (fun d d' hd => consumerEntry_rel he hd) hall) hs.exchanges).bind fun x x' hx => ?_
      exact ER.ok ⟨hs.candidates, hx, fun _ => .none⟩

theorem linkConsumer_rel (hu : u.Proper) (M : MathEnv) (T : Topology) {l l' : List Dataset} (hl : List.Forall₂ (RD u nr K) l l') {c c' : Option (List Dataset)}
    (hc : Option.Rel (List.Forall₂ (RD u nr K)) c c') {d d' : Dataset} (hd : RD u nr K d d') :
    ER (fun p p' => Option.Rel (List.Forall₂ (RD u nr K)) p.1 p'.1 ∧ RD u nr K p.2 p'.2) (linkConsumer M T l c d) (linkConsumer M T l' c' d') := by
  unfold linkConsumer
  refine ER.ite (by rw [hd.type]) (fun _ => ER.ok ⟨hc, hd⟩) fun _ => ?_
  rw [← consumerRow_rel T hl hd, ← hd.location]
  refine (ER.refl _).bind ?_
  rintro crow _ rfl
  have hz := zipIdx_rel hd.exs 0
  refine (ER.foldE (S := RS u nr K d.type) (filter_rel (p := fun p : Exchange × ℕ => isUnlinked p.1) (q := fun p : Exchange × ℕ => isUnlinked p.1) (fun p p' hp => unlinked_rel hp.2) hz)
    ⟨hc, map_rel (fun p p' hp => ⟨by rw [hp.1], hp.2⟩) hz, fun h => hd.sup h⟩ ?_).bind fun st st' hst => ?_
  · rintro st st' p p' hst ⟨hp, hun⟩
    unfold linkInput
    rw [← hp.2.name, ← hp.1]
    refine (candidatesFor_rel hl hst.candidates _).bind fun a a' ha => (chooseMarkets_rel T _ crow ha).bind fun b b' hb => ?_
    have ht : p.1.type = .fromTechnosphere := by
      have h : isUnlinked p.1 = true := hun
      unfold isUnlinked at h
      simpa using (Bool.and_eq_true_iff.mp h).1
    refine useMarkets_rel (s := { st with candidates := some a }) (s' := { st' with candidates := some a' }) hu M ⟨.some ha, hst.exchanges, hst.suppliers⟩ hp.2 (hp.2.flow (by rw [ht]; decide) (by rw [ht]; decide)) _ hb
  · refine ER.ok ⟨hst.candidates, ?_⟩
    obtain ⟨ex', s', rfl, hex, hno, -⟩ := hd
    exact ⟨_, _, rfl, map_rel (fun _ _ h => h.2) hst.exchanges, hno, hst.suppliers⟩

theorem resp_consumers (hu : u.Proper) (M : MathEnv) (T : Topology) : Resp u nr K (linkConsumersToMarkets M T) := by
  intro l l' hl
  unfold linkConsumersToMarkets
  refine (keys_rel (fun d d' hd => by rw [hd.type]) hl).bind fun _ _ _ => ?_
  exact ER.scanE hl .none fun s s' d d' hs hd => linkConsumer_rel hu M T hl hs hd

theorem rpCode_eq (d : Dataset) : addReferenceProductCode d = (match d.code with
    | none => .error .assertionError
    | some _ => .ok ()) >>= fun _ => getSingleReferenceProduct d >>= fun _ =>
      .ok { d with exchanges := d.exchanges.map fun e => if e.type = .referenceProduct then { e with code := d.code } else e } := by
  unfold addReferenceProductCode
  cases d with
  | mk name location type exchanges parameters id parent filepath refProduct unit startDate endDate technologyLevel extra code suppliers allocationMethod =>
    cases code <;> rfl

theorem resp_rpCodes : Resp u nr K addReferenceProductCodes :=
  resp_mapE fun d d' hd => by
    rw [rpCode_eq, rpCode_eq]
    have hc := hd.code
    refine (ER.mono (R := Eq) ?_ fun _ _ _ => trivial).bind (R := fun _ _ => True) fun _ _ _ => (single_rel hd).bind fun _ _ _ => ER.ok (hd.mapEx fun e e' he => ?_)
    · rw [hc]; exact ER.refl _
    · by_cases ht : e.type = .referenceProduct
      · rw [if_pos ht, if_pos (he.type ▸ ht), hc]; exact he.setCode _
      · rw [if_neg ht, if_neg (he.type ▸ ht)]; exact he

theorem resp_unlinked : Resp u nr K (fun l => .ok (logAndDeleteUnlinked l)) :=
  resp_map fun d d' hd => by
    refine hd.setEx ?_
    rw [hd.code]
    exact forall₂_imp (fun _ _ h => h.1) (filter_rel (fun _ _ _ => rfl) hd.exs)

end Units
end Ocelot
