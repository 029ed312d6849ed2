import Verif.Proofs.RenamedAllocation

/-! The rest of the consequential functions, and linking, respect a renaming of the activities. -/

namespace Ocelot
namespace Renamed
open Spec Ocelot.Units

variable {ρ : Spec.Renaming}


/-! ## Constrained markets -/

theorem constrained_rel {l l' : List Dataset} (hl : List.Forall₂ (RD ρ) l l') :
    List.Forall₂ (fun p p' : ℕ × ℕ × Exchange => p.1 = p'.1 ∧ p.2.1 = p'.2.1 ∧ RE ρ p.2.2 p'.2.2) (constrainedExchanges l) (constrainedExchanges l') := by
  refine flatMap_rel (fun d d' hd => filterMap_rel (fun e e' he => ?_) (zipIdx_rel hd.2.exs 0)) (zipIdx_rel hl 0)
  rw [RE.conditional he.2]
  split
  · exact .some ⟨hd.1, he.1, he.2⟩
  · exact .none

theorem modifyExchange_rel {l l' : List Dataset} (hl : List.Forall₂ (RD ρ) l l') (i j : ℕ) :
    List.Forall₂ (RD ρ) (modifyExchange i j toInput l) (modifyExchange i j toInput l') :=
  modify_rel (fun _ _ hd => hd.setEx (modify_rel (fun _ _ he => toInput_rel he) hd.exs j)) hl i

/-- A missing or empty link. -/
theorem link_empty (hu : ρ.Proper) {e e' : Exchange} (he : RE ρ e e') : e.activityLink.getD "" = "" ↔ e'.activityLink.getD "" = "" := by
  rw [RE.link he]
  cases e.activityLink with
  | none => rfl
  | some a => simp only [Option.map_some, Option.getD_some]; rw [← hu.empty, hu.id.eq_iff, hu.empty]

/-- A link, renamed. -/
theorem linkKey_rel {e e' : Exchange} (he : RE ρ e e') : ER (fun a b => b = ρ.id a) (getKey e.activityLink) (getKey e'.activityLink) := by
  refine ER.getKey ?_
  rw [RE.link he]
  cases e.activityLink with
  | none => exact .none
  | some a => exact .some rfl

theorem resp_constrained (hu : ρ.Proper) : Resp ρ handleConstrainedMarkets := by
  intro l l' hl
  unfold handleConstrainedMarkets
  refine ER.foldE (constrained_rel hl) hl ?_
  rintro st st' p p' hst ⟨h1, h2, h3⟩
  unfold constrainedStep
  rw [← h1, ← h2, ← RE.name h3]
  refine (linkKey_rel h3).bind ?_
  rintro link _ rfl
  exact modifyLast_rel hu (fun d d' hd => swap_rel _ hd) (modifyExchange_rel hst _ _)

theorem resp_deleteLinks (hu : ρ.Proper) : Resp ρ deleteLinksToConstrained := by
  intro l l' hl
  unfold deleteLinksToConstrained constrainedActivities
  have h1 : List.Forall₂ (RE ρ) (l.flatMap fun ds => ds.exchanges.filter fun e => e.conditional == some true)
      (l'.flatMap fun ds => ds.exchanges.filter fun e => e.conditional == some true) :=
    flatMap_rel (fun d d' hd => forall₂_imp (fun _ _ h => h.1) (filter_rel (fun e e' he => by rw [RE.conditional he]) hd.exs)) hl
  refine (ER.mapE h1 fun e e' he => linkKey_rel he).bind fun _ _ _ => ?_
  refine ER.ok (map_rel (fun d d' hd => hd.mapEx fun e e' he => ?_) hl)
  unfold dropLink
  refine ite_rel ?_ (RE.noLink he) he
  rw [RE.conditional he, ne_eq, ne_eq, ne_eq, link_empty hu he]

theorem namesOfType_rel (t : ExcType) {l l' : List Dataset} (hl : List.Forall₂ (RD ρ) l l') : namesOfType t l = namesOfType t l' := by
  unfold namesOfType
  refine List.forall₂_eq_eq_eq ▸ flatMap_rel (Q := Eq) (fun d d' hd => ?_) hl
  rw [map_eq_rel (fun e e' he => RE.name he.1) (filter_rel (fun e e' he => by rw [RE.type he]) hd.exs)]
  exact refl_list _

theorem resp_alternative : Resp ρ ensureAlternativeProduction := by
  intro l l' hl
  unfold ensureAlternativeProduction
  rw [namesOfType_rel .byproduct hl, namesOfType_rel .referenceProduct hl]
  exact ER.ite Iff.rfl (fun _ => hl) fun _ => rfl

/-! ## Suppliers -/

theorem RD.setSup {d d' : Dataset} (h : RD ρ d d') {s s' : Option (List Exchange)} (hs : Option.Rel (List.Forall₂ (RE ρ)) s s') :
    RD ρ { d with suppliers := s } { d' with suppliers := s' } := by
  obtain ⟨ex', _, rfl, hex, -⟩ := h
  exact ⟨ex', s', rfl, hex, hs⟩

theorem bestSuppliers_rel {l l' : List Exchange} (hl : List.Forall₂ (RE ρ) l l') (levels : List String) :
    ER (List.Forall₂ (RE ρ)) (bestSuppliers l levels) (bestSuppliers l' levels) := by
  induction levels with
  | nil => exact rfl
  | cons level rest ih =>
    unfold bestSuppliers suppliersAt
    refine (ER.filterE hl fun e e' he => by rw [he]; rfl).bind fun r r' hr => ?_
    exact ER.ite (nil_rel hr) (fun _ => ih) fun _ => forall₂_imp (fun _ _ h => h.1) hr

theorem resp_prune : Resp ρ pruneByTechnologyLevel :=
  resp_mapE fun d d' hd => by
    have hs := getD_rel (hd.sup)
    unfold pruneSuppliers
    refine ER.ite (by rw [hd.type, ne_eq, ne_eq, nil_rel hs]) (fun _ => ?_) fun _ => hd
    exact (bestSuppliers_rel hs _).bind fun _ _ hb => hd.setSup (.some hb)

/-! ## Labels, codes and locations -/

theorem resp_labelProduct : Resp ρ labelReferenceProduct :=
  resp_mapE fun d d' hd => (single_rel hd).bind fun e e' he => by
    rw [he.1.name]
    obtain ⟨ex', s', rfl, hex, hs⟩ := hd
    exact ⟨ex', s', rfl, hex, hs⟩

theorem withRefProduct_rel {d d' : Dataset} (hd : RD ρ d d') :
    ER (fun p p' => p.1 = p'.1 ∧ RD ρ p.2 p'.2) (withRefProduct d) (withRefProduct d') := by
  unfold withRefProduct
  rw [hd.refProduct]
  refine (ER.refl _).bind ?_
  rintro a _ rfl
  exact ⟨rfl, hd⟩

theorem keys_rel {p q : Dataset → Bool} (hp : ∀ d d', RD ρ d d' → p d = q d') {l l' : List Dataset} (hl : List.Forall₂ (RD ρ) l l') :
    ER (List.Forall₂ fun a a' : String × Dataset => a.1 = a'.1 ∧ RD ρ a.2 a'.2) (mapE withRefProduct (l.filter p)) (mapE withRefProduct (l'.filter q)) :=
  ER.mapE (filter_rel hp hl) fun _ _ h => withRefProduct_rel h.1

theorem resp_whitelisted : Resp ρ deleteWhitelistedMarkets := by
  intro l l' hl
  have hw : ∀ d d', RD ρ d d' → isWhitelisted d = isWhitelisted d' := fun d d' hd => by
    unfold isWhitelisted; rw [hd.type, hd.name, hd.location]
  unfold deleteWhitelistedMarkets
  refine (keys_rel hw hl).bind fun _ _ _ => ?_
  exact ER.ok (forall₂_imp (fun _ _ h => h.1) (filter_rel (fun d d' hd => by rw [hw d d' hd]) hl))

theorem mapRefVolume_rel (f : PV → PV) {e e' : Exchange} (he : RE ρ e e') : RE ρ (mapRefVolume f e) (mapRefVolume f e') := by
  unfold mapRefVolume
  exact ite_rel (by rw [RE.type he]) (RE.onPv he f) he

theorem mapE_eq {α β : Type} {R : α → α → Prop} {f : α → Except Err β} (hf : ∀ a b, R a b → f a = f b) {l l' : List α} (h : List.Forall₂ R l l') : mapE f l = mapE f l' := by
  induction h with
  | nil => rfl
  | cons hab _ ih => unfold mapE; rw [hf _ _ hab, ih]

theorem resp_fakePv : Resp ρ assignFakePvToConfidential :=
  resp_mapE fun d d' hd => by
    unfold assignFakePv
    refine ER.ite (by rw [RD.type hd, RD.name hd]) (fun _ => ?_) fun _ => hd
    refine (single_rel hd).bind fun _ _ h => ?_
    rw [RE.pv h.1]
    exact (ER.refl _).bind fun _ _ _ => ER.ok (hd.mapEx fun e e' he => mapRefVolume_rel unitVolume he)

theorem resp_pipeline : Resp ρ (fun l => .ok (correctPipelineLocation l)) :=
  resp_map fun d d' hd => by
    obtain ⟨ex', s', rfl, hex, hs⟩ := hd
    split
    · exact ⟨ex', s', rfl, hex, hs⟩
    · exact ⟨ex', s', rfl, hex, hs⟩

theorem resp_noRow : Resp ρ checkNoRowMarketGroups := by
  intro l l' hl
  unfold checkNoRowMarketGroups
  rw [any_rel (fun d d' hd => by rw [RD.type hd, RD.location hd]) hl]
  exact ER.ite Iff.rfl (fun _ => rfl) fun _ => hl

theorem hash_rel (lower md5 : String → String) {d d' : Dataset} (hd : RD ρ d d') : activityHash lower md5 d = activityHash lower md5 d' := by
  obtain ⟨ex', s', rfl, -⟩ := hd; rfl

theorem resp_codes (lower md5 : String → String) : Resp ρ (addUniqueCodes lower md5) := by
  intro l l' hl
  unfold addUniqueCodes
  generalize ([] : List String) = seen
  induction hl generalizing seen with
  | nil => exact List.Forall₂.nil
  | @cons d d' l l' hd _ ih =>
    unfold addCodesFrom
    rw [hash_rel lower md5 hd]
    refine ER.ite Iff.rfl (fun _ => rfl) fun _ => (ih _).bind fun r r' hr => List.Forall₂.cons ?_ hr
    obtain ⟨ex', s', rfl, hex, hs⟩ := hd
    exact ⟨ex', s', rfl, hex, hs⟩

/-- A code. -/
theorem RE.setCode {e e' : Exchange} (h : RE ρ e e') (c : Option String) : RE ρ { e with code := c } { e' with code := c } := by rw [h]; rfl

theorem linkToOnly_rel {e e' : Exchange} (h : RE ρ e e') {l l' : List Dataset} (hl : List.Forall₂ (RD ρ) l l') :
    ER (RE ρ) (linkToOnly e l) (linkToOnly e' l') := by
  cases hl with
  | nil => exact h
  | cons hd hl =>
    cases hl with
    | cons _ _ => exact h
    | nil =>
      unfold linkToOnly
      simp only
      rw [hd.code]
      refine (ER.refl _).bind ?_
      rintro c _ rfl
      exact h.setCode _

theorem makesProduct_rel (name : String) {d d' : Dataset} (hd : RD ρ d d') : makesProduct name d = makesProduct name d' := by
  unfold makesProduct
  rw [hd.refProduct]

theorem RD.mapExE2 {f g : Exchange → Except Err Exchange} {d d' : Dataset} (hd : RD ρ d d') (hf : ∀ e e', RE ρ e e' → ER (RE ρ) (f e) (g e')) :
    ER (RD ρ) (mapExchangesE f d) (mapExchangesE g d') := by
  unfold mapExchangesE
  exact (ER.mapE hd.exs hf).bind fun _ _ h => hd.setEx h

theorem resp_actualize (hu : ρ.Proper) : Resp ρ actualizeActivityLinks := by
  intro l l' hl
  refine ER.mapE hl fun d d' hd => hd.mapExE2 fun e e' he => ?_
  unfold actualizeLink
  rw [← RE.name he]
  refine ER.ite (link_empty hu he) (fun _ => he) fun _ => ?_
  have hg := filter_rel (p := fun ds : Dataset => decide (some ds.id = e.activityLink)) (q := fun ds : Dataset => decide (some ds.id = e'.activityLink))
    (fun d d' hd => by
      rw [RE.link he, RD.id hd, decide_eq_decide, ← Option.map_some (f := ρ.id), (Option.map_injective hu.id).eq_iff]) hl
  refine ER.ite (nil_rel hg) (fun _ => rfl) fun _ => ?_
  refine (ER.filterE hg fun d d' hd => makesProduct_rel _ hd.1).bind fun r r' hr => ?_
  exact linkToOnly_rel he (forall₂_imp (fun _ _ h => h.1.1) hr)

/-! ## Rest of the world -/

theorem productionVolume_rel {d d' : Dataset} (hd : RD ρ d d') : productionVolume d' = productionVolume d := by
  unfold productionVolume
  have h := referenceProducts_rel hd
  revert h
  generalize referenceProducts d = l
  generalize referenceProducts d' = l'
  intro h
  cases h with
  | nil => rfl
  | cons he hl =>
    cases hl with
    | cons _ _ => rfl
    | nil => simp only; rw [RE.pv he.1]

theorem originalVolume_rel {d d' : Dataset} (hd : RD ρ d d') : originalProductionVolume d' = originalProductionVolume d := by
  unfold originalProductionVolume
  have h := referenceProducts_rel hd
  revert h
  generalize referenceProducts d = l
  generalize referenceProducts d' = l'
  intro h
  cases h with
  | nil => rfl
  | cons he hl =>
    cases hl with
    | cons _ _ => rfl
    | nil => simp only; rw [RE.pv he.1]

theorem regional_rel {l l' : List Dataset} (hl : List.Forall₂ (RD ρ) l l') : regionalVolume l = regionalVolume l' := by
  unfold regionalVolume
  rw [map_eq_rel (g := fun ds : Dataset => (originalProductionVolume ds).getD 0) (fun d d' hd => by rw [originalVolume_rel hd.1]) (filter_rel (q := fun ds : Dataset => ds.location != "GLO") (fun d d' hd => by rw [RD.location hd]) hl)]

theorem relabel_rel (r : ℚ) {d d' : Dataset} (hd : RD ρ d d') : ER (RD ρ) (relabelGlobal r d) (relabelGlobal r d') := by
  unfold relabelGlobal
  refine (single_rel hd).bind fun e e' he => ?_
  rw [← RE.pv he.1]
  refine (ER.refl _).bind fun _ _ _ => ?_
  have h := hd.mapEx (f := relabelVolume r) (g := relabelVolume r) fun x x' hx => by
    unfold relabelVolume
    exact ite_rel (by rw [RE.type hx]) (RE.onPv hx _) hx
  obtain ⟨ex', s', heq, hex, hs⟩ := h
  exact ER.ok ⟨ex', s', congrArg (fun x : Dataset => { x with location := "RoW" }) heq, hex, hs⟩

/-- Datasets with their grouping key. -/
abbrev RK (ρ : Spec.Renaming) (p p' : (String × List String) × Dataset) : Prop := p.1 = p'.1 ∧ RD ρ p.2 p'.2

theorem relabelGroup_rel (k : String × List String) {st st' : List ((String × List String) × Dataset)} (hst : List.Forall₂ (RK ρ) st st') :
    ER (List.Forall₂ (RK ρ)) (relabelGroup st k) (relabelGroup st' k) := by
  unfold relabelGroup
  have hg : List.Forall₂ (RD ρ) ((st.filter fun p => decide (p.1 = k)).map (·.2)) ((st'.filter fun p => decide (p.1 = k)).map (·.2)) :=
    map_rel (fun _ _ h => h.1.2) (filter_rel (fun p p' hp => by rw [hp.1]) hst)
  simp only
  revert hg
  generalize (st.filter fun p => decide (p.1 = k)).map (·.2) = g
  generalize (st'.filter fun p => decide (p.1 = k)).map (·.2) = g'
  intro hg
  have hh : g.head?.map (·.type) = g'.head?.map (·.type) := by
    cases hg with
    | nil => rfl
    | cons h _ => simp [RD.type h]
  refine ER.ite (by rw [hh]) (fun _ => hst) fun _ => ER.ite ?_ (fun _ => ?_) fun _ => hst
  · rw [hg.length_eq, any_rel (fun d d' hd => by rw [RD.location hd]) hg]
  · have hc : checkSingleGlobalDataset g = checkSingleGlobalDataset g' := by
      unfold checkSingleGlobalDataset
      rw [(filter_rel (p := fun ds : Dataset => ds.location == "GLO") (q := fun ds => ds.location == "GLO") (fun d d' hd => by rw [RD.location hd]) hg).length_eq]
    rw [hc, regional_rel hg]
    refine (ER.refl _).bind fun _ _ _ => ER.mapE hst fun p p' hp => ?_
    unfold relabelMember
    refine ER.ite (by rw [hp.1, hp.2.location]) (fun _ => ?_) fun _ => hp
    exact (relabel_rel _ hp.2).bind fun _ _ hd => ⟨rfl, hd⟩

theorem rowKey_rel {d d' : Dataset} (hd : RD ρ d d') : ER (RK ρ) (withRowKey d) (withRowKey d') := by
  unfold withRowKey
  have : rowGrouper d = rowGrouper d' := by
    unfold rowGrouper
    rw [hd.name]
    refine ER.eq ((allocatableProduction_rel hd).bind fun l l' hl => ?_)
    rw [map_eq_rel (fun e e' he => RE.name he.1.1) (filter_rel (q := fun e => e.amount != 0) (fun e e' he => by rw [RE.amount he.1]) hl)]
    exact ER.refl _
  rw [this]
  refine (ER.refl _).bind ?_
  rintro k _ rfl
  exact ⟨rfl, hd⟩

theorem resp_row : Resp ρ relabelGlobalToRow := by
  intro l l' hl
  unfold relabelGlobalToRow
  refine (ER.mapE hl fun _ _ => rowKey_rel).bind fun st st' hst => ?_
  have hk : (groupBy (fun p : (String × List String) × Dataset => p.1) st).map (·.1) = (groupBy (fun p : (String × List String) × Dataset => p.1) st').map (·.1) :=
    map_eq_rel (fun _ _ h => h.1) (groupBy_rel (fun _ _ h => h.1) hst)
  rw [hk]
  refine (ER.foldE (refl_list _) hst fun s s' a b hs hab => by subst hab; exact relabelGroup_rel a hs).bind fun r r' hr => ?_
  exact ER.ok (map_rel (fun _ _ h => h.2) hr)

/-! ## Suppliers of markets -/

theorem noOverlaps_rel (T : Topology) {l l' : List Dataset} (hl : List.Forall₂ (RD ρ) l l') : noOverlaps T l = noOverlaps T l' := by
  unfold noOverlaps
  rw [map_eq_rel (fun _ _ h => RD.location h) hl, hl.length_eq]

theorem geo_rel {l l' : List Dataset} (hl : List.Forall₂ (RD ρ) l l') : noGeoDuplicates l = noGeoDuplicates l' := by
  unfold noGeoDuplicates
  rw [map_eq_rel (fun _ _ h => RD.location h) hl, hl.length_eq]

/-- Datasets by location. -/
abbrev RL (ρ : Spec.Renaming) (p p' : String × Dataset) : Prop := p.1 = p'.1 ∧ RD ρ p.2 p'.2

theorem byLocation_rel {l l' : List Dataset} (hl : List.Forall₂ (RD ρ) l l') : List.Forall₂ (RL ρ) (byLocation l) (byLocation l') :=
  dictOf_rel (Q := fun _ => RD ρ) (fun _ _ h => RD.location h) (fun _ _ h => h) hl

theorem lookupL_rel {l l' : List (String × Dataset)} (hl : List.Forall₂ (RL ρ) l l') (k : String) : Option.Rel (RD ρ) (l.lookup k) (l'.lookup k) :=
  lookup_rel (R := fun _ => RD ρ) hl k

theorem annotate_rel {e e' : Exchange} (he : RE ρ e e') {d d' : Dataset} (hd : RD ρ d d') : RE ρ (annotateExchange e d) (annotateExchange e' d') := by
  unfold annotateExchange
  rw [← hd.location, ← hd.code, ← hd.level, ← hd.name, he]
  rfl

theorem supplierEntry_rel {d d' : Dataset} (hd : RD ρ d d') : ER (RE ρ) (supplierEntry d) (supplierEntry d') :=
  (single_rel hd).bind fun _ _ he => annotate_rel he.1 hd

/-- What the pipeline uses from outside does not depend on units. -/
structure Env (ρ : Spec.Renaming) (P : PipelineEnv) : Prop where
  ord : ∀ d, P.ord (ρ.ds d) = P.ord d
  set : ∀ d n l, P.σ (ρ.ds d) n l = P.σ d n l

theorem ofGroup_rel {P : PipelineEnv} (hP : Env ρ P) {c c' : Dataset} (hc : RD ρ c c') (loc : Loc) (name : String) {g g' : List Dataset}
    (hg : List.Forall₂ (RD ρ) g g') : ER (List.Forall₂ (RE ρ)) (suppliersOfGroup P.T P.σ c loc name g) (suppliersOfGroup P.T P.σ c' loc name g') := by
  have hb := byLocation_rel hg
  unfold suppliersOfGroup
  rw [noOverlaps_rel P.T hg, map_eq_rel (fun _ _ h => RD.location h) hg]
  refine (ER.refl _).bind fun _ _ _ => (ER.refl _).bind ?_
  rintro row _ rfl
  refine (ER.refl _).bind ?_
  rintro inside _ rfl
  have hk : (inside.dedup.filter fun k => (byLocation g).any fun p => p.1 == k) = inside.dedup.filter fun k => (byLocation g').any fun p => p.1 == k := by
    congr 1
    funext k
    exact any_rel (fun _ _ h => by rw [h.1]) hb
  simp only
  rw [hk, hc.eq, hP.set]
  refine ER.mapE (refl_list _) ?_
  rintro k _ rfl
  exact (ER.getKey (lookupL_rel hb k)).bind fun _ _ hd => supplierEntry_rel hd

theorem supply_rel {P : PipelineEnv} (hP : Env ρ P) (row : Finset ℕ) {s s' : List Dataset} (hs : List.Forall₂ (RD ρ) s s') {c c' : Dataset}
    (hc : RD ρ c c') : ER (RD ρ) (supplyConsumer P.T P.σ row s c) (supplyConsumer P.T P.σ row s' c') := by
  unfold supplyConsumer
  have hl := hc.location
  refine (ER.flatMapE (Q := RE ρ) (groupBy_rel (fun _ _ h => RD.name h) hs) fun g g' hg => ?_).bind fun new new' hn => ?_
  · rw [← hg.1, ← hl]
    exact ofGroup_rel hP hc _ _ hg.2
  · exact ER.ok (hc.setSup (.some (List.rel_append (getD_rel hc.sup) hn)))

/-- The same call. -/
structure RAp (ρ : Spec.Renaming) (a a' : Apportion) : Prop where
  consumer : ∀ d d', RD ρ d d' → a.isConsumer d = a'.isConsumer d'
  row : a.row = a'.row
  suppliers : List.Forall₂ (RD ρ) a.suppliers a'.suppliers

theorem apportionPrep_rel (T : Topology) {c c' : Dataset → Bool} (hcc : ∀ d d', RD ρ d d' → c d = c' d') {l l' s s' : List Dataset}
    (hl : List.Forall₂ (RD ρ) l l') (hs : List.Forall₂ (RD ρ) s s') :
    ER (Option.Rel (RAp ρ)) (apportionPrep T c l s) (apportionPrep T c' l' s') := by
  unfold apportionPrep
  rw [geo_rel hl, map_eq_rel (fun _ _ h => RD.location h) hl]
  refine (ER.refl _).bind fun _ _ _ => (ER.refl _).bind ?_
  rintro row _ rfl
  exact ER.ok (.some ⟨hcc, rfl, hs⟩)

theorem apportionUpd_rel {P : PipelineEnv} (hP : Env ρ P) {a a' : Option Apportion} (ha : Option.Rel (RAp ρ) a a') {d d' : Dataset} (hd : RD ρ d d') :
    ER (RD ρ) (apportionUpd P.T P.σ a d) (apportionUpd P.T P.σ a' d') := by
  cases ha with
  | none => exact hd
  | some ha =>
    unfold apportionUpd
    simp only
    rw [ha.consumer d d' hd, ha.row]
    exact ER.ite Iff.rfl (fun _ => supply_rel hP _ ha.suppliers hd) fun _ => hd

theorem groupStep_rel {κ τ τ' : Type} [DecidableEq κ] {key key' : Dataset → Option κ} (hk : ∀ d d', RD ρ d d' → key d = key' d') {R : τ → τ' → Prop}
    {prep : κ → List Dataset → Except Err τ} {prep' : κ → List Dataset → Except Err τ'} (hprep : ∀ k l l', List.Forall₂ (RD ρ) l l' → ER R (prep k l) (prep' k l'))
    {upd : τ → Dataset → Except Err Dataset} {upd' : τ' → Dataset → Except Err Dataset}
    (hupd : ∀ t t' d d', R t t' → RD ρ d d' → ER (RD ρ) (upd t d) (upd' t' d')) {st st' : List Dataset} (hst : List.Forall₂ (RD ρ) st st') (k : κ) :
    ER (List.Forall₂ (RD ρ)) (groupStep key prep upd st k) (groupStep key' prep' upd' st' k) := by
  unfold groupStep
  refine (hprep k _ _ (forall₂_imp (fun _ _ h => h.1) (filter_rel (fun d d' hd => by rw [hk d d' hd]) hst))).bind fun t t' ht => ?_
  refine ER.mapE hst fun d d' hd => ?_
  exact ER.ite (by rw [hk d d' hd]) (fun _ => hupd _ _ _ _ ht hd) fun _ => hd

theorem groupKeys_rel {κ : Type} [DecidableEq κ] {key key' : Dataset → Option κ} (hk : ∀ d d', RD ρ d d' → key d = key' d') {l l' : List Dataset}
    (hl : List.Forall₂ (RD ρ) l l') : groupKeys key l = groupKeys key' l' := by
  unfold groupKeys
  have : l.filterMap key = l'.filterMap key' := by
    refine List.forall₂_eq_eq_eq ▸ filterMap_rel (Q := Eq) (fun d d' hd => ?_) hl
    rw [hk d d' hd]
    cases key' d' with
    | none => exact .none
    | some k => exact .some rfl
  rw [this]

theorem productIf_rel {p p' : Dataset → Bool} (hp : ∀ d d', RD ρ d d' → p d = p' d') {d d' : Dataset} (hd : RD ρ d d') :
    productIf p d = productIf p' d' := by
  unfold productIf
  rw [hp d d' hd, hd.refProduct]

theorem resp_addRecycled {P : PipelineEnv} (hP : Env ρ P) : Resp ρ (addRecycledContentSuppliers P.T P.σ) := by
  intro l l' hl
  unfold addRecycledContentSuppliers
  have hm : ∀ d d', RD ρ d d' → (d.type == DsType.market) = (d'.type == DsType.market) := fun d d' hd => by rw [hd.type]
  refine (keys_rel hm hl).bind fun _ _ _ => ?_
  refine (ER.filterE hl fun d d' hd => by rw [hd.type, hd.refProduct]).bind fun rc rc' hrc => ?_
  have hrc' : List.Forall₂ (RD ρ) rc rc' := forall₂_imp (fun _ _ h => h.1) hrc
  rw [groupKeys_rel (fun d d' hd => productIf_rel hm hd) hl]
  refine ER.foldE (refl_list _) hl fun s s' k _ hs hkk => ?_
  subst hkk
  refine groupStep_rel (R := Option.Rel (RAp ρ)) (fun d d' hd => productIf_rel hm hd) (fun k g g' hg => ?_) (fun t t' d d' ht hd => apportionUpd_rel hP ht hd) hs k
  unfold recycledPrep
  have hs' := filter_rel (p := fun ds : Dataset => ds.refProduct == some (k ++ rcString)) (q := fun ds => ds.refProduct == some (k ++ rcString))
    (fun d d' hd => by rw [RD.refProduct hd]) hrc'
  simp only
  rw [noOverlaps_rel P.T hg]
  refine (ER.refl _).bind fun _ _ _ => ER.ite (nil_rel hs') (fun _ => ER.ok .none) fun _ => ?_
  exact apportionPrep_rel P.T (fun _ _ _ => rfl) hg (forall₂_imp (fun _ _ h => h.1) hs')

theorem wants_rel (to_ : DsType) {d d' : Dataset} (hd : RD ρ d d') : wantsSuppliers to_ d = wantsSuppliers to_ d' := by
  unfold wantsSuppliers
  rw [hd.type, Bool.eq_iff_iff]
  simp only [Bool.and_eq_true, List.isEmpty_iff, nil_rel (getD_rel (hd.sup))]

theorem resp_addSuppliers {P : PipelineEnv} (hP : Env ρ P) (from_ to_ : DsType) : Resp ρ (addSuppliersToMarkets P.T P.σ from_ to_) := by
  intro l l' hl
  unfold addSuppliersToMarkets
  have hm : ∀ d d', RD ρ d d' → (d.type == from_ || d.type == to_) = (d'.type == from_ || d'.type == to_) := fun d d' hd => by rw [hd.type]
  refine (keys_rel hm hl).bind fun _ _ _ => ?_
  rw [groupKeys_rel (fun d d' hd => productIf_rel hm hd) hl]
  refine ER.foldE (refl_list _) hl fun s s' k _ hs hkk => ?_
  subst hkk
  refine groupStep_rel (R := Option.Rel (RAp ρ)) (fun d d' hd => productIf_rel hm hd) (fun k g g' hg => ?_) (fun t t' d d' ht hd => apportionUpd_rel hP ht hd) hs k
  unfold addSuppliersPrep
  have hsup := forall₂_imp (fun _ _ h => h.1) (filter_rel (p := fun ds : Dataset => ds.type == from_) (q := fun ds => ds.type == from_) (fun d d' hd => by rw [RD.type hd]) hg)
  have hcon := forall₂_imp (fun _ _ h => h.1) (filter_rel (p := wantsSuppliers to_) (q := wantsSuppliers to_) (fun d d' hd => wants_rel to_ hd) hg)
  refine ER.ite (nil_rel hcon) (fun _ => ER.ok .none) fun _ => ER.ite Iff.rfl (fun _ => ?_) fun _ => ?_
  · rw [noOverlaps_rel P.T hcon]
    exact (ER.refl _).bind fun _ _ _ => apportionPrep_rel P.T (fun d d' hd => wants_rel to_ hd) hcon hsup
  · exact apportionPrep_rel P.T (fun d d' hd => wants_rel to_ hd) hcon hsup

/-! ## Volumes of markets -/

theorem entryVolume_rel {e e' : Exchange} (he : RE ρ e e') : entryVolume e = entryVolume e' := by rw [he]; rfl

theorem entryOriginal_rel {e e' : Exchange} (he : RE ρ e e') : entryOriginalVolume e = entryOriginalVolume e' := by rw [he]; rfl

theorem updateMarket_rel {d d' : Dataset} (hd : RD ρ d d') : ER (RD ρ) (updateMarketVolume d) (updateMarketVolume d') := by
  unfold updateMarketVolume
  refine (single_rel hd).bind fun rp rp' hrp => (ER.getKey hd.sup).bind fun s s' hs => ?_
  rw [← mapE_eq (fun _ _ h => entryOriginal_rel h) hs, ← mapE_eq (fun _ _ h => entryVolume_rel h) hs, ← RE.pv hrp.1]
  refine (ER.refl _).bind ?_
  rintro o _ rfl
  refine (ER.refl _).bind fun _ _ _ => (ER.refl _).bind ?_
  rintro v _ rfl
  exact ER.ok (hd.mapEx fun e e' he => mapRefVolume_rel _ he)

theorem resp_updateMarkets (T : Topology) (kind : DsType) (hk : kind ≠ .marketGroup) : Resp ρ (updateMarketProductionVolumes T kind) := by
  intro l l' hl
  unfold updateMarketProductionVolumes
  rw [if_neg hk, if_neg hk]
  refine ER.mapE hl fun d d' hd => ?_
  exact ER.ite (by rw [hd.type]) (fun _ => updateMarket_rel hd) fun _ => hd

theorem propagateVolume_rel (c : Option String) (v : ℚ) {e e' : Exchange} (he : RE ρ e e') : ER (RE ρ) (propagateVolume c v e) (propagateVolume c v e') := by
  unfold propagateVolume
  rw [RE.code he]
  refine (ER.refl _).bind ?_
  rintro a _ rfl
  refine (ER.refl _).bind ?_
  rintro b _ rfl
  by_cases hab : a = b
  · rw [if_pos hab, if_pos hab, he]
    exact ER.ok rfl
  · rw [if_neg hab, if_neg hab]
    exact he

theorem RD.ne_iff (hu : ρ.Proper) {a a' b b' : Dataset} (ha : RD ρ a a') (hb : RD ρ b b') : a' ≠ b' ↔ a ≠ b := (RD.eq_iff hu ha hb).not

theorem positions_rel (kind : DsType) {l l' : List Dataset} (hl : List.Forall₂ (RD ρ) l l') : positionsOf kind l = positionsOf kind l' := by
  unfold positionsOf
  exact map_eq_rel (fun _ _ h => h.1.1) (filter_rel (fun p p' hp => by rw [hp.2.type]) (zipIdx_rel hl 0))

theorem updateGroup_rel (hu : ρ.Proper) (m : List ℕ) {st st' : List Dataset} (hst : List.Forall₂ (RD ρ) st st') (i : ℕ) :
    ER (List.Forall₂ (RD ρ)) (updateGroupStep m st i) (updateGroupStep m st' i) := by
  unfold updateGroupStep
  have hg := get_rel hst i
  revert hg
  generalize st'[i]? = od'
  generalize st[i]? = od
  intro hg
  cases hg with
  | none => exact hst
  | some hd =>
    simp only
    refine (updateMarket_rel hd).bind fun r r' hr => ?_
    refine ER.mapE (zipIdx_rel (set_rel hst i hr) 0) fun p p' hp => ?_
    obtain ⟨hp1, hp2⟩ := hp
    unfold propagateTo
    refine ER.ite ?_ (fun _ => ?_) fun _ => hp2
    · rw [hp1, RD.ne_iff hu hp2 hr]
    · refine (ER.getKey hp2.sup).bind fun s s' hs => ?_
      rw [← hr.code, productionVolume_rel hr]
      exact (ER.mapE hs fun e e' he => propagateVolume_rel _ _ he).bind fun s s' hs => hp2.setSup (.some hs)

theorem sizeRank_rel (o : List String) {l l' : List Dataset} (hl : List.Forall₂ (RD ρ) l l') (i : ℕ) : sizeRank o l i = sizeRank o l' i := by
  unfold sizeRank
  have hg := get_rel hl i
  revert hg
  generalize l[i]? = a
  generalize l'[i]? = b
  intro hg
  cases hg with
  | none => rfl
  | some h => simp only; rw [h.location]

theorem groupOrder_rel (T : Topology) {l l' : List Dataset} (hl : List.Forall₂ (RD ρ) l l') : groupOrder T l = groupOrder T l' := by
  unfold groupOrder
  rw [positions_rel _ hl, map_eq_rel (fun _ _ h => RD.location h.1) (filter_rel (q := fun ds : Dataset => ds.type == .marketGroup) (fun d d' hd => by rw [RD.type hd]) hl)]
  simp only [sizeRank_rel _ hl]

theorem resp_updateGroups (hu : ρ.Proper) (T : Topology) : Resp ρ (updateMarketProductionVolumes T .marketGroup) := by
  intro l l' hl
  unfold updateMarketProductionVolumes
  rw [if_pos rfl, if_pos rfl, ← groupOrder_rel T hl, ← positions_rel _ hl]
  refine (ER.refl (groupOrder T l)).bind ?_
  rintro o _ rfl
  refine ER.foldE (refl_list o) hl ?_
  rintro st st' i _ hst rfl
  exact updateGroup_rel hu _ hst i

/-! ## Allocating suppliers -/

theorem marketInput_rel (a t : ℚ) {e e' : Exchange} (he : RE ρ e e') : ER (List.Forall₂ (RE ρ)) (marketInput a t e) (marketInput a t e') := by
  have h : marketInput a t e' = marketInput a t e := by rw [he]; rfl
  rw [h]
  unfold marketInput
  refine (ER.refl _).bind ?_
  rintro p _ rfl
  simp only
  refine ER.ite Iff.rfl (fun _ => ER.ok .nil) fun _ => (ER.refl _).bind ?_
  rintro c _ rfl
  exact (ER.refl _).bind fun _ _ _ => ER.ok (.cons rfl .nil)

theorem default_rel {e e' : Exchange} (he : RE ρ e e') : RE ρ (defaultVolume e) (defaultVolume e') := by rw [he]; rfl

theorem allocateSuppliers_rel {d d' : Dataset} (hd : RD ρ d d') : ER (RD ρ) (allocateSuppliers d) (allocateSuppliers d') := by
  unfold allocateSuppliers
  refine (single_rel hd).bind fun e e' he => (ER.getKey hd.sup).bind fun s s' hs => ?_
  rw [← mapE_eq (fun _ _ h => entryVolume_rel h) hs, ← RE.amount he.1]
  refine (ER.refl _).bind ?_
  rintro v _ rfl
  refine ER.ite Iff.rfl (fun _ => ?_) fun _ => ?_
  · refine ER.ite (by rw [hs.length_eq]) (fun _ => hd) fun _ => ?_
    refine ER.bind (R := Eq) (by rw [hd.refProduct]; exact ER.refl _) fun _ _ _ => ?_
    refine (ER.mapE (Q := Eq) hs fun e e' he => by rw [he]; exact ER.refl _).bind fun _ _ _ => ?_
    refine (ER.flatMapE (Q := RE ρ) (map_rel (fun _ _ hy => default_rel hy) hs) fun _ _ hy => marketInput_rel _ _ hy).bind fun n n' hn => ?_
    exact ER.ok ((hd.setEx (List.rel_append hd.exs hn)).setSup (.some (map_rel (fun _ _ hy => default_rel hy) hs)))
  · refine (ER.flatMapE (Q := RE ρ) hs fun _ _ hx => marketInput_rel _ _ hx).bind fun n n' hn => ?_
    exact hd.setEx (List.rel_append hd.exs hn)

theorem resp_allocate (kind : DsType) : Resp ρ (allocateAllMarketSuppliers kind) := by
  intro l l' hl
  refine ER.mapE hl fun d d' hd => ?_
  exact ER.ite (by rw [hd.type]) (fun _ => allocateSuppliers_rel hd) fun _ => ER.ok hd

theorem resp_deleteSuppliers {l l' : List Dataset} (hl : List.Forall₂ (RD ρ) l l') : List.Forall₂ (RD ρ) (deleteSuppliersList l) (deleteSuppliersList l') :=
  map_rel (fun _ _ hd => hd.setSup .none) hl

/-! ## Market groups -/

theorem places_rel (kind : DsType) (r : String) {l l' : List Dataset} (hl : List.Forall₂ (RD ρ) l l') :
    ER (List.Forall₂ (RL ρ)) (placesOf kind r l) (placesOf kind r l') := by
  unfold placesOf
  refine (keys_rel (fun d d' hd => by rw [hd.type]) hl).bind fun a a' ha => ?_
  exact ER.ok (byLocation_rel (map_rel (fun _ _ h => h.1.2) (filter_rel (fun p p' hp => by rw [hp.1]) ha)))

theorem locs_rel {m m' : List (String × Dataset)} (h : List.Forall₂ (RL ρ) m m') : m.map (·.1) = m'.map (·.1) := map_eq_rel (fun _ _ h => h.1) h

theorem candidateAt_rel {m m' g g' : List (String × Dataset)} (hm : List.Forall₂ (RL ρ) m m') (hg : List.Forall₂ (RL ρ) g g') (s : String) :
    ER (RD ρ) (candidateAt m g s) (candidateAt m' g' s) := by
  unfold candidateAt
  rw [locs_rel hm]
  exact ER.ite Iff.rfl (fun _ => ER.getKey (lookupL_rel hm s)) fun _ => ER.getKey (lookupL_rel hg s)

theorem groupEntries_rel {l l' : List Dataset} (hl : List.Forall₂ (RD ρ) l l') : ER (List.Forall₂ (RE ρ)) (groupEntries l) (groupEntries l') := by
  unfold groupEntries
  refine (ER.mapE (Q := RL ρ) hl fun d d' hd => ?_).bind fun k k' hk => ?_
  · unfold withCode
    rw [hd.code]
    refine (ER.refl _).bind ?_
    rintro c _ rfl
    exact ⟨rfl, hd⟩
  · exact ER.mapE (insertionSort_rel (fun a b a' b' ha hb => by rw [ha.1, hb.1]) hk) fun _ _ h => supplierEntry_rel h.2

theorem linkGroup_rel (T : Topology) (r : String) {l l' : List Dataset} (hl : List.Forall₂ (RD ρ) l l') {d d' : Dataset} (hd : RD ρ d d') :
    ER (RD ρ) (linkMarketGroup T l r d) (linkMarketGroup T l' r d') := by
  unfold linkMarketGroup
  refine (places_rel _ r hl).bind fun m m' hm => (places_rel _ r hl).bind fun g g' hg => ?_
  have hrow : T.marketsRow m = T.marketsRow m' := by unfold Topology.marketsRow; rw [locs_rel hm]
  rw [hrow, locs_rel hm, locs_rel hg, hd.location]
  refine (ER.refl _).bind ?_
  rintro row _ rfl
  refine (ER.refl _).bind ?_
  rintro o _ rfl
  have hstep : chooseStep T row m d'.location = chooseStep T row m' d'.location := by
    funext f c
    unfold chooseStep
    rw [locs_rel hm]
  rw [hstep]
  refine (ER.refl _).bind ?_
  rintro f _ rfl
  refine (ER.mapE (refl_list f) fun a b hab => by subst hab; exact candidateAt_rel hm hg a).bind fun c c' hc => ?_
  refine (groupEntries_rel hc).bind fun e e' he => ?_
  obtain ⟨ex', s', rfl, hex, -⟩ := hd
  refine ER.ok ⟨ex', _, rfl, hex, ?_⟩
  by_cases h : e = []
  · rw [if_pos h, if_pos ((nil_rel he).mp h)]; exact .none
  · rw [if_neg h, if_neg (fun h' => h ((nil_rel he).mpr h'))]; exact .some he

theorem names_rel {l l' : List Dataset} (hl : List.Forall₂ (RD ρ) l l') : checkGroupNames l = checkGroupNames l' := by
  unfold checkGroupNames
  refine ER.eq ((keys_rel (fun d d' hd => by rw [hd.type]) hl).bind fun k k' hk => ?_)
  refine ER.ite ?_ (fun _ => ER.refl _) fun _ => ER.refl _
  rw [all_rel (R := fun g g' : String × List (String × Dataset) => g.1 = g'.1 ∧ List.Forall₂ (fun a a' : String × Dataset => a.1 = a'.1 ∧ RD ρ a.2 a'.2) g.2 g'.2)
    (fun g g' hg => ?_) (groupBy_rel (fun _ _ h => h.1) hk)]
  rw [map_eq_rel (fun _ _ h => RD.name h.2) hg.2]

theorem resp_groups (T : Topology) : Resp ρ (linkMarketGroupSuppliers T) := by
  intro l l' hl
  unfold linkMarketGroupSuppliers
  rw [names_rel hl]
  refine (ER.refl _).bind fun _ _ _ => ER.mapE (zipIdx_rel hl 0) fun p p' hp => ?_
  refine ER.ite ?_ (fun _ => ?_) fun _ => hp.2
  · have : isShadowed l p.2 p.1 = isShadowed l' p'.2 p'.1 := by
      unfold isShadowed
      rw [← hp.1, ← hp.2.refProduct, ← hp.2.location]
      exact any_rel (fun d d' hd => by rw [RD.type hd, RD.refProduct hd, RD.location hd]) (drop_rel hl _)
    rw [this, hp.2.type]
  · rw [hp.2.refProduct]
    refine (ER.refl _).bind ?_
    rintro r _ rfl
    exact linkGroup_rel T r hl hp.2

/-! ## Consumers -/

theorem unlinked_rel {e e' : Exchange} (he : RE ρ e e') : isUnlinked e = isUnlinked e' := by
  unfold isUnlinked
  rw [RE.type he, RE.code he]

theorem resp_recycled : Resp ρ linkRecycledContent := by
  intro l l' hl
  unfold linkRecycledContent
  refine (ER.filterE hl fun d d' hd => by unfold makesRecycledContent; rw [hd.refProduct, hd.type]).bind fun rc rc' hrc => ?_
  have hrc' : List.Forall₂ (RD ρ) rc rc' := forall₂_imp (fun _ _ h => h.1) hrc
  refine ER.mapE hl fun d d' hd => hd.mapExE2 fun e e' he => ?_
  unfold linkRecycledInput
  rw [unlinked_rel he, RE.name he]
  refine ER.ite Iff.rfl (fun _ => ?_) fun _ => he
  exact linkToOnly_rel he (forall₂_imp (fun _ _ h => h.1) (filter_rel (fun d d' hd => by rw [RD.refProduct hd]) hrc'))

theorem consumerRow_rel (T : Topology) {l l' : List Dataset} (hl : List.Forall₂ (RD ρ) l l') {d d' : Dataset} (hd : RD ρ d d') :
    consumerRow T l d = consumerRow T l' d' := by
  unfold consumerRow peerType
  rw [hd.location, hd.type, hd.name]
  have h := filter_rel (p := fun x : Dataset => x.type == (if d'.type = .transforming then .transforming else .market) && x.name == d'.name)
    (q := fun x : Dataset => x.type == (if d'.type = .transforming then .transforming else .market) && x.name == d'.name) (fun a b hab => by rw [RD.type hab, RD.name hab]) hl
  refine ER.eq (ER.ite Iff.rfl (fun _ => ?_) fun _ => ER.refl _)
  simp only
  rw [map_eq_rel (fun _ _ h => RD.location h.1) h]
  exact ER.ite (nil_rel h) (fun _ => ER.refl _) fun _ => ER.refl _

theorem chooseMarkets_rel (T : Topology) (loc : String) (crow : Option (Finset ℕ)) {l l' : List Dataset} (hl : List.Forall₂ (RD ρ) l l') :
    ER (List.Forall₂ (RD ρ)) (chooseMarkets T loc crow l) (chooseMarkets T loc crow l') := by
  unfold chooseMarkets
  have hm := byLocation_rel (forall₂_imp (fun _ _ h => h.1) (filter_rel (p := fun d : Dataset => d.type == .market) (q := fun d : Dataset => d.type == .market) (fun d d' hd => by rw [RD.type hd]) hl))
  have hg := byLocation_rel (forall₂_imp (fun _ _ h => h.1) (filter_rel (p := fun d : Dataset => d.type == .marketGroup) (q := fun d : Dataset => d.type == .marketGroup) (fun d d' hd => by rw [RD.type hd]) hl))
  have hrow : T.marketsRow (byLocation (l.filter fun d => d.type == .market)) = T.marketsRow (byLocation (l'.filter fun d => d.type == .market)) := by
    unfold Topology.marketsRow; rw [locs_rel hm]
  simp only
  rw [hrow, locs_rel hm, locs_rel hg]
  refine (ER.refl _).bind ?_
  rintro row _ rfl
  refine (ER.refl _).bind ?_
  rintro o _ rfl
  refine (ER.refl _).bind ?_
  rintro f _ rfl
  refine (ER.refl _).bind ?_
  rintro f' _ rfl
  exact ER.mapE (refl_list f') fun a b hab => by subst hab; exact candidateAt_rel hm hg a

theorem mapping_rel (r : String) {l l' : List Dataset} (hl : List.Forall₂ (RD ρ) l l') : List.Forall₂ (RD ρ) (marketsMapping l r) (marketsMapping l' r) :=
  forall₂_imp (fun _ _ h => h.1) (filter_rel (fun d d' hd => by rw [RD.type hd, RD.refProduct hd]) hl)

theorem candidatesFor_rel {l l' : List Dataset} (hl : List.Forall₂ (RD ρ) l l') {p p' : Option (List Dataset)} (hp : Option.Rel (List.Forall₂ (RD ρ)) p p') (name : String) :
    ER (List.Forall₂ (RD ρ)) (candidatesFor l p name) (candidatesFor l' p' name) := by
  unfold candidatesFor
  refine ER.ite (nil_rel (mapping_rel name hl)).not (fun _ => mapping_rel name hl) fun _ => ER.ite Iff.rfl (fun _ => ?_) fun _ => rfl
  cases hp with
  | none => exact rfl
  | some h => exact h

theorem consumerEntry_rel {e e' : Exchange} (he : RE ρ e e') {d d' : Dataset} (hd : RD ρ d d') : RE ρ (consumerEntry e d) (consumerEntry e' d') := by
  unfold consumerEntry
  rw [annotate_rel he hd, productionVolume_rel hd]
  rfl

theorem RE.asInput {e e' : Exchange} (h : RE ρ e e') (c : String) :
    RE ρ { e with type := .fromTechnosphere, tag := "intermediateExchange", code := some c } { e' with type := .fromTechnosphere, tag := "intermediateExchange", code := some c } := by
  rw [h]; rfl

theorem inputShare_rel (M : MathEnv) {e e' : Exchange} (he : RE ρ e e') (t : ℚ) {s s' : Exchange} (hs : RE ρ s s') :
    ER (List.Forall₂ (RE ρ)) (inputShare M e t s) (inputShare M e' t s') := by
  unfold inputShare
  rw [← RE.pv hs]
  refine (ER.refl _).bind ?_
  rintro p _ rfl
  simp only
  refine ER.ite Iff.rfl (fun _ => ER.ok .nil) fun _ => (RE.scale he _).bind fun n n' hn => ?_
  have hloc : s'.location = s.location := by rw [hs]; rfl
  rw [← RE.code hs, hloc]
  refine (ER.refl _).bind ?_
  rintro c _ rfl
  exact (ER.refl _).bind fun _ _ _ => ER.ok (.cons (RE.asInput hn c) .nil)

/-- Exchanges with their position. -/
abbrev RP (ρ : Spec.Renaming) (p p' : Option ℕ × Exchange) : Prop := p.1 = p'.1 ∧ RE ρ p.2 p'.2

theorem splitInput_rel (hu : ρ.Proper) (M : MathEnv) {e e' : Exchange} (he : RE ρ e e') {s s' : List Exchange} (hs : List.Forall₂ (RE ρ) s s')
    {x x' : List (Option ℕ × Exchange)} (hx : List.Forall₂ (RP ρ) x x') : ER (List.Forall₂ (RP ρ)) (splitInput M e s x) (splitInput M e' s' x') := by
  unfold splitInput
  rw [← mapE_eq (fun _ _ h => entryVolume_rel h) hs]
  refine (ER.refl _).bind ?_
  rintro v _ rfl
  refine ER.ite Iff.rfl (fun _ => hx) fun _ => ?_
  refine (ER.flatMapE (Q := RE ρ) hs fun _ _ h => inputShare_rel M he _ h).bind fun n n' hn => ?_
  refine ER.ok (forall₂_imp (fun _ _ h => h.1) (filter_rel (fun p p' hp => ?_) (List.rel_append hx (map_rel (Q := RP ρ) (f := fun n => (none, n)) (g := fun n => (none, n)) (fun a b hab => ⟨rfl, hab⟩) hn))))
  rw [decide_eq_decide]
  exact (RE.eq_iff hu hp.2 he).not.symm

/-- The state of the loop. -/
structure RS (ρ : Spec.Renaming) (s s' : LinkState) : Prop where
  candidates : Option.Rel (List.Forall₂ (RD ρ)) s.candidates s'.candidates
  exchanges : List.Forall₂ (RP ρ) s.exchanges s'.exchanges
  suppliers : Option.Rel (List.Forall₂ (RE ρ)) s.suppliers s'.suppliers

theorem useMarkets_rel (hu : ρ.Proper) (M : MathEnv) {s s' : LinkState} (hs : RS ρ s s') {e e' : Exchange} (he : RE ρ e e') (i : ℕ)
    {c c' : List Dataset} (hc : List.Forall₂ (RD ρ) c c') : ER (RS ρ) (useMarkets M s e i c) (useMarkets M s' e' i c') := by
  cases hc with
  | nil => exact ER.ok ⟨hs.candidates, hs.exchanges, .none⟩
  | @cons a a' c c' ha hc =>
    cases hc with
    | nil =>
      unfold useMarkets
      simp only
      rw [ha.code]
      refine (ER.refl _).bind ?_
      rintro k _ rfl
      refine ER.ok ⟨hs.candidates, map_rel (fun p p' hp => ?_) hs.exchanges, hs.suppliers⟩
      unfold setCodeAt
      by_cases h : p.1 = some i
      · rw [if_pos h, if_pos (hp.1 ▸ h)]
        exact ⟨hp.1, RE.setCode hp.2 _⟩
      · rw [if_neg h, if_neg (hp.1 ▸ h)]
        exact hp
    | @cons b b' c c' hb hc =>
      have hall : List.Forall₂ (RD ρ) (a :: b :: c) (a' :: b' :: c') := .cons ha (.cons hb hc)
      unfold useMarkets
      simp only
      refine (splitInput_rel hu M he (map_rel (fun d d' hd => consumerEntry_rel he hd) hall) hs.exchanges).bind fun x x' hx => ?_
      exact ER.ok ⟨hs.candidates, hx, .none⟩

theorem linkConsumer_rel (hu : ρ.Proper) (M : MathEnv) (T : Topology) {l l' : List Dataset} (hl : List.Forall₂ (RD ρ) l l') {c c' : Option (List Dataset)}
    (hc : Option.Rel (List.Forall₂ (RD ρ)) c c') {d d' : Dataset} (hd : RD ρ d d') :
    ER (fun p p' => Option.Rel (List.Forall₂ (RD ρ)) p.1 p'.1 ∧ RD ρ p.2 p'.2) (linkConsumer M T l c d) (linkConsumer M T l' c' d') := by
  unfold linkConsumer
  refine ER.ite (by rw [hd.type]) (fun _ => ER.ok ⟨hc, hd⟩) fun _ => ?_
  rw [← consumerRow_rel T hl hd, ← hd.location]
  refine (ER.refl _).bind ?_
  rintro crow _ rfl
  have hz := zipIdx_rel hd.exs 0
  refine (ER.foldE (S := RS ρ) (filter_rel (p := fun p : Exchange × ℕ => isUnlinked p.1) (q := fun p : Exchange × ℕ => isUnlinked p.1) (fun p p' hp => unlinked_rel hp.2) hz)
    ⟨hc, map_rel (fun p p' hp => ⟨by rw [hp.1], hp.2⟩) hz, hd.sup⟩ ?_).bind fun st st' hst => ?_
  · rintro st st' p p' hst ⟨hp, hun⟩
    unfold linkInput
    rw [← RE.name hp.2, ← hp.1]
    refine (candidatesFor_rel hl hst.candidates _).bind fun a a' ha => (chooseMarkets_rel T _ crow ha).bind fun b b' hb => ?_
    exact useMarkets_rel (s := { st with candidates := some a }) (s' := { st' with candidates := some a' }) hu M ⟨.some ha, hst.exchanges, hst.suppliers⟩ hp.2 _ hb
  · refine ER.ok ⟨hst.candidates, ?_⟩
    obtain ⟨ex', s', rfl, hex, -⟩ := hd
    exact ⟨_, _, rfl, map_rel (fun _ _ h => h.2) hst.exchanges, hst.suppliers⟩

theorem resp_consumers (hu : ρ.Proper) (M : MathEnv) (T : Topology) : Resp ρ (linkConsumersToMarkets M T) := by
  intro l l' hl
  unfold linkConsumersToMarkets
  refine (keys_rel (fun d d' hd => by rw [hd.type]) hl).bind fun _ _ _ => ?_
  exact ER.scanE hl .none fun s s' d d' hs hd => linkConsumer_rel hu M T hl hs hd

theorem resp_rpCodes : Resp ρ addReferenceProductCodes :=
  resp_mapE fun d d' hd => by
    rw [rpCode_eq, rpCode_eq]
    have hc := hd.code
    refine (ER.mono (R := Eq) ?_ fun _ _ _ => trivial).bind (R := fun _ _ => True) fun _ _ _ => (single_rel hd).bind fun _ _ _ => ER.ok (hd.mapEx fun e e' he => ?_)
    · rw [hc]; exact ER.refl _
    · by_cases ht : e.type = .referenceProduct
      · rw [if_pos ht, if_pos (RE.type he ▸ ht), hc]; exact he.setCode _
      · rw [if_neg ht, if_neg (RE.type he ▸ ht)]; exact he

theorem resp_unlinked : Resp ρ (fun l => .ok (logAndDeleteUnlinked l)) :=
  resp_map fun d d' hd => by
    refine hd.setEx ?_
    rw [hd.code]
    exact forall₂_imp (fun _ _ h => h.1) (filter_rel (fun _ _ _ => rfl) hd.exs)

end Renamed
end Ocelot
