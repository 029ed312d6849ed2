import Verif.Proofs.ProgressConsumers
import Verif.Props.Pipeline
import Verif.Props.ModelRun

/-! # From allocated datasets to coded ones, and the whole of the linking part -/

namespace Ocelot
open Spec

namespace Progress

variable {b : Bool}

/-! ## The exchanges -/

/-- An exchange on which `drop_rp_activity_links`, `assign_fake_pv_to_confidential_datasets` and `relabel_global_to_row` have worked. -/
structure Begun (e e' : Exchange) : Prop where
  touch : Touch e e'
  code : e'.code = e.code
  link : e'.activityLink = (dropRpLink e).activityLink

theorem begun_drop (e : Exchange) : Begun e (dropRpLink e) := by
  unfold dropRpLink
  split
  · next h => exact ⟨⟨rfl, rfl, rfl, rfl, id, .inl rfl⟩, rfl, by unfold dropRpLink; rw [if_pos h]⟩
  · next h => exact ⟨.refl e, rfl, by unfold dropRpLink; rw [if_neg h]⟩

theorem begun_volume {e e' : Exchange} (f : PV → PV) (h : Begun e e') : Begun e (mapRefVolume f e') := by
  unfold mapRefVolume
  split
  · refine ⟨⟨h.touch.num, h.touch.type, h.touch.name, h.touch.cls, fun hp => ?_, h.touch.code⟩, h.code, h.link⟩
    have := h.touch.pv hp
    rw [Option.isSome_map]
    exact this
  · exact h

theorem begun_rest {e e' : Exchange} (v : ℚ) (h : Begun e e') : Begun e (restVolume v e') := begun_volume _ h

theorem begun_link {e e' : Exchange} (h : Begun e e') {l : String} (hl : e'.activityLink = some l) (hne : l ≠ "") :
    e.activityLink = some l ∧ e.type ≠ .referenceProduct ∧ e.type ≠ .droppedProduct := by
  have := h.link
  rw [hl] at this
  unfold dropRpLink at this
  split at this
  · cases this
  · next hn =>
    have ht : truthy e.activityLink = true := by
      rw [← this]
      simpa [truthy] using hne
    exact ⟨this.symm, fun h => hn ⟨.inl h, ht⟩, fun h => hn ⟨.inr h, ht⟩⟩

theorem begun_keeps {e e' : Exchange} (h : Begun e e') (ht : e.type = .fromTechnosphere) : e'.activityLink = e.activityLink := by
  rw [h.link]
  unfold dropRpLink
  rw [if_neg]
  rintro ⟨hh | hh, -⟩ <;> rw [ht] at hh <;> cases hh

/-! ## The datasets -/

/-- `drop_rp_activity_links`, `label_reference_product` and `assign_fake_pv_to_confidential_datasets`. -/
def opened (d : Dataset) : Dataset :=
  let d1 := { d with exchanges := d.exchanges.map dropRpLink, refProduct := some (product d) }
  if d.type = .transforming ∧ confidentialNames.contains d.name then { d1 with exchanges := d1.exchanges.map (mapRefVolume unitVolume) } else d1

theorem opened_frame (d : Dataset) : (opened d).name = d.name ∧ (opened d).type = d.type ∧ (opened d).location = d.location ∧ (opened d).id = d.id ∧
    (opened d).refProduct = some (product d) ∧ (opened d).suppliers = d.suppliers ∧ (opened d).unit = d.unit ∧ (opened d).startDate = d.startDate ∧
    (opened d).endDate = d.endDate := by
  unfold opened
  dsimp only
  split <;> exact ⟨rfl, rfl, rfl, rfl, rfl, rfl, rfl, rfl, rfl⟩

theorem opened_exchanges (d : Dataset) : List.Forall₂ Begun d.exchanges (opened d).exchanges := by
  have h1 : List.Forall₂ Begun d.exchanges (d.exchanges.map dropRpLink) := by
    rw [List.forall₂_map_right_iff]
    exact List.forall₂_same.mpr fun e _ => begun_drop e
  unfold opened
  dsimp only
  split
  · dsimp only
    rw [List.forall₂_map_right_iff]
    exact h1.imp fun a b hab => begun_volume _ hab
  · exact h1

theorem begun_live {l l' : List Exchange} (h : List.Forall₂ Begun l l') :
    ((l'.filter isProduction).filter fun e => e.amount != 0).map (·.name) = ((l.filter isProduction).filter fun e => e.amount != 0).map (·.name) := by
  have h1 : List.Forall₂ Begun (l.filter isProduction) (l'.filter isProduction) := by
    refine forall₂_filter_rel h fun a b hab => ?_
    unfold isProduction
    rw [hab.touch.type, hab.touch.cls]
  have h2 : List.Forall₂ Begun ((l.filter isProduction).filter fun e => e.amount != 0) ((l'.filter isProduction).filter fun e => e.amount != 0) := by
    refine forall₂_filter_rel h1 fun a b hab => ?_
    rw [congrArg NumObj.amount hab.touch.num]
  exact (forall₂_map_eq' h2 fun a b hab => hab.touch.name.symm).symm

theorem opened_live (d : Dataset) : liveProducts (opened d) = liveProducts d := begun_live (opened_exchanges d)

theorem sameActivity_opened (a b : Dataset) : SameActivity (opened a) (opened b) ↔ SameActivity a b := by
  unfold SameActivity
  rw [opened_live, opened_live, (opened_frame a).1, (opened_frame b).1]

theorem activityGroup_opened (k : List Dataset) (d : Dataset) : activityGroup (k.map opened) (opened d) = (activityGroup k d).map opened := by
  unfold activityGroup
  rw [List.filter_map]
  congr 1
  apply List.filter_congr
  intro o _
  simp only [Function.comp_apply, sameActivity_opened]

theorem relabelled_opened (k : List Dataset) (d : Dataset) : Relabelled (k.map opened) (opened d) ↔ Relabelled k d := by
  unfold Relabelled
  rw [activityGroup_opened, List.length_map, (opened_frame d).2.2.1]
  have : ((activityGroup k d).map opened).head?.map (·.type) = (activityGroup k d).head?.map (·.type) := by
    cases activityGroup k d with
    | nil => rfl
    | cons a l => simp [(opened_frame a).2.1]
  rw [this]

/-- The dataset with its code. -/
def coded (lower md5 : String → String) (k : List Dataset) (d : Dataset) : Dataset :=
  let d1 := if Relabelled k d then asRow (k.map opened) (opened d) else opened d
  { d1 with code := some (finalCode lower md5 k d) }

theorem coded_frame (lower md5 : String → String) (k : List Dataset) (d : Dataset) : sig (coded lower md5 k d) = finalSig k d ∧
    (coded lower md5 k d).id = d.id ∧ (coded lower md5 k d).refProduct = some (product d) ∧ (coded lower md5 k d).suppliers = d.suppliers ∧
    (coded lower md5 k d).code = some (finalCode lower md5 k d) ∧ List.Forall₂ Begun d.exchanges (coded lower md5 k d).exchanges := by
  obtain ⟨f1, f2, f3, f4, f5, f6, -⟩ := opened_frame d
  unfold coded
  dsimp only
  split
  · next h =>
    unfold sig finalSig place asRow
    rw [if_pos h]
    refine ⟨by dsimp only; rw [f1, f2, f5]; rfl, f4, f5, f6, rfl, ?_⟩
    dsimp only
    rw [List.forall₂_map_right_iff]
    exact (opened_exchanges d).imp fun a b hab => begun_rest _ hab
  · next h =>
    unfold sig finalSig place
    rw [if_neg h]
    exact ⟨by dsimp only; rw [f1, f2, f3, f5]; rfl, f4, f5, f6, rfl, opened_exchanges d⟩

theorem kept_eq (data : List Dataset) : kept data = data.filter fun d => !isWhitelisted d := by
  unfold kept
  apply List.filter_congr
  intro d _
  unfold isWhitelisted
  congr 1
  rw [Bool.eq_iff_iff]
  simp
  tauto

/-- The functions from `drop_rp_activity_links` to `add_unique_codes`. -/
def openingSteps : List Step :=
  [.dropRpActivityLinks, .labelReferenceProduct, .deleteWhitelistedMarkets, .assignFakePv, .correctPipelineLocation, .relabelGlobalToRow,
    .checkNoRowMarketGroups, .addUniqueCodes]

theorem product_eq {d : Dataset} {r : Exchange} (h : refs d = [r]) : product d = r.name := by
  unfold product; rw [h]; rfl

theorem drop_refs (d : Dataset) : refs { d with exchanges := d.exchanges.map dropRpLink } = (refs d).map dropRpLink := by
  unfold refs
  rw [List.filter_map]
  congr 1
  apply List.filter_congr
  intro e _
  simp only [Function.comp_apply]
  rw [(begun_drop e).touch.type]

theorem label_total {data : List Dataset} (h : ∀ d ∈ data, (refs d).length = 1) :
    labelReferenceProduct (dropRpActivityLinks data) = .ok (data.map fun d => { d with exchanges := d.exchanges.map dropRpLink, refProduct := some (product d) }) := by
  unfold labelReferenceProduct dropRpActivityLinks
  rw [mapE_map]
  rw [← mapE_pure]
  apply mapE_congr
  intro d hd
  obtain ⟨r, hr⟩ := List.length_eq_one_iff.mp (h d hd)
  have : getSingleReferenceProduct { d with exchanges := d.exchanges.map dropRpLink } = .ok (dropRpLink r) := by
    apply getSingle_ok.mpr
    rw [drop_refs, hr]; rfl
  rw [this, ebind_ok, product_eq hr, (begun_drop r).touch.name]
  rfl

theorem step_on {P : PipelineEnv} {s : Step} {f : List Dataset → Except Err (List Dataset)} {l r : List Dataset} {ss : List Step}
    (hs : s.run P = onDatasets f) (hf : f l = .ok r) : runSteps P (s :: ss) l = runSteps P ss r := by
  unfold runSteps
  rw [foldE]
  have : s.run P (l.map .ds) = .ok (r.map .ds) := by
    rw [hs]
    exact onDatasets_map.mpr ⟨r, hf, rfl⟩
  simp only [this, ebind_ok]

theorem opened_refs {d : Dataset} {r : Exchange} (h : refs d = [r]) (hp : r.pv.isSome) : ∃ r', refs (opened d) = [r'] ∧ r'.pv.isSome ∧ r'.amount = r.amount := by
  have hF : List.Forall₂ Begun (refs d) (refs (opened d)) := forall₂_filter_rel (opened_exchanges d) fun a b hab => by rw [hab.touch.type]
  rw [h] at hF
  cases hx : refs (opened d) with
  | nil => rw [hx] at hF; cases hF
  | cons a l =>
    rw [hx] at hF
    cases hF with
    | cons hab ht =>
      cases ht
      exact ⟨a, rfl, hab.touch.pv hp, congrArg NumObj.amount hab.touch.num⟩

/-- `label_reference_product` after `drop_rp_activity_links`. -/
def labelled (d : Dataset) : Dataset := { d with exchanges := d.exchanges.map dropRpLink, refProduct := some (product d) }

/-- The dataset after `relabel_global_to_row`. -/
def placed (k : List Dataset) (d : Dataset) : Dataset := if Relabelled k d then asRow (k.map opened) (opened d) else opened d

/-- The functions up to `add_unique_codes`, one by one. -/
theorem opening_parts {T : Topology} {lower md5 : String → String} {data : List Dataset} (h : Orderly b T lower md5 (kept data)) :
    deleteWhitelistedMarkets (data.map labelled) = .ok ((kept data).map labelled) ∧
    assignFakePvToConfidential ((kept data).map labelled) = .ok ((kept data).map opened) ∧
    correctPipelineLocation ((kept data).map opened) = (kept data).map opened ∧
    relabelGlobalToRow ((kept data).map opened) = .ok ((kept data).map (placed (kept data))) ∧
    checkNoRowMarketGroups ((kept data).map (placed (kept data))) = .ok ((kept data).map (placed (kept data))) ∧
    addUniqueCodes lower md5 ((kept data).map (placed (kept data))) = .ok ((kept data).map (coded lower md5 (kept data))) := by
  set lab : Dataset → Dataset := labelled with hlab
  have h3 : deleteWhitelistedMarkets (data.map lab) = .ok ((kept data).map lab) := by
    unfold deleteWhitelistedMarkets
    obtain ⟨w, hw⟩ : ∃ w, mapE withRefProduct ((data.map lab).filter isWhitelisted) = .ok w := by
      refine mapE_ok_of_forall fun d hd => ?_
      obtain ⟨d0, -, rfl⟩ := List.mem_map.mp (List.mem_filter.mp hd).1
      exact ⟨_, rfl⟩
    rw [hw, ebind_ok, epure, kept_eq, List.filter_map]
    rfl
  have h4 : assignFakePvToConfidential ((kept data).map lab) = .ok ((kept data).map opened) := by
    unfold assignFakePvToConfidential
    rw [mapE_map, ← mapE_pure]
    apply mapE_congr
    intro d hd
    unfold assignFakePv opened
    by_cases hc : d.type = .transforming ∧ confidentialNames.contains d.name
    · rw [if_pos (show (lab d).type = .transforming ∧ confidentialNames.contains (lab d).name from hc)]
      simp only [if_pos hc]
      obtain ⟨r, hr, hp, -⟩ := (h.single d hd).ref
      obtain ⟨p, hp⟩ := Option.isSome_iff_exists.mp hp
      have h1 : getSingleReferenceProduct (lab d) = .ok (dropRpLink r) := by
        apply getSingle_ok.mpr
        have := drop_refs d
        rw [hr] at this
        exact this
      have h2 : (dropRpLink r).pv.isSome := (begun_drop r).touch.pv (by rw [hp]; rfl)
      obtain ⟨q, hq⟩ := Option.isSome_iff_exists.mp h2
      rw [h1, ebind_ok, hq, getKey_some, ebind_ok]
      rfl
    · rw [if_neg (show ¬ ((lab d).type = .transforming ∧ confidentialNames.contains (lab d).name) from hc)]
      simp only [if_neg hc]
      rfl
  have h5 : correctPipelineLocation ((kept data).map opened) = (kept data).map opened := by
    unfold correctPipelineLocation
    rw [List.map_map]
    apply List.map_congr_left
    intro d hd
    obtain ⟨f1, f2, f3, -⟩ := opened_frame d
    simp only [Function.comp_apply, f1, f2, f3, if_neg (h.single d hd).pipeline]
  have h6 : relabelGlobalToRow ((kept data).map opened) = .ok ((kept data).map (placed (kept data))) := by
    have hcl : ∀ d ∈ (kept data).map opened, Classified d := by
      intro d' hd'
      obtain ⟨d, hd, rfl⟩ := List.mem_map.mp hd'
      intro e' he' ht
      obtain ⟨e, he, hab⟩ := forall₂_mem_right (opened_exchanges d) he'
      rw [hab.touch.cls]
      exact (h.single d hd).classified e he (hab.touch.type ▸ ht)
    have hrp : ∀ d ∈ (kept data).map opened, Relabelled ((kept data).map opened) d → ∃ e p, refs d = [e] ∧ e.pv = some p := by
      intro d' hd' _
      obtain ⟨d, hd, rfl⟩ := List.mem_map.mp hd'
      obtain ⟨r, hr, hp, -⟩ := (h.single d hd).ref
      obtain ⟨r', hr', hp', -⟩ := opened_refs hr hp
      obtain ⟨p, hp'⟩ := Option.isSome_iff_exists.mp hp'
      exact ⟨r', p, hr', hp'⟩
    obtain ⟨out, hout⟩ := (C38_outcome _ hcl hrp).1 (by
      intro d' hd' hR
      obtain ⟨d, hd, rfl⟩ := List.mem_map.mp hd'
      rw [activityGroup_opened, List.filter_map, List.length_map]
      have : (activityGroup (kept data) d).filter ((fun o : Dataset => o.location == "GLO") ∘ opened) = (activityGroup (kept data) d).filter fun o => o.location == "GLO" := by
        apply List.filter_congr
        intro o _
        simp only [Function.comp_apply, (opened_frame o).2.2.1]
      rw [this]
      exact h.oneGlobal d hd ((relabelled_opened _ _).mp hR))
    rw [hout, C38_relabel _ _ hout, List.map_map]
    congr 1
    apply List.map_congr_left
    intro d _
    simp only [Function.comp_apply, relabelled_opened, placed]
  set row : Dataset → Dataset := placed (kept data) with hrow
  have hcoded : ∀ d, coded lower md5 (kept data) d = { row d with code := some (finalCode lower md5 (kept data) d) } := fun d => rfl
  have hsig : ∀ d, sig (row d) = finalSig (kept data) d := fun d => (coded_frame lower md5 (kept data) d).1
  have h7 : checkNoRowMarketGroups ((kept data).map row) = .ok ((kept data).map row) := by
    unfold checkNoRowMarketGroups
    rw [if_neg]
    rw [Bool.not_eq_true, List.any_eq_false]
    intro d' hd' hb
    obtain ⟨d, hd, rfl⟩ := List.mem_map.mp hd'
    rw [Bool.and_eq_true, beq_iff_eq, beq_iff_eq] at hb
    have := h.db.noRow (finalSig (kept data) d) (List.mem_map_of_mem hd)
    rw [← hsig d] at this
    exact this hb.1 hb.2
  have hhash : ∀ d, activityHash lower md5 (row d) = finalCode lower md5 (kept data) d := by
    intro d
    unfold activityHash finalCode
    rw [activityString_identity]
    obtain ⟨f1, f2, f3, f4, f5, f6, f7, f8, f9⟩ := opened_frame d
    congr 1
    simp only [hrow, place, placed]
    split
    · next hR => simp only [identity, asRow, f1, f5, f7, f8, f9]
    · next hR => simp only [identity, f1, f3, f5, f7, f8, f9]
  have h8 : addUniqueCodes lower md5 ((kept data).map row) = .ok ((kept data).map (coded lower md5 (kept data))) := by
    unfold addUniqueCodes
    rw [(addCodesFrom_spec _ _ _).1, List.map_map]
    · congr 1
      apply List.map_congr_left
      intro d _
      simp only [Function.comp_apply, hhash, hcoded]
    · refine ⟨by simp, ?_⟩
      rw [List.map_map]
      have : (activityHash lower md5 ∘ row) = finalCode lower md5 (kept data) := funext hhash
      rw [this]
      exact h.codes.1
  exact ⟨h3, h4, h5, h6, h7, h8⟩

theorem opening_total {T : Topology} {lower md5 : String → String} {data : List Dataset} (hone : ∀ d ∈ data, (refs d).length = 1)
    (h : Orderly b T lower md5 (kept data)) (P : PipelineEnv) (hl : P.lower = lower) (hm : P.md5 = md5) :
    runSteps P openingSteps data = .ok (((kept data).map (coded lower md5 (kept data))).map .ds) := by
  subst hl hm
  obtain ⟨h3, h4, h5, h6, h7, h8⟩ := opening_parts h
  unfold openingSteps
  rw [step_on (f := fun d => .ok (dropRpActivityLinks d)) rfl rfl, step_on (f := labelReferenceProduct) rfl (label_total hone)]
  change runSteps P _ (data.map labelled) = _
  rw [step_on (f := deleteWhitelistedMarkets) rfl h3, step_on (f := assignFakePvToConfidential) rfl h4,
    step_on (f := fun d => .ok (correctPipelineLocation d)) rfl (congrArg Except.ok h5), step_on (f := relabelGlobalToRow) rfl h6,
    step_on (f := checkNoRowMarketGroups) rfl h7, step_on (f := addUniqueCodes P.lower P.md5) rfl h8]
  rfl

/-! ## Activity links -/

theorem coded_fine {T : Topology} {lower md5 : String → String} {k : List Dataset} (h : Orderly b T lower md5 k) {d : Dataset} (hd : d ∈ k) :
    Fine b (fun _ => True) (coded lower md5 k d) := by
  obtain ⟨f1, f2, f3, f4, f5, hF⟩ := coded_frame lower md5 k d
  have hs := h.single d hd
  obtain ⟨r, hr, hp, ha, hc⟩ := hs.ref
  have hrefs : List.Forall₂ Begun (refs d) (refs (coded lower md5 k d)) := forall₂_filter_rel hF fun a b hab => by rw [hab.touch.type]
  rw [hr] at hrefs
  obtain ⟨r', hr', hab⟩ : ∃ r', refs (coded lower md5 k d) = [r'] ∧ Begun r r' := by
    cases hx : refs (coded lower md5 k d) with
    | nil => rw [hx] at hrefs; cases hrefs
    | cons a l =>
      rw [hx] at hrefs
      cases hrefs with
      | cons hab ht => cases ht; exact ⟨a, rfl, hab⟩
  have htype : (coded lower md5 k d).type = d.type := congrArg Sig.type f1
  refine ⟨⟨r', hr', hab.touch.pv hp, ?_, ?_, ?_⟩, ?_, ?_, ⟨_, f5, h.codes.2 d hd⟩, fun _ _ _ _ => trivial, ?_⟩
  · rw [congrArg NumObj.amount hab.touch.num]; exact ha
  · rw [f3, hab.touch.name, product_eq hr]
  · rw [htype, hab.touch.cls]; exact hc
  · intro e' he' ht
    obtain ⟨e, he, hee⟩ := forall₂_mem_right hF he'
    rw [hee.touch.cls]
    exact hs.classified e he (hee.touch.type ▸ ht)
  · intro e' he'
    obtain ⟨e, he, hee⟩ := forall₂_mem_right hF he'
    rw [hee.touch.num, hee.touch.type]
    exact hs.steady e he
  · intro l hl
    rw [f4, hs.fresh] at hl
    cases hl

theorem Fine.sell {S : String → Prop} {d : Dataset} (h : Fine b (fun _ => True) d) (hs : d.type ≠ .marketGroup → ∀ e ∈ d.exchanges, isUnlinked e = true → S e.name) : Fine b S d :=
  ⟨h.ref, h.classified, h.steady, h.code, hs, h.sup⟩

theorem targets_coded (lower md5 : String → String) (k : List Dataset) (l n : String) :
    linkTargets (k.map (coded lower md5 k)) l n = (k.filter fun o => decide (o.id = l ∧ product o = n)).map (coded lower md5 k) := by
  unfold linkTargets
  rw [List.filter_map]
  congr 1
  apply List.filter_congr
  intro o _
  obtain ⟨-, f2, f3, -⟩ := coded_frame lower md5 k o
  simp only [Function.comp_apply, f2, f3, Option.some.injEq]

theorem total_actualize {T : Topology} {lower md5 : String → String} {k : List Dataset} (h : Orderly b T lower md5 k) :
    ∃ out, actualizeActivityLinks (k.map (coded lower md5 k)) = .ok out ∧ Inv b T out := by
  obtain ⟨out, hout⟩ := C50_total (k.map (coded lower md5 k)) (by
      intro d' hd'
      obtain ⟨d, hd, rfl⟩ := List.mem_map.mp hd'
      obtain ⟨-, -, f3, -, f5, -⟩ := coded_frame lower md5 k d
      rw [f3, f5]
      exact ⟨rfl, rfl⟩) (by
      intro d' hd' e' he' l hl hne
      obtain ⟨d, hd, rfl⟩ := List.mem_map.mp hd'
      obtain ⟨e, he, hab⟩ := forall₂_mem_right (coded_frame lower md5 k d).2.2.2.2.2 he'
      obtain ⟨h1, h2, h3⟩ := begun_link hab hl hne
      obtain ⟨t, ht, hid⟩ := h.links d hd e he h2 h3 l h1 hne
      exact ⟨_, List.mem_map_of_mem ht, (coded_frame lower md5 k t).2.1.trans hid⟩)
  refine ⟨out, hout, ?_⟩
  have hF := C50_activity_links _ _ hout
  have hcode : ∀ t ∈ k.map (coded lower md5 k), t.code.getD "" ≠ "" := by
    intro t' ht'
    obtain ⟨t, ht, rfl⟩ := List.mem_map.mp ht'
    rw [(coded_frame lower md5 k t).2.2.2.2.1]
    exact h.codes.2 t ht
  have hsig : out.map sig = k.map (finalSig k) := by
    have h1 : out.map sig = (k.map (coded lower md5 k)).map sig := by
      refine (forall₂_map_eq' hF ?_).symm
      rintro a b ⟨ex, rfl, -⟩
      rfl
    rw [h1, List.map_map]
    apply List.map_congr_left
    intro d _
    exact (coded_frame lower md5 k d).1
  refine ⟨hsig ▸ h.db, ?_⟩
  rw [hsig]
  intro d' hd'
  obtain ⟨c, hc, ex, rfl, hex⟩ := forall₂_mem_right hF hd'
  obtain ⟨d, hd, rfl⟩ := List.mem_map.mp hc
  have hfine := coded_fine h hd
  have hmem : ∀ e x, MeansOnly (k.map (coded lower md5 k)) e x → x ∈ k.map (coded lower md5 k) := by
    rintro e x ⟨l, -, -, ht⟩
    have : x ∈ linkTargets (k.map (coded lower md5 k)) l e.name := by rw [ht]; simp
    exact (List.mem_filter.mp this).1
  have htouch : List.Forall₂ Touch (coded lower md5 k d).exchanges ex := by
    refine hex.imp fun e e' hee => ?_
    by_cases hx : ∃ x, MeansOnly (k.map (coded lower md5 k)) e x
    · obtain ⟨x, hx⟩ := hx
      obtain ⟨-, rfl⟩ := hee.1 x hx
      exact ⟨rfl, rfl, rfl, rfl, id, .inr (hcode x (hmem e x hx))⟩
    · rw [hee.2 fun x hx' => hx ⟨x, hx'⟩]
      exact .refl e
  refine Fine.sell (hfine.touch (sup := (coded lower md5 k d).suppliers) htouch hfine.sup) ?_
  intro hg e' he' hu
  obtain ⟨e1, he1, hee⟩ := forall₂_mem_right hex he'
  obtain ⟨e0, he0, hab⟩ := forall₂_mem_right (coded_frame lower md5 k d).2.2.2.2.2 he1
  have hu' := isUnlinked_iff.mp hu
  have hne : ∀ x, ¬ MeansOnly (k.map (coded lower md5 k)) e1 x := by
    intro x hx
    obtain ⟨-, rfl⟩ := hee.1 x hx
    have := hcode x (hmem e1 x hx)
    rcases hu'.2 with hh | hh <;> (dsimp only at hh; rw [hh] at this; exact this rfl)
  rw [hee.2 hne] at hu' ⊢
  have ht0 : e0.type = .fromTechnosphere := hab.touch.type ▸ hu'.1
  have hg' : d.type ≠ .marketGroup := by
    have : (coded lower md5 k d).type = d.type := congrArg Sig.type (coded_frame lower md5 k d).1
    rw [← this]; exact hg
  rw [hab.touch.name]
  rcases h.inputs d hd hg' e0 he0 ht0 with hs | ⟨l, hl, hlne, t, ht⟩
  · exact hs
  · refine absurd ⟨l, (begun_keeps hab ht0).trans hl, hlne, ?_⟩ (hne (coded lower md5 k t))
    rw [targets_coded, hab.touch.name, ht]
    rfl

/-! ## All of it -/

theorem Fine.ended {S : String → Prop} {d : Dataset} (h : Fine true S d) : Ended d := by
  obtain ⟨r, hr, -, ha, -, hc⟩ := h.ref
  exact ⟨⟨r, hr, ha, hc⟩, fun e he => ⟨(h.steady e he).1, (h.steady e he).2, h.classified e he⟩⟩

theorem Listed.sublist {kind : DsType} {l l' : List Dataset} (h : Listed kind l) (hs : l'.Sublist l) : Listed kind l' :=
  fun d hd => h d (hs.subset hd)

theorem end_total {M : MathEnv} {data : List Dataset} (h : ∀ d ∈ data, Ended d) :
    ∃ a b c, flipNonAllocatableByproducts data = .ok a ∧ wrapAll (normalizeList M) a = .ok b ∧ adjustMarketSignsAll M b = .ok c := by
  have step : ∀ {f : Dataset → Except Err Dataset} {A B : Dataset → Prop} {l : List Dataset}, (∀ d, A d → ∃ d', f d = .ok d' ∧ B d') →
      (∀ d ∈ l, A d) → ∃ l', mapE f l = .ok l' ∧ ∀ d ∈ l', B d := by
    intro f A B l hf hl
    obtain ⟨l', hl'⟩ := mapE_ok_of_forall fun d hd => ⟨_, (hf d (hl d hd)).choose_spec.1⟩
    refine ⟨l', hl', fun d' hd' => ?_⟩
    obtain ⟨d, hd, hab⟩ := mapE_mem hl' hd'
    obtain ⟨d'', h1, h2⟩ := hf d (hl d hd)
    rw [h1] at hab
    cases hab
    exact h2
  obtain ⟨a, ha, ha'⟩ := step (f := fun ds => do let ex ← mapE flipExchange ds.exchanges; return { ds with exchanges := ex }) (A := Ended) (B := Scalable) (fun d hd => by
    obtain ⟨ex, hex, hs⟩ := flip_total hd
    rw [hex]
    exact ⟨_, rfl, hs⟩) h
  obtain ⟨b, hb, hb'⟩ := step (f := normalize M) (A := Scalable) (B := Scalable) (fun d hd => normalize_total hd) ha'
  obtain ⟨c, hc, -⟩ := step (f := adjustMarketSigns M) (A := Scalable) (B := fun _ => True) (fun d hd => by
    obtain ⟨d', hd'⟩ := adjustSigns_total (M := M) hd
    exact ⟨d', hd', trivial⟩) hb'
  exact ⟨a, b, c, ha, by rw [wrapNormalize_eq]; exact hb, hc⟩

/-- The functions after allocation succeed. -/
theorem linking_total {P : PipelineEnv} (hT : WellFormed P.T) (hg : ∃ g, HasFaces P.T "GLO" g) (hσ : IterationOrder P.σ) {data : List Dataset}
    (hone : ∀ d ∈ data, (refs d).length = 1) (h : Orderly true P.T P.lower P.md5 (kept data)) :
    ∃ out : List Dataset, runSteps P (openingSteps ++ (cutoffLinking ++ cutoffEnd)) data = .ok (out.map .ds) := by
  obtain ⟨d1, r1, i1⟩ := total_actualize h
  obtain ⟨d2, r2, i2⟩ := total_addRecycled hT hg hσ i1
  obtain ⟨d3, r3, i3, l3⟩ := total_addSuppliers hT hg hσ i2
  obtain ⟨d4, r4, i4, l4⟩ := total_marketVolumes i3 l3
  obtain ⟨d5, r5, i5, s5⟩ := total_deleteGlobal hT (kind := .market) (by decide) i4
  obtain ⟨d6, r6, i6, s6⟩ := total_deleteGlobal hT (kind := .transforming) (by decide) i5
  obtain ⟨d7, r7, i7⟩ := total_allocateMarkets i6 ((l4.sublist s5).sublist s6)
  obtain ⟨d8, r8, i8, l8⟩ := total_linkGroups hT hg i7
  obtain ⟨d9, r9, i9, l9⟩ := total_groupVolumes hT i8 l8
  obtain ⟨d10, r10, i10⟩ := total_allocateMarkets i9 l9
  obtain ⟨d11, r11, i11⟩ := total_linkRecycled i10
  obtain ⟨d12, r12, i12⟩ := total_linkConsumers (M := P.M) hT hg i11
  obtain ⟨d13, r13, i13⟩ := total_referenceCodes i12
  have r14 := logAndDelete_id i13
  have hend : ∀ d ∈ renameRecycledContentAfterLinking d13, Ended d := by
    intro d' hd'
    obtain ⟨d, hd, rfl⟩ := List.mem_map.mp hd'
    exact ended_rename (i13 d hd).ended
  obtain ⟨d16, d17, d18, r16, r17, r18⟩ := end_total (M := P.M) hend
  have r0 := opening_total hone h P rfl rfl
  refine ⟨d18, ?_⟩
  have happ : ∀ (s1 s2 : List Step) (l r : List Dataset), runSteps P s1 l = .ok (r.map .ds) → runSteps P (s1 ++ s2) l = runSteps P s2 r := by
    intro s1 s2 l r hr
    unfold runSteps at hr ⊢
    rw [foldE_append_eq, hr]
    rfl
  rw [happ _ _ _ _ r0]
  unfold cutoffLinking cutoffEnd
  simp only [List.cons_append, List.nil_append]
  rw [step_on (f := actualizeActivityLinks) rfl r1, step_on (f := addRecycledContentSuppliers P.T P.σ) rfl r2,
    step_on (f := addSuppliersToMarkets P.T P.σ .transforming .market) rfl r3, step_on (f := updateMarketProductionVolumes P.T .market) rfl r4,
    step_on (f := deleteGlobalZeroPv .market) rfl r5, step_on (f := deleteGlobalZeroPv .transforming) rfl r6,
    step_on (f := allocateAllMarketSuppliers .market) rfl r7, step_on (f := linkMarketGroupSuppliers P.T) rfl r8,
    step_on (f := updateMarketProductionVolumes P.T .marketGroup) rfl r9, step_on (f := allocateAllMarketSuppliers .marketGroup) rfl r10,
    step_on (f := linkRecycledContent) rfl r11, step_on (f := linkConsumersToMarkets P.M P.T) rfl r12,
    step_on (f := addReferenceProductCodes) rfl r13, step_on (f := fun d => .ok (logAndDeleteUnlinked d)) rfl (congrArg Except.ok r14),
    step_on (f := fun d => .ok (renameRecycledContentAfterLinking d)) rfl rfl, step_on (f := flipNonAllocatableByproducts) rfl r16,
    step_on (f := wrapAll (normalizeList P.M)) rfl r17, step_on (f := adjustMarketSignsAll P.M) rfl r18]
  rfl

end Progress
end Ocelot
