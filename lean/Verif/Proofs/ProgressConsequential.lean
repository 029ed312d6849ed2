import Verif.Proofs.ProgressDecide
import Verif.Proofs.ProgressLevels

/-! # From the files to the linked datasets in the consequential model, for activities with one product and without constrained markets -/

namespace Ocelot
open Spec

namespace Progress

/-- The functions of the consequential model up to the volumes. -/
def readSteps : List Step :=
  [.ensureIdsAreUnique, .copyOriginalExchangeId, .variableNamesAreUnique, .ensureMarketsOneProduct, .ensureMarketsNoOwnConsumption,
    .fixSpecificIssues, .replaceImplicitReferences, .repairUncertainty, .fixKnownBadFormulas, .lowercaseParameters, .fixMathFormulas,
    .replaceReservedWords, .deleteUnparsableFormulas, .ensureVolumesGiven, .addPvToAllocatableByproducts, .createPvParameters]

/-- What is left of a dataset after the first functions. -/
def Shown (d d' : Dataset) : Prop := Frame d d' ∧ List.Forall₂ Settled (d.exchanges.filter (present d)) d'.exchanges

theorem refineryFilter_eq (d : Dataset) : refineryFilter d = present d := by
  funext e
  unfold present refineryFilter
  split
  · next hn => simp [hn]
  · next hn => simp [hn]

theorem ReadableC.legible {P : PipelineEnv} {data : List Dataset} (h : ReadableC P data) : Legible P data :=
  ⟨h.ids, h.distinct, h.cleanup, h.oneProduct, h.byproducts, h.ownProduct⟩

theorem Legible.tidy {P : PipelineEnv} {data : List Dataset} (h : Legible P data) {d : Dataset} (hd : d ∈ data) : Tidy d :=
  ⟨h.oneProduct d hd, h.byproducts d hd⟩

theorem tidy_present {d : Dataset} (h : Tidy d) : Tidy { d with exchanges := d.exchanges.filter (present d) } :=
  h.filter fun e _ ha => by unfold present; simp [ha]

theorem read_total {P : PipelineEnv} {data : List Dataset} (h : Legible P data) (ss : List Step) :
    ∃ l, runSteps P (readSteps ++ ss) data = runSteps P ss l ∧ List.Forall₂ Shown data l := by
  obtain ⟨r, hr⟩ : ∃ r, mapE (fixEcoinventParameters P.M P.text) (data.map noted) = .ok r := by
    refine mapE_ok_of_forall fun d' hd' => ?_
    obtain ⟨d, hd, rfl⟩ := List.mem_map.mp hd'
    exact h.cleanup d hd
  have hk := (fixed_total hr []).2
  rw [List.forall₂_map_left_iff] at hk
  have hs : List.Forall₂ Shown data r := by
    refine hk.imp fun d d' k => ?_
    rw [fixSpecificIssues_eq] at k
    have f1 : Frame d { noted d with exchanges := (noted d).exchanges.filter (refineryFilter (noted d)) } := ⟨rfl, rfl, rfl, rfl, rfl, rfl, rfl, rfl, rfl, rfl⟩
    refine ⟨f1.trans k.frame, ?_⟩
    have k0 : List.Forall₂ Kin (d.exchanges.filter (present d)) ((noted d).exchanges.filter (refineryFilter (noted d))) := by
      rw [← refineryFilter_eq]
      refine forall₂_filter_rel (p := refineryFilter d) ((DsKin.mapExchanges noted_kin d).exchanges) fun a b hab => ?_
      unfold refineryFilter
      rw [hab.name, hab.amount]; rfl
    exact forall₂_trans' k0 k.exchanges fun _ _ _ => Kin.settled
  obtain ⟨l, hl, hkl⟩ := volumes_total (P := P) (l := r) (fun d' hd' => by
    obtain ⟨d, hd, hsd⟩ := forall₂_mem_right hs hd'
    exact (tidy_present (h.tidy hd)).of_kin (hsd.2.imp fun _ _ h => h.1)) ss
  refine ⟨l, ?_, forall₂_trans' hs hkl fun a b c hab hbc => ⟨hab.1.trans hbc.frame, forall₂_trans' hab.2 hbc.exchanges fun _ _ _ => Settled.kin⟩⟩
  have : readSteps ++ ss = [.ensureIdsAreUnique, .copyOriginalExchangeId, .variableNamesAreUnique, .ensureMarketsOneProduct, .ensureMarketsNoOwnConsumption] ++
      ([.fixSpecificIssues, .replaceImplicitReferences, .repairUncertainty, .fixKnownBadFormulas, .lowercaseParameters, .fixMathFormulas,
      .replaceReservedWords, .deleteUnparsableFormulas] ++ ([.ensureVolumesGiven, .addPvToAllocatableByproducts, .createPvParameters] ++ ss)) := rfl
  rw [this, checks_all h.ids h.distinct (fun d hd => (h.oneProduct d hd).imp fun _ hr => hr.1) h.ownProduct, (fixed_total hr _).1, hl]

/-! ## The links -/

def bared (e : Exchange) : Exchange := dropLink (dropZeroLink e)

theorem bared_frame (e : Exchange) : bared e = { e with activityLink := (bared e).activityLink } := by
  unfold bared dropLink dropZeroLink
  split <;> split <;> rfl

theorem bared_link {e : Exchange} (h : e.conditional ≠ some true) : (bared e).activityLink.getD "" = "" := by
  have hc : (dropZeroLink e).conditional = e.conditional := by unfold dropZeroLink; split <;> rfl
  unfold bared dropLink
  by_cases h0 : (dropZeroLink e).activityLink.getD "" = ""
  · rw [if_neg (fun hh => hh.2 h0)]; exact h0
  · rw [if_pos ⟨by rw [hc]; exact h, h0⟩]; rfl

def baredDs (d : Dataset) : Dataset := { d with exchanges := d.exchanges.map bared }

/-- Datasets with one product are not split. -/
theorem split_idle {P : PipelineEnv} {l : List Dataset} (hone : ∀ d ∈ l, (refs d).length = 1) :
    wrapFiltered (fun d => .ok (multiRp d)) (combinedProduction P.M P.F P.ord) (dropZeroAmountActivityLinks l) = .ok (dropZeroAmountActivityLinks l) := by
  have hz : ∀ e, (dropZeroLink e).type = e.type := fun e => by rw [dropZeroLink_frame]
  have key : ∀ m : List Dataset, (∀ d ∈ m, multiRp d = false) → wrapFiltered (fun d => .ok (multiRp d)) (combinedProduction P.M P.F P.ord) m = .ok m := by
    intro m
    induction m with
    | nil => intro _; rfl
    | cons d m ih =>
      intro h
      have ih' := ih fun x hx => h x (by simp [hx])
      unfold wrapFiltered at ih' ⊢
      unfold flatMapE
      rw [ih', ebind_ok, h d (by simp), if_neg (by simp), ebind_ok, ebind_ok]
      rfl
  refine key _ fun d' hd' => ?_
  unfold dropZeroAmountActivityLinks at hd'
  obtain ⟨d, hd, rfl⟩ := List.mem_map.mp hd'
  unfold multiRp
  have : (referenceProducts { d with exchanges := d.exchanges.map dropZeroLink }).length = 1 := by
    rw [← hone d hd]
    unfold referenceProducts refs
    dsimp only
    rw [List.filter_map, List.length_map]
    congr 1
    refine List.filter_congr fun e _ => ?_
    rw [Function.comp_apply, hz e]
  simp [this]

theorem bare_total {P : PipelineEnv} {l : List Dataset} (hone : ∀ d ∈ l, (refs d).length = 1) (hc : ∀ d ∈ l, ∀ e ∈ d.exchanges, e.conditional ≠ some true)
    (halt : ∀ d ∈ l, ∀ e ∈ d.exchanges, e.type = .byproduct → ∃ t ∈ l, ∃ r ∈ refs t, r.name = e.name) (ss : List Step) :
    runSteps P ([.dropZeroAmountActivityLinks, .splitCombinedProduction, .deleteLinksToConstrained, .handleConstrainedMarkets, .ensureAlternativeProduction] ++ ss) l =
      runSteps P ss (l.map baredDs) := by
  set l1 := dropZeroAmountActivityLinks l with hl1
  have hbt : ∀ e, (bared e).type = e.type := fun e => by rw [bared_frame]
  have hbn : ∀ e, (bared e).name = e.name := fun e => by rw [bared_frame]
  have hbc : ∀ e, (bared e).conditional = e.conditional := fun e => by rw [bared_frame]
  have hz : ∀ e, (dropZeroLink e).type = e.type ∧ (dropZeroLink e).conditional = e.conditional := fun e => by rw [dropZeroLink_frame]; exact ⟨rfl, rfl⟩
  have h2 : wrapFiltered (fun d => .ok (multiRp d)) (combinedProduction P.M P.F P.ord) l1 = .ok l1 := split_idle hone
  have hcond : ∀ m : List Dataset, (∀ d ∈ m, ∀ e ∈ d.exchanges, e.conditional ≠ some true) → constrainedActivities m = .ok [] ∧ constrainedExchanges m = [] := by
    intro m hm
    constructor
    · unfold constrainedActivities
      have : (m.flatMap fun ds => ds.exchanges.filter fun e => e.conditional == some true) = [] := by
        refine List.flatMap_eq_nil_iff.mpr fun d hd => List.filter_eq_nil_iff.mpr fun e he => ?_
        simpa using hm d hd e he
      rw [this]; rfl
    · unfold constrainedExchanges
      refine List.flatMap_eq_nil_iff.mpr fun p hp => List.filterMap_eq_nil_iff.mpr fun q hq => ?_
      have hpm : p.1 ∈ m := by
        have := (List.mem_zipIdx (x := p.1) (i := p.2) hp).2.2
        rw [this]; exact List.getElem_mem _
      have hqm : q.1 ∈ p.1.exchanges := by
        have := (List.mem_zipIdx (x := q.1) (i := q.2) hq).2.2
        rw [this]; exact List.getElem_mem _
      rw [if_neg (hm _ hpm _ hqm)]
  have h3 : deleteLinksToConstrained l1 = .ok (l.map baredDs) := by
    unfold deleteLinksToConstrained
    rw [(hcond l1 _).1, ebind_ok]
    · rw [hl1]
      unfold dropZeroAmountActivityLinks
      rw [List.map_map]
      refine congrArg Except.ok (List.map_congr_left fun d _ => ?_)
      simp only [Function.comp_apply, List.map_map]
      rfl
    · intro d' hd' e' he'
      rw [hl1] at hd'
      unfold dropZeroAmountActivityLinks at hd'
      obtain ⟨d, hd, rfl⟩ := List.mem_map.mp hd'
      obtain ⟨e, he, rfl⟩ := List.mem_map.mp he'
      rw [(hz e).2]
      exact hc d hd e he
  have h4 : handleConstrainedMarkets (l.map baredDs) = .ok (l.map baredDs) := by
    unfold handleConstrainedMarkets
    rw [(hcond _ _).2]; rfl
    intro d' hd' e' he'
    obtain ⟨d, hd, rfl⟩ := List.mem_map.mp hd'
    obtain ⟨e, he, rfl⟩ := List.mem_map.mp he'
    rw [hbc]
    exact hc d hd e he
  have h5 : ensureAlternativeProduction (l.map baredDs) = .ok (l.map baredDs) := by
    unfold ensureAlternativeProduction
    rw [if_pos]
    refine List.all_eq_true.mpr fun n hn => ?_
    rw [List.contains_iff_mem]
    unfold namesOfType at hn ⊢
    obtain ⟨d', hd', hn⟩ := List.mem_flatMap.mp hn
    obtain ⟨d, hd, rfl⟩ := List.mem_map.mp hd'
    obtain ⟨e', he', rfl⟩ := List.mem_map.mp hn
    obtain ⟨he', ht⟩ := List.mem_filter.mp he'
    obtain ⟨e, he, rfl⟩ := List.mem_map.mp he'
    rw [hbt, beq_iff_eq] at ht
    obtain ⟨t, htl, r, hr, hrn⟩ := halt d hd e he ht
    obtain ⟨hrm, hrt⟩ := List.mem_filter.mp hr
    refine List.mem_flatMap.mpr ⟨baredDs t, List.mem_map.mpr ⟨t, htl, rfl⟩, List.mem_map.mpr ⟨bared r, List.mem_filter.mpr ⟨List.mem_map.mpr ⟨r, hrm, rfl⟩, ?_⟩, ?_⟩⟩
    · rw [hbt]; exact hrt
    · rw [hbn, hbn]; exact hrn
  simp only [List.cons_append, List.nil_append]
  rw [step_on (f := fun d => .ok (dropZeroAmountActivityLinks d)) rfl rfl, ← hl1,
    step_on (f := wrapFiltered (fun d => .ok (multiRp d)) (combinedProduction P.M P.F P.ord)) rfl h2, step_on (f := deleteLinksToConstrained) rfl h3,
    step_on (f := handleConstrainedMarkets) rfl h4, step_on (f := ensureAlternativeProduction) rfl h5]

theorem shown_akin {d d' : Dataset} (hc : ∀ e ∈ d.exchanges, e.conditional ≠ some true) (h : Shown d d') : DsAkin (unlinkedDs d) (baredDs d') := by
  refine ⟨⟨h.1.name, h.1.type, h.1.location, h.1.id, h.1.parent, h.1.unit, h.1.startDate, h.1.endDate, h.1.suppliers, h.1.technologyLevel⟩, ?_⟩
  unfold unlinkedDs baredDs
  dsimp only
  rw [List.forall₂_map_left_iff, List.forall₂_map_right_iff]
  refine (forall₂_with_mem h.2).imp ?_
  rintro e e' ⟨he, hk, -⟩
  have hl := bared_link (e := e') (by rw [hk.conditional]; exact hc e (List.mem_filter.mp he).1)
  rw [bared_frame]
  exact ⟨hk.type, hk.name, hk.cls, hk.amount, hl, hk.pv, hk.props, hk.conditional⟩

theorem kin_refs {l l' : List Exchange} (h : List.Forall₂ Kin l l') :
    List.Forall₂ Kin (l.filter fun e => e.type == .referenceProduct) (l'.filter fun e => e.type == .referenceProduct) :=
  forall₂_filter_rel h fun a b hab => by rw [hab.type]

/-- The whole configuration. -/
theorem consequential_total {P : PipelineEnv} (hT : WellFormed P.T) (hg : ∃ g, HasFaces P.T "GLO" g) (hσ : IterationOrder P.σ) {data : List Dataset}
    (hr : ReadableC P data) (ho : Orderly false P.T P.lower P.md5 (kept (data.map unlinkedDs))) :
    ∃ out : List Dataset, runConfig P consequentialConfig data = .ok (out.map .ds) := by
  have hsteps : unwrapAll consequentialConfig = readSteps ++ ([.dropZeroAmountActivityLinks, .splitCombinedProduction, .deleteLinksToConstrained,
      .handleConstrainedMarkets, .ensureAlternativeProduction] ++ (levelSteps ++ consequentialAfter)) := by decide +kernel
  rw [runConfig_eq, hsteps]
  change ∃ out : List Dataset, runSteps P _ data = _
  obtain ⟨l, hl, hs⟩ := read_total hr.legible ([.dropZeroAmountActivityLinks, .splitCombinedProduction, .deleteLinksToConstrained,
      .handleConstrainedMarkets, .ensureAlternativeProduction] ++ (levelSteps ++ consequentialAfter))
  have hp : ∀ d ∈ l, Tidy d := fun d hd => by
    obtain ⟨d0, hd0, h⟩ := forall₂_mem_right hs hd
    exact (tidy_present (hr.legible.tidy hd0)).of_kin (h.2.imp fun _ _ h => h.1)
  have hone : ∀ d ∈ l, (refs d).length = 1 := fun d hd => by
    obtain ⟨r, hrr, -⟩ := (hp d hd).ref
    rw [hrr]; rfl
  have hc : ∀ d ∈ l, ∀ e ∈ d.exchanges, e.conditional ≠ some true := by
    intro d' hd' e' he'
    obtain ⟨d, hd, h⟩ := forall₂_mem_right hs hd'
    obtain ⟨e, he, hk, -⟩ := forall₂_mem_right h.2 he'
    rw [hk.conditional]
    exact hr.unconstrained d hd e (List.mem_filter.mp he).1
  rw [hl, bare_total hone hc]
  · have hak : List.Forall₂ DsAkin (data.map unlinkedDs) (l.map baredDs) := by
      rw [List.forall₂_map_left_iff, List.forall₂_map_right_iff]
      exact (forall₂_with_mem hs).imp fun d d' h => shown_akin (fun e he => hr.unconstrained d h.1 e he) h.2
    have hbt : ∀ e, (bared e).type = e.type := fun e => by rw [bared_frame]
    refine levels_total hT hg hσ ?_ ?_ (ho.alike (alike_kept (hak.imp fun _ _ => DsAkin.alike)) ?_) ?_
    · intro d' hd'
      obtain ⟨d, hd, rfl⟩ := List.mem_map.mp hd'
      rw [← hone d hd]
      unfold refs baredDs
      dsimp only
      rw [List.filter_map, List.length_map]
      congr 1
      refine List.filter_congr fun e _ => ?_
      rw [Function.comp_apply, hbt]
    · intro d' hd' e' he'
      obtain ⟨d, hd, rfl⟩ := List.mem_map.mp hd'
      obtain ⟨e, he, rfl⟩ := List.mem_map.mp he'
      have h0 := bared_link (hc d hd e he)
      unfold dropRpLink
      rw [if_neg]
      rintro ⟨-, ht⟩
      rcases hb : (bared e).activityLink with _ | x <;> rw [hb] at h0 ht
      · cases ht
      · cases h0; simp [truthy] at ht
    · intro d' hd' e' he'
      obtain ⟨d2, hd2, rfl⟩ := List.mem_map.mp (List.mem_filter.mp hd').1
      obtain ⟨e2, he2, rfl⟩ := List.mem_map.mp he'
      obtain ⟨d, hd, h⟩ := forall₂_mem_right hs hd2
      obtain ⟨e, he, hk, hst⟩ := forall₂_mem_right h.2 he2
      obtain ⟨he, hv⟩ := List.mem_filter.mp he
      have h1 := hr.numbers d hd e he hv
      rw [bared_frame]
      exact ⟨hst h1, fun _ h => by cases h⟩
    · intro d' hd' ht
      obtain ⟨d2, hd2, rfl⟩ := List.mem_map.mp (List.mem_filter.mp hd').1
      obtain ⟨d, hd, h⟩ := forall₂_mem_right hs hd2
      obtain ⟨v, hv, hvl⟩ := hr.levels d hd (h.1.type.symm.trans ht)
      exact ⟨v, by simpa [technologyOrder] using hv, h.1.technologyLevel.trans hvl⟩
  · intro d' hd' e' he' ht
    obtain ⟨d, hd, h⟩ := forall₂_mem_right hs hd'
    obtain ⟨e, he, hk, -⟩ := forall₂_mem_right h.2 he'
    obtain ⟨he, hv⟩ := List.mem_filter.mp he
    obtain ⟨t, ht, hn⟩ := hr.alternative d hd e he hv (by rw [← hk.type]; exact ht)
    obtain ⟨t', ht', hst⟩ := forall₂_mem_left hs ht
    obtain ⟨r, hrr, -, ha⟩ := (hr.legible.tidy ht).ref
    have hpr : r ∈ t.exchanges.filter (present t) ∧ r.type = .referenceProduct := by
      have hm : r ∈ refs t := by rw [hrr]; simp
      obtain ⟨h1, h2⟩ := List.mem_filter.mp hm
      exact ⟨List.mem_filter.mpr ⟨h1, by unfold present; simp [ha]⟩, by simpa using h2⟩
    obtain ⟨r', hr', hkr, -⟩ := forall₂_mem_left hst.2 hpr.1
    refine ⟨t', ht', r', List.mem_filter.mpr ⟨hr', by rw [hkr.type, hpr.2]; rfl⟩, ?_⟩
    rw [hkr.name, hk.name, ← hn]
    unfold product
    rw [hrr]
    rfl

instance (P : PipelineEnv) (data : List Dataset) : Decidable (ReadableC P data) :=
  decidable_of_iff ((data.map (·.id)).Nodup ∧ (∀ d ∈ data, (varNames d).Nodup) ∧
      (∀ d ∈ data, (fixEcoinventParameters P.M P.text (noted d)).toOption.isSome = true) ∧
      (∀ d ∈ data, (refs d).length = 1 ∧ ∀ r ∈ refs d, r.pv.isSome = true ∧ r.amount ≠ 0) ∧
      (∀ d ∈ data, ∀ e ∈ d.exchanges, e.type = .byproduct → e.cls ≠ none ∧ (e.cls = some .allocatable → e.pv.isSome = true)) ∧
      (∀ d ∈ data, ∀ e ∈ d.exchanges, present d e = true → Mendable e.toNumObj) ∧
      (∀ d ∈ data, d.type = .market → (refs d).length = 1 → ∀ r ∈ refs d, ∀ e ∈ d.exchanges, e.name = r.name → e ≠ r → e.activityLink.getD "" ≠ "") ∧
      (∀ d ∈ data, ∀ e ∈ d.exchanges, e.conditional ≠ some true) ∧
      (∀ d ∈ data, ∀ e ∈ d.exchanges, present d e = true → e.type = .byproduct → ∃ t ∈ data, product t = e.name) ∧
      ∀ d ∈ data, d.type = .transforming → ∃ v ∈ ["new", "modern", "current", "old", "outdated"], d.technologyLevel = some v) (by
    have key : ∀ d : Dataset, ((refs d).length = 1 → ∀ r ∈ refs d, ∀ e ∈ d.exchanges, e.name = r.name → e ≠ r → e.activityLink.getD "" ≠ "") ↔
        ∀ r, refs d = [r] → ∀ e ∈ d.exchanges, e.name = r.name → e ≠ r → e.activityLink.getD "" ≠ "" := by
      intro d
      constructor
      · intro h r hr
        exact h (by rw [hr]; rfl) r (by rw [hr]; simp)
      · intro h hl r hr
        obtain ⟨r', hr'⟩ := List.length_eq_one_iff.mp hl
        rw [hr'] at hr
        cases List.mem_singleton.mp hr
        exact h r hr'
    constructor
    · rintro ⟨h1, h2, h3, h4, h5, h6, h7, h8, h9, h10⟩
      exact ⟨h1, h2, fun d hd => isOk_iff.mp (h3 d hd), fun d hd => one_ref.mp (h4 d hd), h5, h6, fun d hd ht => (key d).mp (h7 d hd ht), h8, h9, h10⟩
    · rintro ⟨h1, h2, h3, h4, h5, h6, h7, h8, h9, h10⟩
      exact ⟨h1, h2, fun d hd => isOk_iff.mpr (h3 d hd), fun d hd => one_ref.mpr (h4 d hd), h5, h6, fun d hd ht => (key d).mpr (h7 d hd ht), h8, h9, h10⟩)

end Progress
end Ocelot
