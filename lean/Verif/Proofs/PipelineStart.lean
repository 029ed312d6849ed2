import Verif.Proofs.Pipeline
import Verif.Props.References
import Verif.Props.Validation
import Verif.Props.CutoffAllocation
import Verif.Proofs.Params
import Verif.Proofs.Economic

/-! The functions before `add_unique_codes` make datasets from the given ones and do not link. -/

namespace Ocelot
open Spec

/-- The link of an exchange and its constraint flag. -/
def tagsOf (e : Exchange) : Option String × Option Bool := (e.code, e.conditional)

theorem Spec.ScaledBy.tags {k : ℚ} {e e' : Exchange} (h : ScaledBy k e e') : tagsOf e' = tagsOf e := by rw [h]; rfl

/-- `d'` comes from `d`: same source, and no new links or flags. -/
structure From (d d' : Dataset) : Prop where
  id : d'.id = d.id
  source : sourceOf d' = sourceOf d
  suppliers : d'.suppliers = none ∨ d'.suppliers = d.suppliers
  exchanges : ∀ e' ∈ d'.exchanges, tagsOf e' = (none, none) ∨ ∃ e ∈ d.exchanges, tagsOf e' = tagsOf e

theorem From.refl (d : Dataset) : From d d := ⟨rfl, rfl, Or.inr rfl, fun e he => Or.inr ⟨e, he, rfl⟩⟩

theorem From.trans {a b c : Dataset} (h : From a b) (h' : From b c) : From a c := by
  refine ⟨h'.id.trans h.id, h'.source.trans h.source, ?_, ?_⟩
  · rcases h'.suppliers with h1 | h1
    · exact Or.inl h1
    · rw [h1]; exact h.suppliers
  · intro e he
    rcases h'.exchanges e he with h1 | ⟨x, hx, h1⟩
    · exact Or.inl h1
    · rw [h1]; exact h.exchanges x hx

theorem From.links {K : List String} {d d' : Dataset} (h : From d d') (hd : LinksIn K d) : LinksIn K d' := by
  refine ⟨?_, ?_⟩
  · intro e he
    rcases h.exchanges e he with h1 | ⟨x, hx, h1⟩
    · rw [show e.code = none from congrArg Prod.fst h1]; intro c hc; cases hc
    · rw [show e.code = x.code from congrArg Prod.fst h1]; exact hd.1 x hx
  · intro l hl
    rcases h.suppliers with h1 | h1
    · rw [h1] at hl; cases hl
    · exact hd.2 l (h1 ▸ hl)

/-- Replacing the exchanges. -/
theorem From.mk' {d d' : Dataset} {ex : List Exchange} (hd : d' = { d with exchanges := ex })
    (he : ∀ e' ∈ ex, ∃ e ∈ d.exchanges, tagsOf e' = tagsOf e) : From d d' := by
  subst hd
  exact ⟨rfl, rfl, Or.inr rfl, fun e' h => Or.inr (he e' h)⟩

theorem From.forall₂ {d d' : Dataset} (h1 : d'.id = d.id) (h2 : sourceOf d' = sourceOf d) (h3 : d'.suppliers = d.suppliers)
    (h : List.Forall₂ (fun e e' => tagsOf e' = tagsOf e) d.exchanges d'.exchanges) : From d d' := by
  refine ⟨h1, h2, Or.inr h3, fun e' he => Or.inr ?_⟩
  obtain ⟨e, he, hc⟩ := forall₂_mem_right h he
  exact ⟨e, he, hc⟩

/-- All datasets that the function returns come from its input. -/
def Descends (f : List Dataset → Except Err (List Dataset)) : Prop :=
  ∀ data out, f data = .ok out → ∀ d' ∈ out, ∃ d ∈ data, From d d'

theorem descends_mapE {g : Dataset → Except Err Dataset} (h : ∀ d d', g d = .ok d' → From d d') : Descends (mapE g) := by
  intro data out ho d' hd'
  obtain ⟨d, hd, hg⟩ := mapE_mem ho hd'
  exact ⟨d, hd, h d d' hg⟩

theorem descends_map {g : Dataset → Dataset} (h : ∀ d, From d (g d)) : Descends (fun data => .ok (data.map g)) := by
  intro data out ho d' hd'
  cases ho
  obtain ⟨d, hd, rfl⟩ := List.mem_map.mp hd'
  exact ⟨d, hd, h d⟩

theorem descends_check {f : List Dataset → Except Err (List Dataset)} (h : ∀ data out, f data = .ok out → ∀ d ∈ out, d ∈ data) : Descends f :=
  fun data out ho d' hd' => ⟨d', h data out ho d' hd', .refl _⟩

theorem From.mapNumE {f : NumObj → Except Err NumObj} {d d' : Dataset} (h : d.mapNumE f = .ok d') : From d d' := by
  obtain ⟨-, hd, hex, -⟩ := Dataset.mapNumE_inv h
  refine .forall₂ (by rw [hd]) (by rw [hd]; rfl) (by rw [hd]) (hex.imp ?_)
  intro e e' he
  have := (Exchange.mapNumE_frame he).1.1
  rw [this]
  rfl

theorem From.change {f : NumObj → NumObj} {a : Addr} (d : Dataset) : From d (d.change f a) := by
  have key : ∀ (g : Exchange → Exchange) (i : ℕ), (∀ e, tagsOf (g e) = tagsOf e) → From d (changeExchange g i d) := by
    intro g i hg
    refine ⟨rfl, rfl, Or.inr rfl, fun e' he => Or.inr ?_⟩
    unfold changeExchange at he
    simp only at he
    have hc : (d.exchanges.modify i g).map tagsOf = d.exchanges.map tagsOf := map_modify_eq hg i _
    have hm : tagsOf e' ∈ d.exchanges.map tagsOf := hc ▸ List.mem_map.mpr ⟨e', he, rfl⟩
    obtain ⟨e, he, h⟩ := List.mem_map.mp hm
    exact ⟨e, he, h.symm⟩
  cases a with
  | exc i => exact key _ i fun e => rfl
  | pv i => exact key _ i fun e => rfl
  | prop i j => exact key _ i fun e => rfl
  | par i => exact ⟨rfl, rfl, Or.inr rfl, fun e he => Or.inr ⟨e, he, rfl⟩⟩

theorem From.foldE {α : Type} {f : Dataset → α → Except Err Dataset} (hf : ∀ d a d', f d a = .ok d' → From d d') {l : List α} {d d' : Dataset}
    (h : foldE f d l = .ok d') : From d d' :=
  foldE_inv (I := fun _ s => From d s) h (.refl d) fun _ a s s' _ hs hstep => hs.trans (hf s a s' hstep)

theorem From.references {d d' : Dataset} (h : replaceImplicitReferences d = .ok d') : From d d' := by
  have hr : ∀ {find : Dataset → Text → Except Err Addr} {name : Text → String} {a : Addr} (s : Dataset) (r : Text × Text) (s' : Dataset),
      replaceReference find name a s r = .ok s' → From s s' := by
    intro find name a s r s' hs
    unfold replaceReference at hs
    obtain ⟨target, -, hs⟩ := bind_eq_ok.mp hs
    cases hs
    have : From s (giveVariable (name r.2) target s).2 := by
      unfold giveVariable
      split
      · exact .refl _
      · exact .change _
    exact this.trans (.change _)
  refine From.foldE (f := replaceReferencesAt) ?_ h
  intro s a s' hs
  unfold replaceReferencesAt at hs
  obtain ⟨s1, h1, hs⟩ := bind_eq_ok.mp hs
  exact (From.foldE (hr (a := a)) h1).trans (From.foldE (hr (a := a)) hs)

theorem descends_ids : Descends ensureIdsAreUnique := by
  apply descends_check
  intro data out h
  unfold ensureIdsAreUnique at h
  split at h
  · cases h
  · cases h; exact fun d h => h

/-- Functions that only look at the data. -/
theorem descends_looks {α : Type} {f : List Dataset → Except Err α} : Descends (fun data => f data >>= fun _ => .ok data) := by
  apply descends_check
  intro data out h
  obtain ⟨_, -, h⟩ := bind_eq_ok.mp h
  cases h
  exact fun d h => h

theorem descends_onePr : Descends ensureMarketsOneProduct :=
  descends_looks (f := fun data => forE checkOneReferenceProduct (data.filter fun ds => ds.type == .market))

theorem descends_own : Descends ensureMarketsNoOwnConsumption :=
  descends_looks (f := fun data => forE checkOwnConsumption (data.filter fun ds => ds.type == .market))

theorem descends_vars : Descends variableNamesAreUnique :=
  descends_looks (f := fun data => forE (fun ds : Dataset => uniqueLoop (ds.numObjs.filter NumObj.isParam) []) data)

theorem descends_volumes : Descends ensureVolumesGiven := descends_looks (f := fun data => forE checkVolumesGiven data)

theorem descends_linkCheck : Descends checkActivityLinkValidity :=
  descends_looks (f := fun data => forE (fun ds : Dataset => forE (checkLink data) ds.exchanges) data)

theorem descends_rowGroups : Descends checkNoRowMarketGroups := by
  apply descends_check
  intro data out h
  unfold checkNoRowMarketGroups at h
  split at h
  · cases h
  · cases h; exact fun d h => h

theorem descends_alternative : Descends ensureAlternativeProduction := by
  apply descends_check
  intro data out h
  unfold ensureAlternativeProduction at h
  split at h
  · cases h; exact fun d h => h
  · cases h

/-- Changing every exchange without touching its code. -/
theorem From.mapExchanges {g : Exchange → Exchange} (hg : ∀ e, tagsOf (g e) = tagsOf e) (d : Dataset) :
    From d { d with exchanges := d.exchanges.map g } := by
  refine .mk' rfl ?_
  intro e' he'
  obtain ⟨e, he, h⟩ := List.mem_map.mp he'
  exact ⟨e, he, h ▸ hg e⟩

theorem From.filterExchanges {p : Exchange → Bool} (d : Dataset) : From d { d with exchanges := d.exchanges.filter p } :=
  .mk' rfl fun e he => ⟨e, (List.mem_filter.mp he).1, rfl⟩

theorem From.mapExchangesE {g : Exchange → Except Err Exchange} (hg : ∀ e e', g e = .ok e' → tagsOf e' = tagsOf e) {d d' : Dataset} {ex : List Exchange}
    (hex : mapE g d.exchanges = .ok ex) (hd : d' = { d with exchanges := ex }) : From d d' := by
  refine .mk' hd ?_
  intro e' he
  obtain ⟨e, he, h⟩ := mapE_mem hex he
  exact ⟨e, he, hg e e' h⟩

theorem descends_copyId : Descends (fun d => .ok (copyOriginalExchangeId d)) := descends_map fun d => .mapExchanges (g := fun e => { e with originalId := some e.id }) (fun _ => rfl) d

theorem descends_specific : Descends (fun d => .ok (d.map fixSpecificIssues)) := by
  apply descends_map
  intro d
  unfold fixSpecificIssues
  split
  · exact .filterExchanges d
  · exact .refl d

theorem descends_known : Descends (mapE fixKnownBadFormulas) := by
  apply descends_mapE
  intro d d' h
  refine From.foldE (f := fixKnownStep) ?_ h
  intro d a d' h
  unfold fixKnownStep at h
  split at h
  · exact .mapNumE h
  · cases h; exact .refl _

theorem descends_fill : Descends addPvToAllocatableByproducts := by
  apply descends_mapE
  intro d d' h
  unfold fillVolumes at h
  obtain ⟨b, -, h⟩ := bind_eq_ok.mp h
  cases b
  · cases h; exact .refl _
  · simp only [if_true] at h
    obtain ⟨scale, -, h⟩ := bind_eq_ok.mp h
    obtain ⟨ex, hex, h⟩ := bind_eq_ok.mp h
    cases h
    refine .mapExchangesE ?_ hex rfl
    intro e e' he
    unfold fillByproduct at he
    obtain ⟨b, -, he⟩ := bind_eq_ok.mp he
    split at he
    · unfold fillVolume at he
      obtain ⟨pv, -, he⟩ := bind_eq_ok.mp he
      split at he <;> (cases he; rfl)
    · cases he; rfl

theorem descends_pvParams (uuid : Exchange → String) : Descends (fun d => .ok (d.map (createPvParameters uuid))) := by
  apply descends_map
  intro d
  refine ⟨rfl, rfl, Or.inr rfl, ?_⟩
  intro e' he
  unfold createPvParameters at he
  obtain ⟨e, hem, rfl⟩ := List.mem_map.mp he
  refine Or.inr ⟨e, hem, ?_⟩
  unfold pvParameter
  split
  · rfl
  · split <;> rfl

theorem descends_consequential : Descends (fun d => .ok (removeConsequentialExchanges d)) := by
  unfold removeConsequentialExchanges
  exact descends_map fun d => .filterExchanges d

theorem descends_dropRp : Descends (fun d => .ok (dropRpActivityLinks d)) := by
  unfold dropRpActivityLinks
  exact descends_map fun d => .mapExchanges (fun e => by unfold dropRpLink; split <;> rfl) d

theorem descends_dropZero : Descends (fun d => .ok (dropZeroAmountActivityLinks d)) := by
  unfold dropZeroAmountActivityLinks
  exact descends_map fun d => .mapExchanges (fun e => by unfold dropZeroLink; split <;> rfl) d

theorem descends_parent : Descends updateActivityLinkParentChild := by
  apply descends_mapE
  intro d d' h
  unfold updateParentChild at h
  split at h
  · cases h; exact .refl _
  · split at h
    · cases h; exact .refl _
    · obtain ⟨ex, hex, h⟩ := bind_eq_ok.mp h
      cases h
      refine .mapExchangesE ?_ hex rfl
      intro e e' he
      unfold redirectToChild at he
      obtain ⟨b, -, he⟩ := bind_eq_ok.mp he
      split at he
      · cases he; rfl
      · split at he <;> (cases he; rfl)

theorem descends_fix35 : Descends (fun d => .ok (fix35ActivityLinks d)) := by
  unfold fix35ActivityLinks
  exact descends_map fun d => .mapExchanges (fun e => by split <;> rfl) d

/-- In-place changes of single datasets, one after the other. -/
theorem descends_foldE {α : Type} {f : List Dataset → α → Except Err (List Dataset)} (hf : ∀ a, Descends (fun d => f d a)) (l : List α) :
    Descends (fun d => foldE f d l) := by
  intro data out h
  refine foldE_inv (I := fun _ s => ∀ d' ∈ s, ∃ d ∈ data, From d d') h (fun d hd => ⟨d, hd, .refl d⟩) ?_
  intro pre a s s' _ hs hstep d' hd'
  obtain ⟨d1, hd1, h1⟩ := hf a s s' hstep d' hd'
  obtain ⟨d0, hd0, h0⟩ := hs d1 hd1
  exact ⟨d0, hd0, h0.trans h1⟩

theorem descends_modifyLast {i : String} {f : Dataset → Except Err Dataset} (hf : ∀ d d', f d = .ok d' → From d d') : Descends (modifyLast i f) := by
  intro st st' h d' hd'
  obtain ⟨l₁, d, x, l₂, rfl, -, hx, rfl⟩ := modifyLast_split h
  simp only [List.mem_append, List.mem_cons] at hd'
  rcases hd' with hd' | rfl | hd'
  · exact ⟨d', by simp [hd'], .refl _⟩
  · exact ⟨d, by simp, hf _ _ hx⟩
  · exact ⟨d', by simp [hd'], .refl _⟩

theorem descends_hard : Descends addHardLinkedProductionVolumes := by
  intro data out h
  unfold addHardLinkedProductionVolumes at h
  refine descends_foldE (f := fun st ds => foldE (hardLinkStep ds) st ds.exchanges) ?_ data data out h
  intro ds
  refine descends_foldE ?_ ds.exchanges
  intro e st st' hs
  unfold hardLinkStep at hs
  split at hs
  · cases hs; exact fun d hd => ⟨d, hd, .refl d⟩
  · split at hs
    · cases hs; exact fun d hd => ⟨d, hd, .refl d⟩
    · split at hs
      · cases hs; exact fun d hd => ⟨d, hd, .refl d⟩
      · refine descends_modifyLast ?_ st st' hs
        intro d d' hd
        unfold addToTarget at hd
        obtain ⟨found, -, hd⟩ := bind_eq_ok.mp hd
        split at hd
        · obtain ⟨s, -, hd⟩ := bind_eq_ok.mp hd
          obtain ⟨_, -, hd⟩ := bind_eq_ok.mp hd
          cases hd
          exact .mapExchanges (fun e => by split <;> rfl) d
        · cases hd

theorem descends_transforming : Descends updateTransformingVolumes := by
  apply descends_mapE
  intro d d' h
  split at h
  · obtain ⟨ex, hex, h⟩ := bind_eq_ok.mp h
    cases h
    refine .mapExchangesE ?_ hex rfl
    intro e e' he
    unfold updateProduction at he
    obtain ⟨b, -, he⟩ := bind_eq_ok.mp he
    split at he
    · obtain ⟨p, -, he⟩ := bind_eq_ok.mp he
      cases he; rfl
    · cases he; rfl
  · cases h; exact .refl _

theorem descends_renameRc : Descends renameRecyclableContentExchanges := by
  apply descends_mapE
  intro d d' h
  obtain ⟨ex, hex, h⟩ := bind_eq_ok.mp h
  cases h
  refine .mapExchangesE ?_ hex rfl
  intro e e' he
  unfold renameRecyclable at he
  obtain ⟨b, -, he⟩ := bind_eq_ok.mp he
  cases he
  cases b <;> rfl

theorem descends_createRc : Descends createRecycledContentDatasets := by
  intro data out h d' hd'
  unfold createRecycledContentDatasets at h
  obtain ⟨c, hc, h⟩ := bind_eq_ok.mp h
  cases h
  rcases List.mem_append.mp hd' with hd' | hd'
  · exact ⟨d', hd', .refl _⟩
  · obtain ⟨p, hp, rfl⟩ := List.mem_map.mp hd'
    obtain ⟨k, v⟩ := p
    obtain ⟨l₁, a, l₂, rfl, -, rfl, -⟩ := (dictOf_mem ..).mp hp
    unfold recycledContentCandidates at hc
    obtain ⟨d, hd, bs, hb, hm⟩ := flatMapE_mem hc (b := a) (by simp)
    obtain ⟨recs, -, hb⟩ := bind_eq_ok.mp hb
    obtain ⟨e, -, he⟩ := mapE_mem hb hm
    refine ⟨d, hd, ?_⟩
    unfold newRecycledContentDataset at he
    obtain ⟨sd, h1, he⟩ := bind_eq_ok.mp he
    obtain ⟨ed, h2, he⟩ := bind_eq_ok.mp he
    obtain ⟨tl, h3, he⟩ := bind_eq_ok.mp he
    cases he
    refine ⟨rfl, ?_, Or.inl rfl, ?_⟩
    · unfold sourceOf
      rw [getKey_eq_ok.mp h1, getKey_eq_ok.mp h2, getKey_eq_ok.mp h3]
    intro e' he'
    simp only [List.mem_singleton] at he'
    subst he'
    exact Or.inl rfl

theorem From.choose {M : MathEnv} {d d' : Dataset} {x : Exchange} {f : ℚ} (h : chooseReferenceProduct M d x f = .ok d')
    (hx : ∃ e ∈ d.exchanges, tagsOf x = tagsOf e) : From d d' := by
  obtain ⟨-, -, n, non, -, -, hnon, hd⟩ := C11_choose_shape M d d' x f h
  refine .mk' hd ?_
  intro e' he
  simp only [List.mem_append, List.mem_cons, List.mem_map] at he
  rcases he with (rfl | ⟨e, he, rfl⟩) | he
  · exact hx
  · exact ⟨e, (List.mem_filter.mp (List.mem_filter.mp he).1).1, rfl⟩
  · obtain ⟨e, hem, hs⟩ := forall₂_mem_right hnon he
    exact ⟨e, (List.mem_filter.mp hem).1, hs.tags⟩

theorem From.economic {M : MathEnv} {d d' : Dataset} {out : List Dataset} (h : economicAllocation M d = .ok out) (hd : d' ∈ out) : From d d' := by
  obtain ⟨-, -, fs, -, -, hf⟩ := economicAllocation_inv h
  obtain ⟨p, hp, hc⟩ := forall₂_mem_right hf hd
  refine .choose hc ⟨p.2, ?_, rfl⟩
  have := List.of_mem_zip hp
  exact (List.mem_filter.mp this.2).1

theorem From.recycling {M : MathEnv} {d d' : Dataset} {out : List Dataset} (h : recyclingAllocation M d = .ok out) (hd : d' ∈ out) : From d d' := by
  unfold recyclingAllocation at h
  obtain ⟨rp, -, h⟩ := bind_eq_ok.mp h
  split at h
  · cases h
  · obtain ⟨b, -, h⟩ := bind_eq_ok.mp h
    split at h
    · cases h
    · obtain ⟨ex, hex, h⟩ := bind_eq_ok.mp h
      refine (From.mapExchangesE ?_ hex rfl).trans (From.economic h hd)
      intro e e' he
      unfold recyclingInput at he
      split at he
      · exact (scaleExchange_scaled he).tags
      · cases he; rfl

theorem From.waste {M : MathEnv} {d d' : Dataset} {out : List Dataset} (h : wasteTreatmentAllocation M d = .ok out) (hd : d' ∈ out) : From d d' := by
  unfold wasteTreatmentAllocation at h
  obtain ⟨rp, hrp, h⟩ := bind_eq_ok.mp h
  have hrpm : rp ∈ d.exchanges := by
    have : rp ∈ refs d := by rw [getSingle_ok.mp hrp]; simp
    exact (List.mem_filter.mp this).1
  by_cases h1 : rp.cls = some .waste
  swap
  · simp [h1] at h
  simp only [h1, ne_eq, not_true_eq_false, if_false] at h
  by_cases h2 : rp.amount < 0
  swap
  · simp [h2] at h
  simp only [h2, not_true_eq_false, if_false] at h
  obtain ⟨first, hfirst, h⟩ := bind_eq_ok.mp h
  obtain ⟨prod, hprod, h⟩ := bind_eq_ok.mp h
  obtain ⟨free, hfree, h⟩ := bind_eq_ok.mp h
  cases h
  obtain ⟨-, rfl⟩ := allocatableProduction_inv hprod
  rcases List.mem_cons.mp hd with rfl | hd
  · exact .choose hfirst ⟨rp, hrpm, rfl⟩
  · obtain ⟨e, he, hfe⟩ := mapE_mem hfree hd
    have hem : e ∈ d.exchanges := (List.mem_filter.mp (List.mem_filter.mp he).1).1
    unfold freeByproduct at hfe
    refine From.trans (b := { d with exchanges := [e] }) (.mk' rfl ?_) (.choose hfe ⟨e, by simp, rfl⟩)
    intro e' he'
    exact ⟨e, hem, by rw [List.mem_singleton.mp he']⟩

theorem From.combined {M : MathEnv} {F : FormulaEnv} {ord : Dataset → Except Err (List String)} {d d' : Dataset} {out : List Dataset}
    (h : combinedProduction M F ord d = .ok out) (hd : d' ∈ out) : From d d' := by
  unfold combinedProduction at h
  obtain ⟨e, he, hr⟩ := mapE_mem h hd
  have hem : e ∈ d.exchanges := (List.mem_filter.mp he).1
  have h1 : From d (subdivided d e) := by
    refine .mk' rfl ?_
    intro e' he'
    simp only [List.mem_append, List.mem_singleton, List.mem_map, List.mem_filter] at he'
    rcases he' with (rfl | ⟨x, hx, rfl⟩) | hx
    · exact ⟨e, hem, rfl⟩
    · exact ⟨x, hx.1, rfl⟩
    · exact ⟨e', hx.1, rfl⟩
  refine h1.trans ?_
  unfold recalculateO at hr
  obtain ⟨o, -, hr⟩ := bind_eq_ok.mp hr
  unfold recalculate at hr
  obtain ⟨σ, -, hr⟩ := bind_eq_ok.mp hr
  obtain ⟨ds', h2, hr⟩ := bind_eq_ok.mp hr
  exact (From.mapNumE h2).trans (.mapNumE hr)

theorem From.split {M : MathEnv} {d d' : Dataset} {out : List Dataset} (h : handleSplitDataset M d = .ok out) (hd : d' ∈ out) : From d d' := by
  unfold handleSplitDataset at h
  obtain ⟨rp, -, h⟩ := bind_eq_ok.mp h
  unfold splitBy at h
  split at h
  · cases h
  · exact .waste h hd
  · exact From.trans (b := { d with name := d.name ++ ", from " ++ rp.name }) ⟨rfl, rfl, Or.inr rfl, fun e he => Or.inr ⟨e, he, rfl⟩⟩ (.recycling h hd)
  · cases h

theorem From.addExchanges (t d : Dataset) : From t (addExchanges t d) :=
  .mapExchanges (fun e => by unfold addTo; split <;> rfl) t

theorem From.foldl_add (l : List Dataset) (t : Dataset) : From t (l.foldl Ocelot.addExchanges t) := by
  induction l generalizing t with
  | nil => exact .refl t
  | cons d l ih => exact (From.addExchanges t d).trans (ih _)

theorem descends_merge : Descends mergeByproducts := by
  intro data out h d' hd'
  unfold mergeByproducts at h
  obtain ⟨_, -, h⟩ := bind_eq_ok.mp h
  obtain ⟨keyed, hk, h⟩ := bind_eq_ok.mp h
  cases h
  obtain ⟨g, hg, hd'⟩ := List.mem_flatMap.mp hd'
  obtain ⟨k, grp⟩ := g
  have hgm := groupBy_mem hg
  have hsub : ∀ x ∈ grp.map (·.2), x ∈ data := by
    intro x hx
    obtain ⟨p, hp, rfl⟩ := List.mem_map.mp hx
    rw [hgm] at hp
    obtain ⟨d, hd, hw⟩ := mapE_mem hk (List.mem_filter.mp hp).1
    unfold withKey at hw
    obtain ⟨_, -, hw⟩ := bind_eq_ok.mp hw
    cases hw
    exact hd
  simp only at hd'
  rcases hl : grp.map (·.2) with _ | ⟨parent, rest⟩
  · rw [hl] at hd'; cases hd'
  · rw [hl] at hd' hsub
    unfold mergeGroup at hd'
    rw [List.mem_singleton.mp hd']
    exact ⟨parent, hsub parent (by simp), .foldl_add rest parent⟩

theorem From.method {M : MathEnv} {F : FormulaEnv} {ord : Dataset → Except Err (List String)} {label : String} {d d' : Dataset} {out : List Dataset}
    (h : datasetMethod M F ord label d = .ok out) (hd : d' ∈ out) : From d d' := by
  have hno : noAllocation d = .ok out → From d d' := by
    intro h
    unfold noAllocation at h
    obtain ⟨_, -, h⟩ := bind_eq_ok.mp h
    cases h
    rw [List.mem_singleton.mp hd]
    exact .refl d
  unfold datasetMethod at h
  split at h
  · exact hno h
  split at h
  · exact hno h
  split at h
  · exact .economic h hd
  split at h
  · exact .recycling h hd
  split at h
  · exact .waste h hd
  split at h
  · unfold combinedWithoutProducts at h
    obtain ⟨l, hl, h⟩ := bind_eq_ok.mp h
    obtain ⟨x, hx, r, hr, hdr⟩ := flatMapE_mem h hd
    exact (From.combined hl hx).trans (.split hr hdr)
  split at h
  · exact .combined h hd
  split at h
  · unfold combinedWithByproducts at h
    obtain ⟨l, hl, h⟩ := bind_eq_ok.mp h
    obtain ⟨a, ha, h⟩ := bind_eq_ok.mp h
    obtain ⟨y, hy, hf⟩ := descends_merge a out h d' hd
    obtain ⟨x, hx, r, hr, hyr⟩ := flatMapE_mem ha hy
    exact ((From.combined hl hx).trans (.economic hr hyr)).trans hf
  · cases h

theorem descends_label : Descends labelAllocationMethod := by
  apply descends_mapE
  intro d d' h
  obtain ⟨m, -, h⟩ := bind_eq_ok.mp h
  cases h
  exact ⟨rfl, rfl, Or.inr rfl, fun e he => Or.inr ⟨e, he, rfl⟩⟩

theorem descends_labelRp : Descends labelReferenceProduct := by
  apply descends_mapE
  intro d d' h
  obtain ⟨m, -, h⟩ := bind_eq_ok.mp h
  cases h
  exact ⟨rfl, rfl, Or.inr rfl, fun e he => Or.inr ⟨e, he, rfl⟩⟩

theorem descends_whitelist : Descends deleteWhitelistedMarkets := by
  apply descends_check
  intro data out h
  unfold deleteWhitelistedMarkets at h
  obtain ⟨_, -, h⟩ := bind_eq_ok.mp h
  cases h
  exact fun d hd => (List.mem_filter.mp hd).1

theorem descends_fakePv : Descends assignFakePvToConfidential := by
  apply descends_mapE
  intro d d' h
  unfold assignFakePv at h
  split at h
  · obtain ⟨_, -, h⟩ := bind_eq_ok.mp h
    obtain ⟨_, -, h⟩ := bind_eq_ok.mp h
    cases h
    exact .mapExchanges (fun e => by unfold mapRefVolume; split <;> rfl) d
  · cases h; exact .refl _

theorem descends_pipeline : Descends (fun d => .ok (correctPipelineLocation d)) := by
  unfold correctPipelineLocation
  apply descends_map
  intro d
  split
  · exact ⟨rfl, rfl, Or.inr rfl, fun e he => Or.inr ⟨e, he, rfl⟩⟩
  · exact .refl d

theorem descends_relabel : Descends relabelGlobalToRow := by
  intro data out h d' hd'
  rw [C38_relabel data out h] at hd'
  obtain ⟨d, hd, rfl⟩ := List.mem_map.mp hd'
  refine ⟨d, hd, ?_⟩
  split
  · unfold asRow
    refine ⟨rfl, rfl, Or.inr rfl, ?_⟩
    intro e' he
    simp only [List.mem_map] at he
    obtain ⟨e, he, rfl⟩ := he
    exact Or.inr ⟨e, he, by unfold restVolume; split <;> rfl⟩
  · exact .refl d

theorem descends_codes (lower md5 : String → String) : Descends (addUniqueCodes lower md5) := by
  have main : ∀ (hash : Dataset → String) (l : List Dataset) (seen : List String) (out : List Dataset), addCodesFrom hash seen l = .ok out →
      ∀ d' ∈ out, ∃ d ∈ l, From d d' := by
    intro hash l
    induction l with
    | nil => intro seen out h; cases h; simp
    | cons d l ih =>
      intro seen out h d' hd'
      unfold addCodesFrom at h
      split at h
      · cases h
      · obtain ⟨r, hr, h⟩ := bind_eq_ok.mp h
        cases h
        rcases List.mem_cons.mp hd' with rfl | hd'
        · exact ⟨d, by simp, rfl, rfl, Or.inr rfl, fun e he => Or.inr ⟨e, he, rfl⟩⟩
        · obtain ⟨x, hx, hf⟩ := ih _ r hr d' hd'
          exact ⟨x, by simp [hx], hf⟩
  intro data out h
  exact main _ _ _ _ h

theorem descends_split (P : PipelineEnv) : Descends (wrapFiltered (fun d => .ok (multiRp d)) (combinedProduction P.M P.F P.ord)) := by
  intro data out h d' hd'
  unfold wrapFiltered at h
  obtain ⟨d, hd, r, hr, hdr⟩ := flatMapE_mem h hd'
  refine ⟨d, hd, ?_⟩
  obtain ⟨b, -, hr⟩ := bind_eq_ok.mp hr
  split at hr
  · exact .combined hr hdr
  · cases hr
    rw [List.mem_singleton.mp hdr]
    exact .refl d

theorem descends_deleteLinks : Descends deleteLinksToConstrained := by
  intro data out h
  unfold deleteLinksToConstrained at h
  obtain ⟨_, -, h⟩ := bind_eq_ok.mp h
  exact descends_map (fun d => .mapExchanges (fun e => by unfold dropLink; split <;> rfl) d) data out h

theorem descends_constrained : Descends handleConstrainedMarkets := by
  intro data out h
  unfold handleConstrainedMarkets at h
  refine descends_foldE (f := constrainedStep) ?_ _ data out h
  intro p st st' hs
  unfold constrainedStep at hs
  obtain ⟨link, -, hs⟩ := bind_eq_ok.mp hs
  intro d' hd'
  obtain ⟨d1, hd1, hf1⟩ := descends_modifyLast (f := swapRoles p.2.2.name) (by
    intro d d' hd
    unfold swapRoles at hd
    obtain ⟨_, -, hd⟩ := bind_eq_ok.mp hd
    simp only at hd
    have hturn : From d { d with exchanges := d.exchanges.map fun e => if e.type = .referenceProduct then toInput e else e } :=
      .mapExchanges (fun e => by split <;> rfl) d
    split at hd
    · split at hd
      · cases hd
        exact hturn.trans (.mapExchanges (fun e => by split <;> rfl) _)
      · cases hd
    · cases hd) _ st' hs d' hd'
  have : ∃ d ∈ st, From d d1 := by
    unfold modifyExchange at hd1
    have hd1' := hd1
    obtain ⟨j, hj⟩ := List.mem_iff_getElem?.mp hd1'
    rw [List.getElem?_modify] at hj
    rcases hst : st[j]? with _ | d
    · rw [hst] at hj; simp at hj
    · rw [hst] at hj
      simp only [Option.map_eq_map, Option.map_some, Option.some.injEq] at hj
      refine ⟨d, List.mem_of_getElem? hst, ?_⟩
      split at hj
      · subst hj
        refine .mk' rfl ?_
        intro e' he
        have hc : (d.exchanges.modify p.2.1 toInput).map tagsOf = d.exchanges.map tagsOf := map_modify_eq (f := toInput) (fun _ => rfl) _ _
        have hm : tagsOf e' ∈ d.exchanges.map tagsOf := hc ▸ List.mem_map.mpr ⟨e', he, rfl⟩
        obtain ⟨e, he, h⟩ := List.mem_map.mp hm
        exact ⟨e, he, h.symm⟩
      · subst hj; exact .refl d
  obtain ⟨d, hd, hf⟩ := this
  exact ⟨d, hd, hf.trans hf1⟩

end Ocelot
