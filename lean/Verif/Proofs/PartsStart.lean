import Verif.Proofs.PartsBase

/-! The functions before `add_unique_codes` work on the parts of a database separately. -/

namespace Ocelot
namespace Parts
open Spec

variable {c : Cut} {J : Option (String → Bool)}

theorem scaled_label {k : ℚ} {e e' : Exchange} (h : ScaledBy k e e') : labelOf e' = labelOf e := by rw [h]; rfl

theorem Keep.forall₂ {d d' : Dataset} (h : List.Forall₂ (fun e e' => labelOf e' = labelOf e) d.exchanges d'.exchanges)
    (h1 : d'.name = d.name) (h2 : d'.id = d.id) (h4 : d'.refProduct = d.refProduct) (h5 : d'.suppliers = d.suppliers) (h6 : d'.code = d.code) : Keep c J d d' := by
  intro b hd
  refine ⟨by rw [h1]; exact hd.name, by rw [h2]; exact hd.id, ?_, by rw [h4]; exact hd.ref, by rw [h5]; exact hd.sup, by rw [h5, h6]; exact hd.code⟩
  intro e' he
  obtain ⟨e, he, hc⟩ := forall₂_mem_right h he
  exact (hd.exs e he).like hc

theorem Keep.mapNumE {f : NumObj → Except Err NumObj} {d d' : Dataset} (h : d.mapNumE f = .ok d') : Keep c J d d' := by
  obtain ⟨-, hd, hex, -⟩ := Dataset.mapNumE_inv h
  refine .forall₂ (hex.imp ?_) (by rw [hd]) (by rw [hd]) (by rw [hd]) (by rw [hd]) (by rw [hd])
  intro e e' he
  have := (Exchange.mapNumE_frame he).1.1
  rw [this]
  rfl

theorem Keep.change {f : NumObj → NumObj} {a : Addr} (d : Dataset) : Keep c J d (d.change f a) := by
  have key : ∀ (g : Exchange → Exchange) (i : ℕ), (∀ e, labelOf (g e) = labelOf e) → Keep c J d (changeExchange g i d) := by
    intro g i hg
    refine .like rfl fun e' he => ?_
    have hc : (d.exchanges.modify i g).map labelOf = d.exchanges.map labelOf := map_modify_eq hg i _
    have hm : labelOf e' ∈ d.exchanges.map labelOf := hc ▸ List.mem_map.mpr ⟨e', he, rfl⟩
    obtain ⟨e, he, h⟩ := List.mem_map.mp hm
    exact ⟨e, he, h.symm⟩
  cases a with
  | exc i => exact key _ i fun e => rfl
  | pv i => exact key _ i fun e => rfl
  | prop i j => exact key _ i fun e => rfl
  | par i => exact .frame rfl rfl rfl rfl rfl rfl

theorem Keep.foldE {α : Type} {f : Dataset → α → Except Err Dataset} (hf : ∀ d a d', f d a = .ok d' → Keep c J d d') {l : List α} {d d' : Dataset}
    (h : foldE f d l = .ok d') : Keep c J d d' :=
  foldE_inv (I := fun _ s => Keep c J d s) h (.refl d) fun _ a s s' _ hs hstep => hs.trans (hf s a s' hstep)

theorem Keep.references {d d' : Dataset} (h : replaceImplicitReferences d = .ok d') : Keep c J d d' := by
  have hr : ∀ {find : Dataset → Text → Except Err Addr} {name : Text → String} {a : Addr} (s : Dataset) (r : Text × Text) (s' : Dataset),
      replaceReference find name a s r = .ok s' → Keep c J s s' := by
    intro find name a s r s' hs
    unfold replaceReference at hs
    obtain ⟨target, -, hs⟩ := bind_eq_ok.mp hs
    cases hs
    have : Keep c J s (giveVariable (name r.2) target s).2 := by
      unfold giveVariable
      split
      · exact .refl _
      · exact .change _
    exact this.trans (.change _)
  refine Keep.foldE (f := replaceReferencesAt) ?_ h
  intro s a s' hs
  unfold replaceReferencesAt at hs
  obtain ⟨s1, h1, hs⟩ := bind_eq_ok.mp hs
  exact (Keep.foldE (hr (a := a)) h1).trans (Keep.foldE (hr (a := a)) hs)

/-! ## Checks -/

theorem local_ids : Local c J ensureIdsAreUnique := by
  intro X X' hX h
  unfold ensureIdsAreUnique at h ⊢
  split at h
  · cases h
  · next hn =>
    cases h
    refine ⟨hX, ?_⟩
    have key : ∀ l : List Dataset, (distinctCount (l.map (·.id)) = l.length) ↔ (l.map (·.id)).Nodup := by
      intro l
      unfold distinctCount
      rw [← List.dedup_eq_self]
      constructor
      · intro h
        exact (List.dedup_sublist _).eq_of_length (by rw [h, List.length_map])
      · intro h
        rw [h, List.length_map]
    rw [if_neg]
    rw [not_not, key] at hn ⊢
    exact hn.sublist (List.filter_sublist.map _)

theorem forE_sub {f : Dataset → Except Err Unit} {X : List Dataset} {p : Dataset → Bool} {u : Unit} (h : forE f (X.filter p) = .ok u) :
    ∃ u', forE f ((c.part X).filter p) = .ok u' := by
  refine ⟨(), ?_⟩
  unfold Cut.part
  rw [List.filter_comm]
  exact forE_part h fun _ _ _ h => h

theorem local_onePr : Local c J ensureMarketsOneProduct :=
  local_looks (f := fun data => forE checkOneReferenceProduct (data.filter fun ds => ds.type == .market)) fun _ _ _ h => forE_sub h

theorem local_own : Local c J ensureMarketsNoOwnConsumption :=
  local_looks (f := fun data => forE checkOwnConsumption (data.filter fun ds => ds.type == .market)) fun _ _ _ h => forE_sub h

theorem local_vars : Local c J variableNamesAreUnique :=
  local_looks (f := fun data => forE (fun ds : Dataset => uniqueLoop (ds.numObjs.filter NumObj.isParam) []) data)
    fun _ _ _ h => ⟨(), forE_part h fun _ _ _ h => h⟩

theorem local_volumes : Local c J ensureVolumesGiven :=
  local_looks (f := fun data => forE checkVolumesGiven data) fun _ _ _ h => ⟨(), forE_part h fun _ _ _ h => h⟩

theorem local_rowGroups : Local c J checkNoRowMarketGroups := by
  intro X X' hX h
  unfold checkNoRowMarketGroups at h ⊢
  split at h
  · cases h
  · next hn =>
    cases h
    refine ⟨hX, ?_⟩
    rw [if_neg]
    intro hc
    obtain ⟨d, hd, hp⟩ := List.any_eq_true.mp hc
    exact hn (List.any_eq_true.mpr ⟨d, (mem_part.mp hd).1, hp⟩)

theorem idMapping_part {X : List Dataset} (hX : Divided c J X) {l : String} (hl : c.id l = true) : idMapping (c.part X) l = idMapping X l := by
  rw [idMapping_eq, idMapping_eq, filter_part]
  intro d hd h
  have := (hX d hd).id
  rw [eq_of_beq h, hl] at this
  exact this.symm

theorem local_linkCheck : Local c J checkActivityLinkValidity :=
  local_looks (f := fun data => forE (fun ds : Dataset => forE (checkLink data) ds.exchanges) data) fun X hX u h =>
    ⟨(), forE_part h fun d hd hs hf => by
      rw [forE_ok_iff] at hf ⊢
      intro e he
      have := hf e he
      unfold checkLink at this ⊢
      split
      · rfl
      · next l hl =>
        rw [hl] at this
        simp only at this
        split
        · rfl
        · next hne =>
          rw [if_neg hne] at this
          rw [idMapping_part hX (hs ▸ (((hX d hd).exs e he).2 l hl hne))]
          exact this⟩

/-! ## Functions that change each dataset -/

theorem local_copyId : Local c J (fun d => .ok (copyOriginalExchangeId d)) := local_map fun d => .mapExchanges (g := fun e => { e with originalId := some e.id }) (fun _ => rfl) d

theorem local_specific : Local c J (fun d => .ok (d.map fixSpecificIssues)) := by
  apply local_map
  intro d
  unfold fixSpecificIssues
  split
  · exact .filterExchanges d
  · exact .refl d

theorem local_known : Local c J (mapE fixKnownBadFormulas) := by
  apply local_mapE
  intro d d' h
  refine Keep.foldE (f := fixKnownStep) ?_ h
  intro d a d' h
  unfold fixKnownStep at h
  split at h
  · exact .mapNumE h
  · cases h; exact .refl _

theorem local_fill : Local c J addPvToAllocatableByproducts := by
  apply local_mapE
  intro d d' h
  unfold fillVolumes at h
  obtain ⟨b, -, h⟩ := bind_eq_ok.mp h
  cases b
  · cases h; exact .refl _
  · simp only [if_true] at h
    obtain ⟨scale, -, h⟩ := bind_eq_ok.mp h
    obtain ⟨ex, hex, h⟩ := bind_eq_ok.mp h
    cases h
    refine .mapExchangesE ?_ hex rfl
    intro e e' he
    unfold fillByproduct at he
    obtain ⟨b, -, he⟩ := bind_eq_ok.mp he
    split at he
    · unfold fillVolume at he
      obtain ⟨pv, -, he⟩ := bind_eq_ok.mp he
      split at he <;> (cases he; rfl)
    · cases he; rfl

theorem local_pvParams (uuid : Exchange → String) : Local c J (fun d => .ok (d.map (createPvParameters uuid))) := by
  apply local_map
  intro d
  refine .forall₂ ?_ rfl rfl rfl rfl rfl
  unfold createPvParameters
  rw [List.forall₂_map_right_iff, List.forall₂_same]
  intro e _
  unfold pvParameter
  split
  · rfl
  · split <;> rfl

theorem local_consequential : Local c J (fun d => .ok (removeConsequentialExchanges d)) := by
  unfold removeConsequentialExchanges
  exact local_map fun d => .filterExchanges d

theorem Keep.changeE {g : Exchange → Exchange} (hg : ∀ b e, OkE c b e → OkE c b (g e)) (d : Dataset) : Keep c J d { d with exchanges := d.exchanges.map g } := by
  intro b h
  refine h.setEx rfl ?_
  intro e' he'
  obtain ⟨e, he, rfl⟩ := List.mem_map.mp he'
  exact hg b e (h.exs e he)

/-- Removing a link. -/
theorem OkE.unlink {b : Bool} {e e' : Exchange} (h : OkE c b e) (h' : e' = { e with activityLink := none }) : OkE c b e' := by
  subst h'
  exact ⟨h.1, fun l hl => by cases hl⟩

theorem local_dropRp : Local c J (fun d => .ok (dropRpActivityLinks d)) := by
  unfold dropRpActivityLinks
  refine local_map fun d => .changeE (fun b e h => ?_) d
  unfold dropRpLink
  split
  · exact h.unlink rfl
  · exact h

theorem local_dropZero : Local c J (fun d => .ok (dropZeroAmountActivityLinks d)) := by
  unfold dropZeroAmountActivityLinks
  refine local_map fun d => .changeE (fun b e h => ?_) d
  unfold dropZeroLink
  split
  · exact h.unlink rfl
  · exact h

theorem Keep.changeEE {g : Exchange → Except Err Exchange} {d d' : Dataset} {ex : List Exchange} (hg : ∀ b e e', Whole c J b d → e ∈ d.exchanges → g e = .ok e' → OkE c b e → OkE c b e')
    (hex : mapE g d.exchanges = .ok ex) (hd : d' = { d with exchanges := ex }) : Keep c J d d' := by
  intro b h
  refine h.setEx hd ?_
  intro e' he
  obtain ⟨e, he, hge⟩ := mapE_mem hex he
  exact hg b e e' h he hge (h.exs e he)

theorem local_parent : Local c J updateActivityLinkParentChild := by
  apply local_mapE
  intro d d' h
  unfold updateParentChild at h
  split at h
  · cases h; exact .refl _
  · split at h
    · cases h; exact .refl _
    · obtain ⟨ex, hex, h⟩ := bind_eq_ok.mp h
      cases h
      refine .changeEE ?_ hex rfl
      intro b e e' hd he hge hok
      unfold redirectToChild at hge
      obtain ⟨x, -, hge⟩ := bind_eq_ok.mp hge
      split at hge
      · cases hge; exact hok
      · split at hge
        · cases hge
          refine ⟨hok.1, fun l hl _ => ?_⟩
          cases hl
          exact hd.id
        · cases hge; exact hok

theorem local_fix35 : Local c J (fun d => .ok (fix35ActivityLinks d)) := by
  unfold fix35ActivityLinks
  refine local_map fun d => .changeE (fun b e h => ?_) d
  split
  · exact h.unlink rfl
  · exact h

theorem local_transforming : Local c J updateTransformingVolumes := by
  apply local_mapE
  intro d d' h
  split at h
  · obtain ⟨ex, hex, h⟩ := bind_eq_ok.mp h
    cases h
    refine .mapExchangesE ?_ hex rfl
    intro e e' he
    unfold updateProduction at he
    obtain ⟨b, -, he⟩ := bind_eq_ok.mp he
    split at he
    · obtain ⟨p, -, he⟩ := bind_eq_ok.mp he
      cases he; rfl
    · cases he; rfl
  · cases h; exact .refl _

theorem local_renameRc (hc : c.Proper) : Local c J renameRecyclableContentExchanges := by
  apply local_mapE
  intro d d' h
  obtain ⟨ex, hex, h⟩ := bind_eq_ok.mp h
  cases h
  refine .changeEE ?_ hex rfl
  intro s e e' _ _ he hok
  unfold renameRecyclable at he
  obtain ⟨b, hb, he⟩ := bind_eq_ok.mp he
  cases he
  cases b
  · exact hok
  · have ht : e.type = .byproduct := by
      unfold isRecyclableByproduct at hb
      by_contra hne
      rw [if_neg hne] at hb
      cases hb
    refine hok.renamed ?_ (Or.inr rfl)
    have := hc.recycled e.name ""
    rw [String.append_empty, String.append_empty] at this
    exact this.trans (hok.named (by rw [ht]; rfl))

theorem local_label : Local c J labelAllocationMethod := by
  apply local_mapE
  intro d d' h
  obtain ⟨m, -, h⟩ := bind_eq_ok.mp h
  cases h
  exact .frame rfl rfl rfl rfl rfl rfl

theorem local_whitelist : Local c J deleteWhitelistedMarkets := by
  unfold deleteWhitelistedMarkets
  have h1 : Local c J (fun X => mapE withRefProduct (X.filter isWhitelisted) >>= fun _ => .ok X) :=
    local_looks (f := fun X => mapE withRefProduct (X.filter isWhitelisted)) fun _ _ _ h => mapE_part h
  have h2 := local_comp h1 (local_filter (p := fun ds => !isWhitelisted ds))
  intro X X' hX h
  have := h2 X X' hX (by
    obtain ⟨u, hu, h⟩ := bind_eq_ok.mp h
    simp only [hu]
    exact h)
  refine ⟨this.1, ?_⟩
  obtain ⟨Y, hY, h'⟩ := bind_eq_ok.mp this.2
  obtain ⟨u, hu, hY⟩ := bind_eq_ok.mp hY
  cases hY
  exact bind_eq_ok.mpr ⟨u, hu, h'⟩

theorem local_fakePv : Local c J assignFakePvToConfidential := by
  apply local_mapE
  intro d d' h
  unfold assignFakePv at h
  split at h
  · obtain ⟨_, -, h⟩ := bind_eq_ok.mp h
    obtain ⟨_, -, h⟩ := bind_eq_ok.mp h
    cases h
    exact .mapExchanges (fun e => by unfold mapRefVolume; split <;> rfl) d
  · cases h; exact .refl _

theorem local_pipeline : Local c J (fun d => .ok (correctPipelineLocation d)) := by
  unfold correctPipelineLocation
  apply local_map
  intro d
  split
  · exact .frame rfl rfl rfl rfl rfl rfl
  · exact .refl d

theorem single_mem {d : Dataset} {e : Exchange} (h : getSingleReferenceProduct d = .ok e) : e ∈ d.exchanges ∧ e.type = .referenceProduct := by
  have : e ∈ refs d := by rw [getSingle_ok.mp h]; simp
  have := List.mem_filter.mp this
  exact ⟨this.1, by simpa using this.2⟩

theorem Whole.product {b : Bool} {d : Dataset} (h : Whole c J b d) {e : Exchange} (he : getSingleReferenceProduct d = .ok e) : c.name e.name = b :=
  (h.exs e (single_mem he).1).named (by rw [(single_mem he).2]; rfl)

theorem local_labelRp : Local c J labelReferenceProduct := by
  apply local_mapE
  intro d d' h b hd
  obtain ⟨m, hm, h⟩ := bind_eq_ok.mp h
  cases h
  exact ⟨hd.name, hd.id, hd.exs, fun r hr => by cases hr; exact hd.product hm, hd.sup, hd.code⟩

/-! ## Recycled content -/

theorem Keep.newRecycled {d d' : Dataset} {e : Exchange} {b : Bool} (hd : Whole c none b d) (he : e ∈ d.exchanges) (ht : e.type = .byproduct)
    (h : newRecycledContentDataset d e = .ok d') : Whole c none b d' := by
  have hn : c.name e.name = b := (hd.exs e he).named (by rw [ht]; rfl)
  unfold newRecycledContentDataset at h
  obtain ⟨sd, -, h⟩ := bind_eq_ok.mp h
  obtain ⟨ed, -, h⟩ := bind_eq_ok.mp h
  obtain ⟨tl, -, h⟩ := bind_eq_ok.mp h
  cases h
  refine ⟨hn, hd.id, ?_, fun r hr => by cases hr; exact hn, (fun l hl => by cases hl), (fun j hj => by cases hj)⟩
  intro x hx
  rw [List.mem_singleton.mp hx]
  exact ⟨Or.inr hn, fun l hl => by cases hl⟩

theorem recyclable_type {e : Exchange} (h : isRecyclableByproduct e = .ok true) : e.type = .byproduct := by
  unfold isRecyclableByproduct at h
  by_contra hne
  rw [if_neg hne] at h
  cases h

theorem filterE_mem {α : Type} {p : α → Except Err Bool} {l r : List α} (h : filterE p l = .ok r) {a : α} (ha : a ∈ r) : a ∈ l ∧ p a = .ok true := by
  induction l generalizing r with
  | nil => cases h; cases ha
  | cons x l ih =>
    obtain ⟨b, r', h1, h2, rfl⟩ := filterE_cons_ok.mp h
    cases b with
    | true =>
      simp only [if_true, List.mem_cons] at ha
      rcases ha with rfl | ha
      · exact ⟨by simp, h1⟩
      · exact ⟨by simp [(ih h2 ha).1], (ih h2 ha).2⟩
    | false =>
      simp only [Bool.false_eq_true, if_false] at ha
      exact ⟨by simp [(ih h2 ha).1], (ih h2 ha).2⟩

theorem local_createRc : Local c none createRecycledContentDatasets := by
  intro X X' hX h
  unfold createRecycledContentDatasets at h ⊢
  obtain ⟨r, hr, h⟩ := bind_eq_ok.mp h
  cases h
  unfold recycledContentCandidates at hr
  have hcand := local_flatMapE (c := c) (J := none) (g := fun ds : Dataset => do
    let recs ← filterE isRecyclableByproduct ds.exchanges
    mapE (newRecycledContentDataset ds) recs) (by
      intro d r hr d' hd' b hd
      obtain ⟨recs, hf, hr⟩ := bind_eq_ok.mp hr
      obtain ⟨e, he, hn⟩ := mapE_mem hr hd'
      obtain ⟨h1, h2⟩ := filterE_mem hf he
      exact Keep.newRecycled hd h1 (recyclable_type h2) hn) X r hX hr
  obtain ⟨h1, h2⟩ := hcand
  have hmem : ∀ p ∈ dictOf (fun d : Dataset => d.name) (fun d => d) r, p.2 ∈ r ∧ p.1 = p.2.name := by
    rintro ⟨k, v⟩ hp
    obtain ⟨a, ha, rfl, rfl⟩ := dictOf_mem_src hp
    exact ⟨ha, rfl⟩
  refine ⟨?_, ?_⟩
  · intro d hd
    rcases List.mem_append.mp hd with hd | hd
    · exact hX d hd
    · obtain ⟨p, hp, rfl⟩ := List.mem_map.mp hd
      exact h1 p.2 (hmem p hp).1
  · have h2' : recycledContentCandidates (c.part X) = .ok (c.part r) := h2
    rw [h2']
    simp only [ebind_ok, epure, Except.ok.injEq]
    unfold Cut.part
    rw [List.filter_append, dictOf_filter (q := c.name) r (fun _ _ => rfl), List.filter_map]
    congr 2
    refine List.filter_congr fun p hp => ?_
    rw [(hmem p hp).2]
    rfl

/-! ## Allocation -/

theorem production_elem {e : Exchange} (h : isProduction e = true) : elemB e.type = false := by
  unfold isProduction at h
  rcases ht : e.type <;> rw [ht] at h <;> first | rfl | simp at h

theorem Keep.choose {M : MathEnv} {d d' : Dataset} {x : Exchange} {f : ℚ} (h : chooseReferenceProduct M d x f = .ok d')
    (hx : ∃ e ∈ d.exchanges, labelOf x = labelOf e) (ht : elemB x.type = false) : Keep c J d d' := by
  obtain ⟨-, -, n, non, -, -, hnon, hd⟩ := C11_choose_shape M d d' x f h
  intro b hw
  refine hw.setEx hd ?_
  intro e' he
  simp only [List.mem_append, List.mem_cons, List.mem_map] at he
  rcases he with (rfl | ⟨e, he, rfl⟩) | he
  · obtain ⟨e, he, hl⟩ := hx
    have hok : OkE c b x := (hw.exs e he).like hl
    exact hok.renamed (hok.named ht) (Or.inr rfl)
  · have hm := List.mem_filter.mp (List.mem_filter.mp he).1
    have hok := hw.exs e hm.1
    exact hok.renamed (hok.named (production_elem hm.2)) (Or.inr rfl)
  · obtain ⟨e, hem, hs⟩ := forall₂_mem_right hnon he
    exact (hw.exs e (List.mem_filter.mp hem).1).like (scaled_label hs)

theorem Keep.economic {M : MathEnv} {d d' : Dataset} {out : List Dataset} (h : economicAllocation M d = .ok out) (hd : d' ∈ out) : Keep c J d d' := by
  obtain ⟨-, -, fs, -, -, hf⟩ := economicAllocation_inv h
  obtain ⟨p, hp, hc⟩ := forall₂_mem_right hf hd
  have := List.mem_filter.mp (List.of_mem_zip hp).2
  exact .choose hc ⟨p.2, this.1, rfl⟩ (production_elem this.2)

theorem Keep.recycling {M : MathEnv} {d d' : Dataset} {out : List Dataset} (h : recyclingAllocation M d = .ok out) (hd : d' ∈ out) : Keep c J d d' := by
  unfold recyclingAllocation at h
  obtain ⟨rp, -, h⟩ := bind_eq_ok.mp h
  split at h
  · cases h
  · obtain ⟨b, -, h⟩ := bind_eq_ok.mp h
    split at h
    · cases h
    · obtain ⟨ex, hex, h⟩ := bind_eq_ok.mp h
      refine (Keep.mapExchangesE ?_ hex rfl).trans (Keep.economic h hd)
      intro e e' he
      unfold recyclingInput at he
      split at he
      · next hcond =>
        rw [scaled_label (scaleExchange_scaled he)]
        unfold labelOf
        rw [hcond]
        rfl
      · cases he; rfl

theorem Keep.waste {M : MathEnv} {d d' : Dataset} {out : List Dataset} (h : wasteTreatmentAllocation M d = .ok out) (hd : d' ∈ out) : Keep c J d d' := by
  unfold wasteTreatmentAllocation at h
  obtain ⟨rp, hrp, h⟩ := bind_eq_ok.mp h
  have hrpm := single_mem hrp
  by_cases h1 : rp.cls = some .waste
  swap
  · simp [h1] at h
  simp only [h1, ne_eq, not_true_eq_false, if_false] at h
  by_cases h2 : rp.amount < 0
  swap
  · simp [h2] at h
  simp only [h2, not_true_eq_false, if_false] at h
  obtain ⟨first, hfirst, h⟩ := bind_eq_ok.mp h
  obtain ⟨prod, hprod, h⟩ := bind_eq_ok.mp h
  obtain ⟨free, hfree, h⟩ := bind_eq_ok.mp h
  cases h
  obtain ⟨-, rfl⟩ := allocatableProduction_inv hprod
  rcases List.mem_cons.mp hd with rfl | hd
  · exact .choose hfirst ⟨rp, hrpm.1, rfl⟩ (by rw [hrpm.2]; rfl)
  · obtain ⟨e, he, hfe⟩ := mapE_mem hfree hd
    have hem := List.mem_filter.mp (List.mem_filter.mp he).1
    unfold freeByproduct at hfe
    refine Keep.trans (b := { d with exchanges := [e] }) (.like rfl ?_) (.choose hfe ⟨e, by simp, rfl⟩ (production_elem hem.2))
    intro e' he'
    exact ⟨e, hem.1, by rw [List.mem_singleton.mp he']⟩

theorem Keep.combined {M : MathEnv} {F : FormulaEnv} {ord : Dataset → Except Err (List String)} {d d' : Dataset} {out : List Dataset}
    (h : combinedProduction M F ord d = .ok out) (hd : d' ∈ out) : Keep c J d d' := by
  unfold combinedProduction at h
  obtain ⟨e, he, hr⟩ := mapE_mem h hd
  have hem := List.mem_filter.mp he
  have h1 : Keep c J d (subdivided d e) := by
    intro b hw
    refine hw.setEx rfl ?_
    intro e' he'
    simp only [List.mem_append, List.mem_singleton, List.mem_map, List.mem_filter] at he'
    rcases he' with (rfl | ⟨x, hx, rfl⟩) | hx
    · exact (hw.exs e hem.1).like rfl
    · have hok := hw.exs x hx.1
      refine hok.renamed (hok.named ?_) (Or.inr rfl)
      have := hx.2
      simp only [Bool.and_eq_true, beq_iff_eq] at this
      rw [this.1]; rfl
    · exact hw.exs e' hx.1
  refine h1.trans ?_
  unfold recalculateO at hr
  obtain ⟨o, -, hr⟩ := bind_eq_ok.mp hr
  unfold recalculate at hr
  obtain ⟨σ, -, hr⟩ := bind_eq_ok.mp hr
  obtain ⟨ds', h2, hr⟩ := bind_eq_ok.mp hr
  exact (Keep.mapNumE h2).trans (.mapNumE hr)

theorem Keep.split (hc : c.Proper) {M : MathEnv} {d d' : Dataset} {out : List Dataset} (h : handleSplitDataset M d = .ok out) (hd : d' ∈ out) : Keep c J d d' := by
  unfold handleSplitDataset at h
  obtain ⟨rp, hrp, h⟩ := bind_eq_ok.mp h
  unfold splitBy at h
  split at h
  · cases h
  · exact .waste h hd
  · refine Keep.trans (b := { d with name := d.name ++ ", from " ++ rp.name }) ?_ (.recycling h hd)
    intro b hw
    exact ⟨(hc.split _ _ (hw.name.trans (hw.product hrp).symm)).trans hw.name, hw.id, hw.exs, hw.ref, hw.sup, hw.code⟩
  · cases h

theorem Keep.addExchanges (t d : Dataset) : Keep c J t (addExchanges t d) :=
  .mapExchanges (fun e => by unfold addTo; split <;> rfl) t

theorem Keep.foldl_add (l : List Dataset) (t : Dataset) : Keep c J t (l.foldl Ocelot.addExchanges t) := by
  induction l generalizing t with
  | nil => exact .refl t
  | cons d l ih => exact (Keep.addExchanges t d).trans (ih _)

theorem keep_merge {data out : List Dataset} (h : mergeByproducts data = .ok out) : ∀ d' ∈ out, ∃ d ∈ data, Keep c J d d' := by
  intro d' hd'
  unfold mergeByproducts at h
  obtain ⟨_, -, h⟩ := bind_eq_ok.mp h
  obtain ⟨keyed, hk, h⟩ := bind_eq_ok.mp h
  cases h
  obtain ⟨g, hg, hd'⟩ := List.mem_flatMap.mp hd'
  obtain ⟨k, grp⟩ := g
  have hgm := groupBy_mem hg
  have hsub : ∀ x ∈ grp.map (·.2), x ∈ data := by
    intro x hx
    obtain ⟨p, hp, rfl⟩ := List.mem_map.mp hx
    rw [hgm] at hp
    obtain ⟨d, hd, hw⟩ := mapE_mem hk (List.mem_filter.mp hp).1
    unfold withKey at hw
    obtain ⟨_, -, hw⟩ := bind_eq_ok.mp hw
    cases hw
    exact hd
  simp only at hd'
  rcases hl : grp.map (·.2) with _ | ⟨parent, rest⟩
  · rw [hl] at hd'; cases hd'
  · rw [hl] at hd' hsub
    unfold mergeGroup at hd'
    rw [List.mem_singleton.mp hd']
    exact ⟨parent, hsub parent (by simp), .foldl_add rest parent⟩

theorem Keep.method (hc : c.Proper) {M : MathEnv} {F : FormulaEnv} {ord : Dataset → Except Err (List String)} {label : String} {d d' : Dataset} {out : List Dataset}
    (h : datasetMethod M F ord label d = .ok out) (hd : d' ∈ out) : Keep c J d d' := by
  have hno : noAllocation d = .ok out → Keep c J d d' := by
    intro h
    unfold noAllocation at h
    obtain ⟨_, -, h⟩ := bind_eq_ok.mp h
    cases h
    rw [List.mem_singleton.mp hd]
    exact .refl d
  unfold datasetMethod at h
  split at h
  · exact hno h
  split at h
  · exact hno h
  split at h
  · exact .economic h hd
  split at h
  · exact .recycling h hd
  split at h
  · exact .waste h hd
  split at h
  · unfold combinedWithoutProducts at h
    obtain ⟨l, hl, h⟩ := bind_eq_ok.mp h
    obtain ⟨x, hx, r, hr, hdr⟩ := flatMapE_mem h hd
    exact (Keep.combined hl hx).trans (.split hc hr hdr)
  split at h
  · exact .combined h hd
  split at h
  · unfold combinedWithByproducts at h
    obtain ⟨l, hl, h⟩ := bind_eq_ok.mp h
    obtain ⟨a, ha, h⟩ := bind_eq_ok.mp h
    obtain ⟨y, hy, hf⟩ := keep_merge h d' hd
    obtain ⟨x, hx, r, hr, hyr⟩ := flatMapE_mem ha hy
    exact ((Keep.combined hl hx).trans (.economic hr hyr)).trans hf
  · cases h

theorem local_split (P : PipelineEnv) : Local c J (wrapFiltered (fun d => .ok (multiRp d)) (combinedProduction P.M P.F P.ord)) := by
  unfold wrapFiltered
  apply local_flatMapE
  intro d r hr d' hd'
  obtain ⟨b, -, hr⟩ := bind_eq_ok.mp hr
  split at hr
  · exact .combined hr hd'
  · cases hr
    rw [List.mem_singleton.mp hd']
    exact .refl d

/-! ## Loops over the data -/

/-- A loop whose turns belong to one side each. -/
theorem fold_local {α κ : Type} {s : α → Bool} {D : List α → Prop} {step step' : List α → κ → Except Err (List α)} {side : κ → Bool} {keys : List κ}
    (hin : ∀ k ∈ keys, side k = true → ∀ X X', D X → step X k = .ok X' → D X' ∧ step' (X.filter s) k = .ok (X'.filter s))
    (hout : ∀ k ∈ keys, side k = false → ∀ X X', D X → step X k = .ok X' → D X' ∧ X'.filter s = X.filter s) {X X' : List α} (hX : D X)
    (h : foldE step X keys = .ok X') : D X' ∧ foldE step' (X.filter s) (keys.filter side) = .ok (X'.filter s) := by
  induction keys generalizing X with
  | nil => cases h; exact ⟨hX, rfl⟩
  | cons k keys ih =>
    simp only [foldE] at h
    obtain ⟨Y, h1, h2⟩ := bind_eq_ok.mp h
    have hi := @ih (fun k hk => hin k (by simp [hk])) (fun k hk => hout k (by simp [hk])) Y
    cases hk : side k with
    | true =>
      obtain ⟨a1, a2⟩ := hin k (by simp) hk X Y hX h1
      obtain ⟨b1, b2⟩ := hi a1 h2
      refine ⟨b1, ?_⟩
      rw [List.filter_cons_of_pos hk]
      simp only [foldE, a2, ebind_ok]
      exact b2
    | false =>
      obtain ⟨a1, a2⟩ := hout k (by simp) hk X Y hX h1
      obtain ⟨b1, b2⟩ := hi a1 h2
      refine ⟨b1, ?_⟩
      rw [List.filter_cons_of_neg (by simp [hk]), ← a2]
      exact b2

theorem modifyLast_part {i : String} {f : Dataset → Except Err Dataset} {X X' : List Dataset} (hX : Divided c J X) (hf : ∀ d ∈ X, d.id = i → ∀ d', f d = .ok d' → Keep c J d d')
    (h : modifyLast i f X = .ok X') :
    Divided c J X' ∧ (c.id i = true → modifyLast i f (c.part X) = .ok (c.part X')) ∧ (c.id i = false → c.part X' = c.part X) := by
  induction X generalizing X' with
  | nil => cases h
  | cons d X ih =>
    have hd := hX d (by simp)
    have hX' : Divided c J X := fun d hd => hX d (by simp [hd])
    unfold modifyLast at h
    split at h
    · next hany =>
      obtain ⟨r, hr, h⟩ := bind_eq_ok.mp h
      cases h
      obtain ⟨a1, a2, a3⟩ := ih hX' (fun d hd => hf d (by simp [hd])) hr
      refine ⟨fun x hx => ?_, fun hi => ?_, fun hi => ?_⟩
      · rcases List.mem_cons.mp hx with rfl | hx
        · exact hd
        · exact a1 x hx
      · have a2 := a2 hi
        unfold Cut.part at a2 ⊢
        cases hn : c.name d.name with
        | true =>
          rw [List.filter_cons_of_pos (by simpa using hn), List.filter_cons_of_pos (by simpa using hn)]
          unfold modifyLast
          rw [if_pos, a2]
          · rfl
          · obtain ⟨x, hx, hxi⟩ := List.any_eq_true.mp hany
            refine List.any_eq_true.mpr ⟨x, List.mem_filter.mpr ⟨hx, ?_⟩, hxi⟩
            have := (hX' x hx).id
            rw [eq_of_beq hxi, hi] at this
            simpa using this.symm
        | false =>
          rw [List.filter_cons_of_neg (by simp [hn]), List.filter_cons_of_neg (by simp [hn])]
          exact a2
      · have a3 := a3 hi
        unfold Cut.part at a3 ⊢
        rw [List.filter_cons, List.filter_cons, a3]
    · next hany =>
      split at h
      · next hid =>
        obtain ⟨d', hd', h⟩ := bind_eq_ok.mp h
        cases h
        have hk := hf d (by simp) hid d' hd' _ hd
        have hside := hd.id
        rw [hid] at hside
        refine ⟨fun x hx => ?_, fun hi => ?_, fun hi => ?_⟩
        · rcases List.mem_cons.mp hx with rfl | hx
          · exact hk.self
          · exact hX' x hx
        · have hn : c.name d.name = true := by rw [← hside, hi]
          have hn' : c.name d'.name = true := by rw [hk.name, hn]
          unfold Cut.part
          rw [List.filter_cons_of_pos (by simpa using hn), List.filter_cons_of_pos (by simpa using hn')]
          unfold modifyLast
          rw [if_neg, if_pos hid, hd']
          · rfl
          · intro hc
            obtain ⟨x, hx, hxi⟩ := List.any_eq_true.mp hc
            exact hany (List.any_eq_true.mpr ⟨x, (List.mem_filter.mp hx).1, hxi⟩)
        · have hn : c.name d.name = false := by rw [← hside, hi]
          have hn' : c.name d'.name = false := by rw [hk.name, hn]
          unfold Cut.part
          rw [List.filter_cons_of_neg (by simp [hn']), List.filter_cons_of_neg (by simp [hn])]
      · cases h

theorem keep_target {name : String} {amount : ℚ} {scale : Except Err ℚ} {d d' : Dataset} (hd : addToTarget name amount scale d = .ok d') : Keep c J d d' := by
  unfold addToTarget at hd
  obtain ⟨found, -, hd⟩ := bind_eq_ok.mp hd
  split at hd
  · obtain ⟨s, -, hd⟩ := bind_eq_ok.mp hd
    obtain ⟨_, -, hd⟩ := bind_eq_ok.mp hd
    cases hd
    exact .mapExchanges (fun e => by split <;> rfl) d
  · cases hd

theorem hardLink_part {ds : Dataset} {b : Bool} (hds : Whole c J b ds) {e : Exchange} (he : e ∈ ds.exchanges) {X X' : List Dataset} (hX : Divided c J X)
    (h : hardLinkStep ds X e = .ok X') : Divided c J X' ∧ (b = true → hardLinkStep ds (c.part X) e = .ok (c.part X')) ∧ (b = false → c.part X' = c.part X) := by
  unfold hardLinkStep at h ⊢
  split at h
  · cases h; exact ⟨hX, fun _ => rfl, fun _ => rfl⟩
  · next l hl =>
    split at h
    · next h0 => cases h; exact ⟨hX, fun _ => by rw [if_pos h0], fun _ => rfl⟩
    · next h0 =>
      split at h
      · next h1 => cases h; exact ⟨hX, fun _ => by rw [if_neg h0, if_pos h1], fun _ => rfl⟩
      · next h1 =>
        have hb := (hds.exs e he).2 l hl h0
        obtain ⟨a1, a2, a3⟩ := modifyLast_part hX (fun _ _ _ _ h => keep_target h) h
        refine ⟨a1, fun h => ?_, fun h => a3 (hb.trans h)⟩
        rw [if_neg h0, if_neg h1]
        exact a2 (hb.trans h)

theorem local_hard : Local c J addHardLinkedProductionVolumes := by
  intro X X' hX h
  unfold addHardLinkedProductionVolumes at h ⊢
  refine fold_local (s := fun d : Dataset => c.name d.name) (D := Divided c J) (side := fun d : Dataset => c.name d.name) (keys := X) ?_ ?_ hX h
  · intro ds hds hs Y Y' hY h'
    have := fold_local (s := fun d : Dataset => c.name d.name) (D := Divided c J) (step := hardLinkStep ds) (step' := hardLinkStep ds) (side := fun _ : Exchange => true)
      (keys := ds.exchanges) (fun e he _ Z Z' hZ hZ' => by
        obtain ⟨a1, a2, -⟩ := hardLink_part (hX ds hds) he hZ hZ'
        exact ⟨a1, a2 hs⟩) (fun _ _ h => by cases h) hY h'
    rw [List.filter_eq_self.mpr fun _ _ => rfl] at this
    exact this
  · intro ds hds hs Y Y' hY h'
    refine foldE_inv (I := fun _ Z => Divided c J Z ∧ c.part Z = c.part Y) h' ⟨hY, rfl⟩ ?_
    rintro pre e Z Z' he ⟨h1, h2⟩ hZ'
    obtain ⟨a1, -, a3⟩ := hardLink_part (hX ds hds) he h1 hZ'
    exact ⟨a1, (a3 hs).trans h2⟩

end Parts
end Ocelot
