import Verif.Proofs.PipelineRun

/-! What the functions before `add_unique_codes` do with the amounts of exchanges. -/

namespace Ocelot
open Spec

/-- The exchange is the same flow with the same amount. -/
structure KeptExc (e e' : Exchange) : Prop where
  type : e'.type = e.type
  cls : e'.cls = e.cls
  id : e'.id = e.id
  name : e'.name = e.name
  compartment : e'.compartment = e.compartment
  amount : e'.amount = e.amount
  marked : hasConsequentialProperty e' = hasConsequentialProperty e
  conditional : e'.conditional = e.conditional

theorem KeptExc.refl (e : Exchange) : KeptExc e e := ⟨rfl, rfl, rfl, rfl, rfl, rfl, rfl, rfl⟩

theorem KeptExc.trans {a b c : Exchange} (h : KeptExc a b) (h' : KeptExc b c) : KeptExc a c :=
  ⟨h'.type.trans h.type, h'.cls.trans h.cls, h'.id.trans h.id, h'.name.trans h.name, h'.compartment.trans h.compartment,
    h'.amount.trans h.amount, h'.marked.trans h.marked, h'.conditional.trans h.conditional⟩

/-- Same dataset, same flows. -/
structure Keeps (d d' : Dataset) : Prop where
  id : d'.id = d.id
  type : d'.type = d.type
  exchanges : List.Forall₂ KeptExc d.exchanges d'.exchanges

theorem keptList_refl (l : List Exchange) : List.Forall₂ KeptExc l l := List.forall₂_same.mpr fun e _ => .refl e

theorem Keeps.refl (d : Dataset) : Keeps d d := ⟨rfl, rfl, keptList_refl _⟩

theorem Keeps.trans {a b c : Dataset} (h : Keeps a b) (h' : Keeps b c) : Keeps a c :=
  ⟨h'.id.trans h.id, h'.type.trans h.type, forall₂_trans' h.exchanges h'.exchanges fun _ _ _ => KeptExc.trans⟩

/-- The function gives one dataset for each, with the same flows. -/
def KeepsAll (f : List Dataset → Except Err (List Dataset)) : Prop := ∀ data out, f data = .ok out → List.Forall₂ Keeps data out

theorem keepsList_refl (l : List Dataset) : List.Forall₂ Keeps l l := List.forall₂_same.mpr fun e _ => .refl e

theorem keepsAll_mapE {g : Dataset → Except Err Dataset} (h : ∀ d d', g d = .ok d' → Keeps d d') : KeepsAll (mapE g) := by
  intro data out ho
  exact (mapE_ok_iff.mp ho).imp fun d d' => h d d'

theorem keepsAll_map {g : Dataset → Dataset} (h : ∀ d, Keeps d (g d)) : KeepsAll (fun data => .ok (data.map g)) := by
  intro data out ho
  cases ho
  exact List.forall₂_map_right_iff.mpr (List.forall₂_same.mpr fun d _ => h d)

theorem keepsAll_check {f : List Dataset → Except Err (List Dataset)} (h : ∀ data out, f data = .ok out → out = data) : KeepsAll f := by
  intro data out ho
  rw [h data out ho]
  exact keepsList_refl _

theorem keepsAll_looks {α : Type} {f : List Dataset → Except Err α} : KeepsAll (fun data => f data >>= fun _ => .ok data) := by
  apply keepsAll_check
  intro data out h
  obtain ⟨_, -, h⟩ := bind_eq_ok.mp h
  cases h
  rfl

theorem marked_any {l r : List Prop'} (h : List.Forall₂ (fun p q : Prop' => q.name = p.name ∧ q.amount = p.amount) l r) :
    (r.any fun p => p.name == "consequential" && p.amount == 1) = l.any fun p => p.name == "consequential" && p.amount == 1 := by
  induction h with
  | nil => rfl
  | cons h _ ih => rw [List.any_cons, List.any_cons, ih, h.1, h.2]

theorem KeptExc.mapNumE {f : NumObj → Except Err NumObj} (hf : ∀ o o', f o = .ok o' → o'.amount = o.amount) {e e' : Exchange}
    (h : e.mapNumE f = .ok e') : KeptExc e e' := by
  unfold Exchange.mapNumE at h
  obtain ⟨o, ho, h⟩ := bind_eq_ok.mp h
  obtain ⟨pv, -, h⟩ := bind_eq_ok.mp h
  obtain ⟨ps, hps, h⟩ := bind_eq_ok.mp h
  cases h
  refine ⟨rfl, rfl, rfl, rfl, rfl, hf _ _ ho, marked_any ((mapE_ok_iff.mp hps).imp fun p q hpq => ?_), rfl⟩
  obtain ⟨x, hx, hq⟩ := bind_eq_ok.mp hpq
  cases hq
  exact ⟨rfl, hf _ _ hx⟩

theorem Keeps.mapNumE {f : NumObj → Except Err NumObj} (hf : ∀ o o', f o = .ok o' → o'.amount = o.amount) {d d' : Dataset}
    (h : d.mapNumE f = .ok d') : Keeps d d' := by
  obtain ⟨-, hd, hex, -⟩ := Dataset.mapNumE_inv h
  exact ⟨by rw [hd], by rw [hd], hex.imp fun e e' => .mapNumE hf⟩

theorem Keeps.mapExchanges {g : Exchange → Exchange} (hg : ∀ e, KeptExc e (g e)) (d : Dataset) :
    Keeps d { d with exchanges := d.exchanges.map g } :=
  ⟨rfl, rfl, List.forall₂_map_right_iff.mpr (List.forall₂_same.mpr fun e _ => hg e)⟩

theorem Keeps.mapExchangesE {g : Exchange → Except Err Exchange} (hg : ∀ e e', g e = .ok e' → KeptExc e e') {d d' : Dataset} {ex : List Exchange}
    (hex : mapE g d.exchanges = .ok ex) (hd : d' = { d with exchanges := ex }) : Keeps d d' := by
  subst hd
  exact ⟨rfl, rfl, (mapE_ok_iff.mp hex).imp fun e e' => hg e e'⟩

theorem kept_modify {α : Type} {R : α → α → Prop} (hr : ∀ a, R a a) {g : α → α} (hg : ∀ a, R a (g a)) (i : ℕ) (l : List α) :
    List.Forall₂ R l (l.modify i g) := by
  induction l generalizing i with
  | nil => cases i <;> simp
  | cons a l ih =>
    cases i with
    | zero => exact .cons (hg a) (List.forall₂_same.mpr fun x _ => hr x)
    | succ i => exact .cons (hr a) (ih i)

theorem Keeps.change {f : NumObj → NumObj} (hf : ∀ o, (f o).amount = o.amount) {a : Addr} (d : Dataset) : Keeps d (d.change f a) := by
  have key : ∀ (g : Exchange → Exchange) (i : ℕ), (∀ e, KeptExc e (g e)) → Keeps d (changeExchange g i d) :=
    fun g i hg => ⟨rfl, rfl, kept_modify KeptExc.refl hg i _⟩
  cases a with
  | exc i => exact key _ i fun e => ⟨rfl, rfl, rfl, rfl, rfl, hf _, rfl, rfl⟩
  | pv i => exact key _ i fun e => ⟨rfl, rfl, rfl, rfl, rfl, rfl, rfl, rfl⟩
  | prop i j =>
    refine key _ i fun e => ⟨rfl, rfl, rfl, rfl, rfl, rfl, ?_, rfl⟩
    exact marked_any (kept_modify (R := fun p p' : Prop' => p'.name = p.name ∧ p'.amount = p.amount) (fun _ => ⟨rfl, rfl⟩)
      (g := onProperty f) (fun p => ⟨rfl, hf _⟩) j e.properties)
  | par i => exact ⟨rfl, rfl, keptList_refl _⟩

theorem Keeps.foldE {α : Type} {f : Dataset → α → Except Err Dataset} (hf : ∀ d a d', f d a = .ok d' → Keeps d d') {l : List α} {d d' : Dataset}
    (h : foldE f d l = .ok d') : Keeps d d' :=
  foldE_inv (I := fun _ s => Keeps d s) h (.refl d) fun _ a s s' _ hs hstep => hs.trans (hf s a s' hstep)

theorem Keeps.references {d d' : Dataset} (h : replaceImplicitReferences d = .ok d') : Keeps d d' := by
  have hr : ∀ {find : Dataset → Text → Except Err Addr} {name : Text → String} {a : Addr} (s : Dataset) (r : Text × Text) (s' : Dataset),
      replaceReference find name a s r = .ok s' → Keeps s s' := by
    intro find name a s r s' hs
    unfold replaceReference at hs
    obtain ⟨target, -, hs⟩ := bind_eq_ok.mp hs
    cases hs
    have : Keeps s (giveVariable (name r.2) target s).2 := by
      unfold giveVariable
      split
      · exact .refl _
      · exact Keeps.change (f := setVar _) (fun _ => rfl) _
    exact this.trans (Keeps.change (f := replaceInFormula _ _) (fun _ => rfl) _)
  refine Keeps.foldE (f := replaceReferencesAt) ?_ h
  intro s a s' hs
  unfold replaceReferencesAt at hs
  obtain ⟨s1, h1, hs⟩ := bind_eq_ok.mp hs
  exact (Keeps.foldE (hr (a := a)) h1).trans (Keeps.foldE (hr (a := a)) hs)

theorem keepsAll_ids : KeepsAll ensureIdsAreUnique := by
  apply keepsAll_check
  intro data out h
  unfold ensureIdsAreUnique at h
  split at h
  · cases h
  · cases h; rfl

theorem keepsAll_onePr : KeepsAll ensureMarketsOneProduct :=
  keepsAll_looks (f := fun data => forE checkOneReferenceProduct (data.filter fun ds => ds.type == .market))

theorem keepsAll_own : KeepsAll ensureMarketsNoOwnConsumption :=
  keepsAll_looks (f := fun data => forE checkOwnConsumption (data.filter fun ds => ds.type == .market))

theorem keepsAll_vars : KeepsAll variableNamesAreUnique :=
  keepsAll_looks (f := fun data => forE (fun ds : Dataset => uniqueLoop (ds.numObjs.filter NumObj.isParam) []) data)

theorem keepsAll_volumes : KeepsAll ensureVolumesGiven := keepsAll_looks (f := fun data => forE checkVolumesGiven data)

theorem keepsAll_linkCheck : KeepsAll checkActivityLinkValidity :=
  keepsAll_looks (f := fun data => forE (fun ds : Dataset => forE (checkLink data) ds.exchanges) data)

theorem keepsAll_rowGroups : KeepsAll checkNoRowMarketGroups := by
  apply keepsAll_check
  intro data out h
  unfold checkNoRowMarketGroups at h
  split at h
  · cases h
  · cases h; rfl

theorem keepsAll_alternative : KeepsAll ensureAlternativeProduction := by
  apply keepsAll_check
  intro data out h
  unfold ensureAlternativeProduction at h
  split at h
  · cases h; rfl
  · cases h

theorem keepsAll_copyId : KeepsAll (fun d => .ok (copyOriginalExchangeId d)) :=
  keepsAll_map fun d => .mapExchanges (g := fun e => { e with originalId := some e.id }) (fun _ => ⟨rfl, rfl, rfl, rfl, rfl, rfl, rfl, rfl⟩) d

theorem keepsAll_known : KeepsAll (mapE fixKnownBadFormulas) := by
  apply keepsAll_mapE
  intro d d' h
  refine Keeps.foldE (f := fixKnownStep) ?_ h
  intro d a d' h
  unfold fixKnownStep at h
  split at h
  · exact .mapNumE (fun o o' h => by cases h; rfl) h
  · cases h; exact .refl _

theorem keepsAll_fill : KeepsAll addPvToAllocatableByproducts := by
  apply keepsAll_mapE
  intro d d' h
  unfold fillVolumes at h
  obtain ⟨b, -, h⟩ := bind_eq_ok.mp h
  cases b
  · cases h; exact .refl _
  · simp only [if_true] at h
    obtain ⟨scale, -, h⟩ := bind_eq_ok.mp h
    obtain ⟨ex, hex, h⟩ := bind_eq_ok.mp h
    cases h
    refine .mapExchangesE ?_ hex rfl
    intro e e' he
    unfold fillByproduct at he
    obtain ⟨b, -, he⟩ := bind_eq_ok.mp he
    split at he
    · unfold fillVolume at he
      obtain ⟨pv, -, he⟩ := bind_eq_ok.mp he
      split at he <;> (cases he; exact ⟨rfl, rfl, rfl, rfl, rfl, rfl, rfl, rfl⟩)
    · cases he; exact .refl _

theorem keepsAll_pvParams (uuid : Exchange → String) : KeepsAll (fun d => .ok (d.map (createPvParameters uuid))) := by
  apply keepsAll_map
  intro d
  refine ⟨rfl, rfl, List.forall₂_map_right_iff.mpr (List.forall₂_same.mpr fun e _ => ?_)⟩
  unfold pvParameter
  split
  · exact .refl _
  · split <;> exact ⟨rfl, rfl, rfl, rfl, rfl, rfl, rfl, rfl⟩

theorem keepsAll_dropRp : KeepsAll (fun d => .ok (dropRpActivityLinks d)) := by
  unfold dropRpActivityLinks
  exact keepsAll_map fun d => .mapExchanges (fun e => by unfold dropRpLink; split <;> exact ⟨rfl, rfl, rfl, rfl, rfl, rfl, rfl, rfl⟩) d

theorem keepsAll_dropZero : KeepsAll (fun d => .ok (dropZeroAmountActivityLinks d)) := by
  unfold dropZeroAmountActivityLinks
  exact keepsAll_map fun d => .mapExchanges (fun e => by unfold dropZeroLink; split <;> exact ⟨rfl, rfl, rfl, rfl, rfl, rfl, rfl, rfl⟩) d

theorem keepsAll_parent : KeepsAll updateActivityLinkParentChild := by
  apply keepsAll_mapE
  intro d d' h
  unfold updateParentChild at h
  split at h
  · cases h; exact .refl _
  · split at h
    · cases h; exact .refl _
    · obtain ⟨ex, hex, h⟩ := bind_eq_ok.mp h
      cases h
      refine .mapExchangesE ?_ hex rfl
      intro e e' he
      unfold redirectToChild at he
      obtain ⟨b, -, he⟩ := bind_eq_ok.mp he
      split at he
      · cases he; exact ⟨rfl, rfl, rfl, rfl, rfl, rfl, rfl, rfl⟩
      · split at he <;> (cases he; exact ⟨rfl, rfl, rfl, rfl, rfl, rfl, rfl, rfl⟩)

theorem keepsAll_fix35 : KeepsAll (fun d => .ok (fix35ActivityLinks d)) := by
  unfold fix35ActivityLinks
  exact keepsAll_map fun d => .mapExchanges (fun e => by split <;> exact ⟨rfl, rfl, rfl, rfl, rfl, rfl, rfl, rfl⟩) d

theorem keepsAll_foldE {α : Type} {f : List Dataset → α → Except Err (List Dataset)} (hf : ∀ a, KeepsAll (fun d => f d a)) (l : List α) :
    KeepsAll (fun d => foldE f d l) := by
  intro data out h
  refine foldE_inv (I := fun _ s => List.Forall₂ Keeps data s) h (keepsList_refl _) ?_
  intro pre a s s' _ hs hstep
  exact forall₂_trans' hs (hf a s s' hstep) fun _ _ _ => Keeps.trans

theorem keepsAll_modifyLast {i : String} {f : Dataset → Except Err Dataset} (hf : ∀ d d', f d = .ok d' → Keeps d d') : KeepsAll (modifyLast i f) := by
  intro st st' h
  obtain ⟨l₁, d, x, l₂, rfl, -, hx, rfl⟩ := modifyLast_split h
  exact List.rel_append (keepsList_refl _) (.cons (hf _ _ hx) (keepsList_refl _))

theorem keepsAll_hard : KeepsAll addHardLinkedProductionVolumes := by
  intro data out h
  unfold addHardLinkedProductionVolumes at h
  refine keepsAll_foldE (f := fun st ds => foldE (hardLinkStep ds) st ds.exchanges) ?_ data data out h
  intro ds
  refine keepsAll_foldE ?_ ds.exchanges
  intro e st st' hs
  unfold hardLinkStep at hs
  split at hs
  · cases hs; exact keepsList_refl _
  · split at hs
    · cases hs; exact keepsList_refl _
    · split at hs
      · cases hs; exact keepsList_refl _
      · refine keepsAll_modifyLast ?_ st st' hs
        intro d d' hd
        unfold addToTarget at hd
        obtain ⟨found, -, hd⟩ := bind_eq_ok.mp hd
        split at hd
        · obtain ⟨s, -, hd⟩ := bind_eq_ok.mp hd
          obtain ⟨_, -, hd⟩ := bind_eq_ok.mp hd
          cases hd
          exact .mapExchanges (fun e => by split <;> exact ⟨rfl, rfl, rfl, rfl, rfl, rfl, rfl, rfl⟩) d
        · cases hd

theorem keepsAll_transforming : KeepsAll updateTransformingVolumes := by
  apply keepsAll_mapE
  intro d d' h
  split at h
  · obtain ⟨ex, hex, h⟩ := bind_eq_ok.mp h
    cases h
    refine .mapExchangesE ?_ hex rfl
    intro e e' he
    unfold updateProduction at he
    obtain ⟨b, -, he⟩ := bind_eq_ok.mp he
    split at he
    · obtain ⟨p, -, he⟩ := bind_eq_ok.mp he
      cases he; exact ⟨rfl, rfl, rfl, rfl, rfl, rfl, rfl, rfl⟩
    · cases he; exact .refl _
  · cases h; exact .refl _

theorem keepsAll_label : KeepsAll labelAllocationMethod := by
  apply keepsAll_mapE
  intro d d' h
  obtain ⟨m, -, h⟩ := bind_eq_ok.mp h
  cases h
  exact ⟨rfl, rfl, keptList_refl _⟩

theorem keepsAll_labelRp : KeepsAll labelReferenceProduct := by
  apply keepsAll_mapE
  intro d d' h
  obtain ⟨m, -, h⟩ := bind_eq_ok.mp h
  cases h
  exact ⟨rfl, rfl, keptList_refl _⟩

theorem keepsAll_fakePv : KeepsAll assignFakePvToConfidential := by
  apply keepsAll_mapE
  intro d d' h
  unfold assignFakePv at h
  split at h
  · obtain ⟨_, -, h⟩ := bind_eq_ok.mp h
    obtain ⟨_, -, h⟩ := bind_eq_ok.mp h
    cases h
    exact .mapExchanges (fun e => by unfold mapRefVolume; split <;> exact ⟨rfl, rfl, rfl, rfl, rfl, rfl, rfl, rfl⟩) d
  · cases h; exact .refl _

theorem keepsAll_pipeline : KeepsAll (fun d => .ok (correctPipelineLocation d)) := by
  unfold correctPipelineLocation
  apply keepsAll_map
  intro d
  split
  · exact ⟨rfl, rfl, keptList_refl _⟩
  · exact .refl d

theorem keepsAll_relabel : KeepsAll relabelGlobalToRow := by
  intro data out h
  rw [C38_relabel data out h]
  refine List.forall₂_map_right_iff.mpr (List.forall₂_same.mpr fun d _ => ?_)
  split
  · unfold asRow
    refine ⟨rfl, rfl, List.forall₂_map_right_iff.mpr (List.forall₂_same.mpr fun e _ => ?_)⟩
    unfold restVolume
    split <;> exact ⟨rfl, rfl, rfl, rfl, rfl, rfl, rfl, rfl⟩
  · exact .refl d

theorem keepsAll_codes (lower md5 : String → String) : KeepsAll (addUniqueCodes lower md5) := by
  have main : ∀ (hash : Dataset → String) (l : List Dataset) (seen : List String) (out : List Dataset), addCodesFrom hash seen l = .ok out →
      List.Forall₂ Keeps l out := by
    intro hash l
    induction l with
    | nil => intro seen out h; cases h; exact .nil
    | cons d l ih =>
      intro seen out h
      unfold addCodesFrom at h
      split at h
      · cases h
      · obtain ⟨r, hr, h⟩ := bind_eq_ok.mp h
        cases h
        exact .cons ⟨rfl, rfl, keptList_refl _⟩ (ih _ r hr)
  intro data out h
  exact main _ _ _ _ h

theorem keepsAll_deleteLinks : KeepsAll deleteLinksToConstrained := by
  intro data out h
  unfold deleteLinksToConstrained at h
  obtain ⟨_, -, h⟩ := bind_eq_ok.mp h
  exact keepsAll_map (fun d => .mapExchanges (fun e => by unfold dropLink; split <;> exact ⟨rfl, rfl, rfl, rfl, rfl, rfl, rfl, rfl⟩) d) data out h

/-- Functions that keep all flows. -/
def Step.keepsFlows : Step → Bool
  | .ensureIdsAreUnique | .copyOriginalExchangeId | .variableNamesAreUnique | .ensureMarketsOneProduct | .ensureMarketsNoOwnConsumption
  | .replaceImplicitReferences | .repairUncertainty | .fixKnownBadFormulas | .lowercaseParameters | .fixMathFormulas
  | .replaceReservedWords | .deleteUnparsableFormulas | .ensureVolumesGiven | .addPvToAllocatableByproducts | .createPvParameters
  | .dropRpActivityLinks | .dropZeroAmountActivityLinks | .updateParentChild | .fix35ActivityLinks
  | .checkActivityLinkValidity | .addHardLinkedVolumes | .updateTransformingVolumes | .labelAllocationMethod
  | .labelReferenceProduct | .assignFakePv | .correctPipelineLocation | .relabelGlobalToRow
  | .checkNoRowMarketGroups | .addUniqueCodes | .deleteLinksToConstrained | .ensureAlternativeProduction => true
  | _ => false

theorem step_keeps (P : PipelineEnv) (s : Step) (hs : s.keepsFlows = true) : ∃ g, s.run P = onDatasets g ∧ KeepsAll g := by
  cases s with
  | ensureIdsAreUnique => exact ⟨_, rfl, keepsAll_ids⟩
  | copyOriginalExchangeId => exact ⟨_, rfl, keepsAll_copyId⟩
  | variableNamesAreUnique => exact ⟨_, rfl, keepsAll_vars⟩
  | ensureMarketsOneProduct => exact ⟨_, rfl, keepsAll_onePr⟩
  | ensureMarketsNoOwnConsumption => exact ⟨_, rfl, keepsAll_own⟩
  | replaceImplicitReferences => exact ⟨_, rfl, keepsAll_mapE fun _ _ h => .references h⟩
  | repairUncertainty => exact ⟨_, rfl, keepsAll_mapE fun _ _ h => .mapNumE (fun o o' h => by rw [repair_frame h]) h⟩
  | fixKnownBadFormulas => exact ⟨_, rfl, keepsAll_known⟩
  | lowercaseParameters => exact ⟨_, rfl, keepsAll_mapE fun _ _ h => .mapNumE (fun o o' h => by cases h; rfl) h⟩
  | fixMathFormulas => exact ⟨_, rfl, keepsAll_mapE fun _ _ h => .mapNumE (fun o o' h => by
      unfold onFormula at h
      split at h
      · cases h; rfl
      · obtain ⟨r, -, h⟩ := bind_eq_ok.mp h
        cases h; rfl) h⟩
  | replaceReservedWords => exact ⟨_, rfl, keepsAll_mapE fun _ _ h => .mapNumE (fun o o' h => by cases h; rfl) h⟩
  | deleteUnparsableFormulas => exact ⟨_, rfl, keepsAll_mapE fun _ _ h => .mapNumE (fun o o' h => by cases h; rfl) h⟩
  | ensureVolumesGiven => exact ⟨_, rfl, keepsAll_volumes⟩
  | addPvToAllocatableByproducts => exact ⟨_, rfl, keepsAll_fill⟩
  | createPvParameters => exact ⟨_, rfl, keepsAll_pvParams _⟩
  | dropRpActivityLinks => exact ⟨_, rfl, keepsAll_dropRp⟩
  | dropZeroAmountActivityLinks => exact ⟨_, rfl, keepsAll_dropZero⟩
  | updateParentChild => exact ⟨_, rfl, keepsAll_parent⟩
  | fix35ActivityLinks => exact ⟨_, rfl, keepsAll_fix35⟩
  | checkActivityLinkValidity => exact ⟨_, rfl, keepsAll_linkCheck⟩
  | addHardLinkedVolumes => exact ⟨_, rfl, keepsAll_hard⟩
  | updateTransformingVolumes => exact ⟨_, rfl, keepsAll_transforming⟩
  | labelAllocationMethod => exact ⟨_, rfl, keepsAll_label⟩
  | labelReferenceProduct => exact ⟨_, rfl, keepsAll_labelRp⟩
  | assignFakePv => exact ⟨_, rfl, keepsAll_fakePv⟩
  | correctPipelineLocation => exact ⟨_, rfl, keepsAll_pipeline⟩
  | relabelGlobalToRow => exact ⟨_, rfl, keepsAll_relabel⟩
  | checkNoRowMarketGroups => exact ⟨_, rfl, keepsAll_rowGroups⟩
  | addUniqueCodes => exact ⟨_, rfl, keepsAll_codes _ _⟩
  | deleteLinksToConstrained => exact ⟨_, rfl, keepsAll_deleteLinks⟩
  | ensureAlternativeProduction => exact ⟨_, rfl, keepsAll_alternative⟩
  | _ => cases hs

/-- A run of such functions. -/
theorem run_keeps (P : PipelineEnv) (l : List Step) (hl : ∀ s ∈ l, s.keepsFlows = true) (data : List Dataset) (out : List Item)
    (h : foldE (fun d (s : Step) => s.run P d) (data.map .ds) l = .ok out) : ∃ r, out = r.map .ds ∧ List.Forall₂ Keeps data r := by
  induction l generalizing data with
  | nil => cases h; exact ⟨data, rfl, keepsList_refl _⟩
  | cons s l ih =>
    simp only [foldE] at h
    obtain ⟨mid, h1, h2⟩ := bind_eq_ok.mp h
    obtain ⟨g, hg, hk⟩ := step_keeps P s (hl s (by simp))
    rw [hg] at h1
    obtain ⟨m, hm, rfl⟩ := onDatasets_map.mp h1
    obtain ⟨r, hr, b1⟩ := ih (fun s hs => hl s (by simp [hs])) m h2
    exact ⟨r, hr, forall₂_trans' (hk _ _ hm) b1 fun _ _ _ => Keeps.trans⟩

end Ocelot
