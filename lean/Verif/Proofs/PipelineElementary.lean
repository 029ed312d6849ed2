import Verif.Proofs.PipelineAllocated

/-! The elementary flows in the consequential model before `add_unique_codes`. -/

namespace Ocelot
open Spec

/-- A flow from or to the environment. -/
def isElementary (e : Exchange) : Bool := e.type == .fromEnvironment || e.type == .toEnvironment

/-- Elementary flows are the same. -/
structure ElemExc (e e' : Exchange) : Prop where
  elem : isElementary e' = isElementary e
  same : isElementary e = true → KeptExc e e'

theorem KeptExc.elem {e e' : Exchange} (h : KeptExc e e') : ElemExc e e' := ⟨by unfold isElementary; rw [h.type], fun _ => h⟩

theorem ElemExc.refl (e : Exchange) : ElemExc e e := (KeptExc.refl e).elem

theorem ElemExc.trans {a b c : Exchange} (h : ElemExc a b) (h' : ElemExc b c) : ElemExc a c :=
  ⟨h'.elem.trans h.elem, fun ha => (h.same ha).trans (h'.same (h.elem.trans ha))⟩

theorem ElemExc.other {a b : Exchange} (ha : isElementary a = false) (hb : isElementary b = false) : ElemExc a b :=
  ⟨hb.trans ha.symm, fun h => by rw [ha] at h; cases h⟩

/-- Same dataset, same elementary flows. -/
structure ElemKept (d d' : Dataset) : Prop where
  id : d'.id = d.id
  type : d'.type = d.type
  exchanges : List.Forall₂ ElemExc d.exchanges d'.exchanges

theorem Keeps.elem {d d' : Dataset} (h : Keeps d d') : ElemKept d d' := ⟨h.id, h.type, h.exchanges.imp fun _ _ => KeptExc.elem⟩

theorem ElemKept.refl (d : Dataset) : ElemKept d d := (Keeps.refl d).elem

theorem ElemKept.trans {a b c : Dataset} (h : ElemKept a b) (h' : ElemKept b c) : ElemKept a c :=
  ⟨h'.id.trans h.id, h'.type.trans h.type, forall₂_trans' h.exchanges h'.exchanges fun _ _ _ => ElemExc.trans⟩

theorem swapRoles_elem {name : String} {d d' : Dataset} (h : swapRoles name d = .ok d') : ElemKept d d' := by
  unfold swapRoles at h
  obtain ⟨_, -, h⟩ := bind_eq_ok.mp h
  simp only at h
  split at h
  · rename_i x hx
    split at h
    · rename_i ht
      cases h
      refine ⟨rfl, rfl, ?_⟩
      simp only
      rw [List.map_map]
      refine List.forall₂_map_right_iff.mpr (List.forall₂_same.mpr fun e he => ?_)
      simp only [Function.comp]
      by_cases hr : e.type = .referenceProduct
      · rw [if_pos hr]
        split <;> exact .other (by simp [isElementary, hr]) (by simp [isElementary, toInput, toProduct, flipSign])
      · rw [if_neg hr]
        split
        · rename_i hn
          have : e ∈ [x] := by
            rw [← hx, List.mem_filter]
            exact ⟨List.mem_map.mpr ⟨e, he, if_neg hr⟩, by simpa using hn⟩
          rw [List.mem_singleton] at this
          subst this
          exact .other (by simp [isElementary, ht]) (by simp [isElementary, toProduct, flipSign])
        · exact .refl e
    · cases h
  · cases h

theorem forall₂_modify_right {α β : Type} {R : α → β → Prop} {l : List α} {r : List β} (h : List.Forall₂ R l r) (i : ℕ) {g : β → β}
    (hg : ∀ a b, l[i]? = some a → R a b → R a (g b)) : List.Forall₂ R l (r.modify i g) := by
  induction h generalizing i with
  | nil => simp
  | @cons a b l r hab hr ih =>
    cases i with
    | zero => exact .cons (hg a b rfl hab) hr
    | succ i => exact .cons hab (ih i fun x y hx => hg x y (by simpa using hx))

theorem constrained_elem {data out : List Dataset} (h : handleConstrainedMarkets data = .ok out)
    (hc : ∀ d ∈ data, ∀ e ∈ d.exchanges, e.conditional = some true → isElementary e = false) : List.Forall₂ ElemKept data out := by
  unfold handleConstrainedMarkets at h
  refine foldE_inv (I := fun _ st => List.Forall₂ ElemKept data st) h (List.forall₂_same.mpr fun d _ => .refl d) ?_
  intro pre p st st' hp hst hstep
  unfold constrainedStep at hstep
  obtain ⟨link, -, hstep⟩ := bind_eq_ok.mp hstep
  have h1 : List.Forall₂ ElemKept data (modifyExchange p.1 p.2.1 toInput st) := by
    unfold modifyExchange
    refine forall₂_modify_right hst p.1 ?_
    intro d d' hd hdd
    refine ⟨hdd.id, hdd.type, forall₂_modify_right hdd.exchanges p.2.1 ?_⟩
    intro e e' he hee
    have : isElementary e = false := by
      unfold constrainedExchanges at hp
      obtain ⟨⟨x, i⟩, hx, hp⟩ := List.mem_flatMap.mp hp
      obtain ⟨⟨y, j⟩, hy, hp⟩ := List.mem_filterMap.mp hp
      simp only at hp
      split at hp
      · rename_i hcond
        cases hp
        have g1 := List.mem_zipIdx_iff_getElem?.mp hx
        have g2 := List.mem_zipIdx_iff_getElem?.mp hy
        simp only at g1 g2 hd he
        rw [g1] at hd
        cases hd
        rw [g2] at he
        cases he
        exact hc d (List.mem_of_getElem? g1) e (List.mem_of_getElem? g2) hcond
      · cases hp
    exact .other this (by simp [isElementary, toInput, flipSign])
  obtain ⟨l₁, d, x, l₂, hl, -, hx, rfl⟩ := modifyLast_split hstep
  rw [hl] at h1
  refine forall₂_trans' h1 (S := ElemKept) ?_ fun _ _ _ => ElemKept.trans
  exact List.rel_append (List.forall₂_same.mpr fun d _ => .refl d) (.cons (swapRoles_elem hx) (List.forall₂_same.mpr fun d _ => .refl d))

/-! ## The run -/

/-- The dataset has the type and the elementary flows of `s`. -/
structure SameElem (s d : Dataset) : Prop where
  type : d.type = s.type
  flows : ∀ w : Exchange → ℚ, (∀ e e', KeptExc e e' → w e' = w e) → (∀ e, isElementary e = false → w e = 0) → (∀ e, e.amount = 0 → w e = 0) →
    (d.exchanges.map w).sum = (s.exchanges.map w).sum

theorem SameElem.refl (d : Dataset) : SameElem d d := ⟨rfl, fun _ _ _ _ => rfl⟩

theorem SameElem.trans {a b c : Dataset} (h : SameElem a b) (h' : SameElem b c) : SameElem a c :=
  ⟨h'.type.trans h.type, fun w h1 h2 h3 => (h'.flows w h1 h2 h3).trans (h.flows w h1 h2 h3)⟩

theorem ElemKept.same {d d' : Dataset} (h : ElemKept d d') : SameElem d d' := by
  refine ⟨h.type, fun w h1 h2 _ => ?_⟩
  rw [← forall₂_map_eq' h.exchanges]
  intro a b hab
  by_cases ha : isElementary a = true
  · exact (h1 a b (hab.same ha)).symm
  · have ha : isElementary a = false := by simpa using ha
    rw [h2 a ha, h2 b (hab.elem.trans ha)]

theorem specific_same (d : Dataset) : SameElem d (fixSpecificIssues d) := by
  rw [fixSpecificIssues_eq]
  refine ⟨rfl, fun w _ _ h3 => ?_⟩
  refine sum_filter_zero fun e he => h3 e ?_
  unfold refineryFilter at he
  split at he
  · simp at he
    exact he.2
  · cases he

/-- There is one dataset with the id of `s`, and it has its elementary flows. -/
def OneOf (s : Dataset) (l : List Dataset) : Prop := ∃ d, (l.filter fun d => d.id == s.id) = [d] ∧ SameElem s d

theorem OneOf.step {s : Dataset} {l r : List Dataset} (h : OneOf s l) (hr : List.Forall₂ (fun d d' => d'.id = d.id ∧ SameElem d d') l r) : OneOf s r := by
  obtain ⟨d, hd, hsd⟩ := h
  have := forall₂_filter_rel (p := fun d => d.id == s.id) (q := fun d => d.id == s.id) hr fun a b hab => by rw [hab.1]
  rw [hd] at this
  rcases hf : r.filter (fun d => d.id == s.id) with _ | ⟨d', l'⟩
  · rw [hf] at this; cases this
  · rw [hf] at this
    cases this with
    | cons h1 h2 =>
      cases h2
      exact ⟨d', hf, hsd.trans h1.2⟩

theorem OneOf.of_mem {s : Dataset} {l : List Dataset} (hs : s ∈ l) (hn : (l.map (·.id)).Nodup) : OneOf s l := by
  refine ⟨s, ?_, .refl s⟩
  induction l with
  | nil => cases hs
  | cons d l ih =>
    rw [List.map_cons, List.nodup_cons] at hn
    rw [List.filter_cons]
    rcases List.mem_cons.mp hs with rfl | hs
    · have : (l.filter fun d => d.id == s.id) = [] := by
        rw [List.filter_eq_nil_iff]
        intro y hy hq
        exact hn.1 (List.mem_map.mpr ⟨y, hy, by simpa using hq⟩)
      simp [this]
    · have : d.id ≠ s.id := fun he => hn.1 (List.mem_map.mpr ⟨s, hs, he.symm⟩)
      simp only [beq_iff_eq, this, if_false]
      exact ih hs hn.2

/-- Where exchanges of the parts of a combined production come from. -/
theorem combined_old {M : MathEnv} {F : FormulaEnv} {ord : Dataset → Except Err (List String)} {d d' : Dataset} {out : List Dataset}
    (h : combinedProduction M F ord d = .ok out) (hd : d' ∈ out) {e' : Exchange} (he' : e' ∈ d'.exchanges) :
    ∃ e ∈ d.exchanges, e'.conditional = e.conditional ∧ (isElementary e' = true → isElementary e = true) := by
  unfold combinedProduction at h
  obtain ⟨x, hx, hr⟩ := mapE_mem h hd
  unfold recalculateO at hr
  obtain ⟨o, -, hr⟩ := bind_eq_ok.mp hr
  unfold recalculate at hr
  obtain ⟨σ, -, hr⟩ := bind_eq_ok.mp hr
  obtain ⟨ds', h2, hr⟩ := bind_eq_ok.mp hr
  have key : ∀ {f : NumObj → Except Err NumObj} {a b : Dataset}, a.mapNumE f = .ok b → ∀ y ∈ b.exchanges, ∃ z ∈ a.exchanges,
      y.conditional = z.conditional ∧ y.type = z.type := by
    intro f a b hab y hy
    obtain ⟨-, -, hex, -⟩ := Dataset.mapNumE_inv hab
    obtain ⟨z, hz, hzy⟩ := forall₂_mem_right hex hy
    have := (Exchange.mapNumE_frame hzy).1.1
    exact ⟨z, hz, by rw [this], by rw [this]⟩
  obtain ⟨y, hy, g1, g2⟩ := key hr e' he'
  obtain ⟨z, hz, g3, g4⟩ := key h2 y hy
  have hsub : ∃ e ∈ d.exchanges, z.conditional = e.conditional ∧ (isElementary z = true → isElementary e = true) := by
    unfold subdivided at hz
    simp only [List.mem_append, List.mem_singleton, List.mem_map, List.mem_filter] at hz
    rcases hz with (rfl | ⟨w, hw, rfl⟩) | hw
    · exact ⟨x, (List.mem_filter.mp hx).1, rfl, fun h => by simpa [isElementary, selectedProduct] using h⟩
    · exact ⟨w, hw.1, rfl, fun h => by simp [isElementary, nonreferenceProduct] at h⟩
    · exact ⟨z, hw.1, rfl, id⟩
  obtain ⟨e, he, g5, g6⟩ := hsub
  refine ⟨e, he, by rw [g1, g3, g5], fun h => g6 ?_⟩
  unfold isElementary at h ⊢
  rw [← g4, ← g2]
  exact h

/-- No elementary flow is conditional. -/
def PlainElem (l : List Dataset) : Prop := ∀ d ∈ l, ∀ e ∈ d.exchanges, e.conditional = some true → isElementary e = false

theorem PlainElem.keeps {l r : List Dataset} (h : PlainElem l) (hr : List.Forall₂ Keeps l r) : PlainElem r := by
  intro d' hd' e' he' hc
  obtain ⟨d, hd, hk⟩ := forall₂_mem_right hr hd'
  obtain ⟨e, he, hee⟩ := forall₂_mem_right hk.exchanges he'
  have := h d hd e he (by rw [← hee.conditional]; exact hc)
  rw [← this]
  unfold isElementary
  rw [hee.type]

theorem consequentialBefore_split : consequentialBefore ++ [.addUniqueCodes] =
    ([.ensureIdsAreUnique, .copyOriginalExchangeId, .variableNamesAreUnique, .ensureMarketsOneProduct, .ensureMarketsNoOwnConsumption] ++
    .fixSpecificIssues :: ([.replaceImplicitReferences, .repairUncertainty, .fixKnownBadFormulas, .lowercaseParameters, .fixMathFormulas,
    .replaceReservedWords, .deleteUnparsableFormulas, .ensureVolumesGiven, .addPvToAllocatableByproducts, .createPvParameters, .dropZeroAmountActivityLinks] ++
    .splitCombinedProduction :: ([.deleteLinksToConstrained] ++ .handleConstrainedMarkets ::
    ([.ensureAlternativeProduction, .labelReferenceProduct] ++ .deleteWhitelistedMarkets ::
    [.assignFakePv, .relabelGlobalToRow, .addUniqueCodes])))) := by decide +kernel

theorem keeps_step {l r : List Dataset} (h : List.Forall₂ Keeps l r) : List.Forall₂ (fun d d' => d'.id = d.id ∧ SameElem d d') l r :=
  h.imp fun _ _ h => ⟨h.id, h.elem.same⟩

theorem flatten_filter {i : String} {l : List Dataset} {bs : List (List Dataset)}
    (h : List.Forall₂ (fun x b => (b.filter fun d : Dataset => d.id == i) = if x.id = i then [x] else []) l bs) :
    (bs.flatten.filter fun d => d.id == i) = l.filter fun d => d.id == i := by
  induction h with
  | nil => rfl
  | @cons x b l r hxb _ ih =>
    rw [List.flatten_cons, List.filter_append, ih, hxb, List.filter_cons]
    by_cases hi : x.id = i <;> simp [hi]

theorem consequential_elem {P : PipelineEnv} {data coded : List Dataset} (h : runSteps P (consequentialBefore ++ [.addUniqueCodes]) data = .ok (coded.map .ds))
    (hc : PlainElem data) {s : Dataset} (hs : s ∈ data) (hm : s.type ≠ .market) (hr : (refs s).length ≤ 1) : OneOf s coded := by
  unfold runSteps at h
  rw [consequentialBefore_split] at h
  obtain ⟨m1, k1, h1⟩ := foldE_split.mp h
  obtain ⟨d1, rfl, K1⟩ := run_keeps P _ (by decide) data m1 k1
  have hn : (data.map (·.id)).Nodup := by
    simp only [foldE] at k1
    obtain ⟨x, hx, -⟩ := bind_eq_ok.mp k1
    obtain ⟨y, hy, -⟩ := onDatasets_map.mp hx
    exact ids_nodup hy
  simp only [foldE] at h1
  obtain ⟨m2, k2, h2⟩ := bind_eq_ok.mp h1
  obtain ⟨d2, hd2, rfl⟩ := onDatasets_map.mp k2
  cases hd2
  obtain ⟨m3, k3, h3⟩ := foldE_split.mp h2
  obtain ⟨d3, rfl, K3⟩ := run_keeps P _ (by decide) _ m3 k3
  simp only [foldE] at h3
  obtain ⟨m4, k4, h4⟩ := bind_eq_ok.mp h3
  obtain ⟨d4, hd4, rfl⟩ := onDatasets_map.mp k4
  obtain ⟨m5, k5, h5⟩ := foldE_split.mp h4
  obtain ⟨d5, rfl, K5⟩ := run_keeps P _ (by decide) _ m5 k5
  simp only [foldE] at h5
  obtain ⟨m6, k6, h6⟩ := bind_eq_ok.mp h5
  obtain ⟨d6, hd6, rfl⟩ := onDatasets_map.mp k6
  obtain ⟨m7, k7, h7⟩ := foldE_split.mp h6
  obtain ⟨d7, rfl, K7⟩ := run_keeps P _ (by decide) _ m7 k7
  simp only [foldE] at h7
  obtain ⟨m8, k8, h8⟩ := bind_eq_ok.mp h7
  obtain ⟨d8, hd8, rfl⟩ := onDatasets_map.mp k8
  unfold deleteWhitelistedMarkets at hd8
  obtain ⟨_, -, hd8⟩ := bind_eq_ok.mp hd8
  cases hd8
  obtain ⟨r, hr9, K9⟩ := run_keeps P [.assignFakePv, .relabelGlobalToRow, .addUniqueCodes] (by decide) _ _ h8
  have : coded = r := List.map_injective_iff.mpr (fun x y hxy => by cases hxy; rfl) hr9
  subst this
  -- the chain up to the split
  have c3 : PlainElem d3 := by
    refine PlainElem.keeps ?_ K3
    intro d hd e he
    obtain ⟨x, hx, rfl⟩ := List.mem_map.mp hd
    rw [fixSpecificIssues_eq] at he
    exact hc.keeps K1 x hx e (List.mem_filter.mp he).1
  have o1 := (OneOf.of_mem hs hn).step (keeps_step K1)
  have hsp : List.Forall₂ (fun d d' => d'.id = d.id ∧ SameElem d d') d1 (d1.map fixSpecificIssues) :=
    List.forall₂_map_right_iff.mpr (List.forall₂_same.mpr fun d _ => ⟨by rw [fixSpecificIssues_eq], specific_same d⟩)
  have o3 := (o1.step hsp).step (keeps_step K3)
  have r3 : ∀ d ∈ d3, d.id = s.id → multiRp d = false := by
    intro d hd hi
    obtain ⟨x, hx, hxd⟩ := forall₂_mem_right K3 hd
    obtain ⟨y, hy, rfl⟩ := List.mem_map.mp hx
    obtain ⟨z, hz, hzy⟩ := forall₂_mem_right K1 hy
    have hz' : z = s := List.inj_on_of_nodup_map hn hz hs (by rw [← hi, hxd.id, fixSpecificIssues_eq, hzy.id])
    subst hz'
    have e1 := hxd.refs.length_eq
    have e2 := hzy.refs.length_eq
    have e3 : (refs (fixSpecificIssues y)).length ≤ (refs y).length := by
      rw [fixSpecificIssues_eq]
      unfold refs
      exact (List.filter_sublist.filter _).length_le
    unfold multiRp
    have : (referenceProducts d).length ≤ 1 := by
      show (refs d).length ≤ 1
      omega
    simpa using this
  -- the split
  unfold wrapFiltered at hd4
  obtain ⟨bs, hbs, rfl⟩ := flatMapE_ok_iff.mp hd4
  have hF := forall₂_with (mapE_ok_iff.mp hbs)
  have c4 : PlainElem bs.flatten := by
    intro d' hd' e' he' hcond
    obtain ⟨b, hb, hdb⟩ := List.mem_flatten.mp hd'
    obtain ⟨d, hd, -, hx⟩ := forall₂_mem_right hF hb
    simp only [ebind_ok] at hx
    split at hx
    · obtain ⟨e, he, g1, g2⟩ := combined_old hx hdb he'
      have := c3 d hd e he (by rw [← g1]; exact hcond)
      by_contra hne
      have := g2 (by simpa using hne)
      simp_all
    · cases hx
      rw [List.mem_singleton.mp hdb] at he'
      exact c3 d hd e' he' hcond
  have o4 : OneOf s bs.flatten := by
    obtain ⟨d, hd, hsd⟩ := o3
    refine ⟨d, ?_, hsd⟩
    rw [← hd]
    have : List.Forall₂ (fun x b => (b.filter fun d : Dataset => d.id == s.id) = if x.id = s.id then [x] else []) d3 bs := by
      refine hF.imp ?_
      rintro x b ⟨hx, hb⟩
      simp only [ebind_ok] at hb
      by_cases hi : x.id = s.id
      · rw [r3 x hx hi] at hb
        cases hb
        simp [hi]
      · rw [if_neg hi, List.filter_eq_nil_iff]
        intro y hy
        have : y.id = x.id := by
          split at hb
          · exact (From.combined hb hy).id
          · cases hb
            rw [List.mem_singleton.mp hy]
        simpa [this] using hi
    exact flatten_filter this
  have o5 := o4.step (keeps_step K5)
  have o6 := o5.step ((constrained_elem hd6 (c4.keeps K5)).imp fun _ _ h => ⟨h.id, h.same⟩)
  have o7 := o6.step (keeps_step K7)
  have o8 : OneOf s (d7.filter fun d => !isWhitelisted d) := by
    obtain ⟨d, hd, hsd⟩ := o7
    refine ⟨d, ?_, hsd⟩
    rw [List.filter_comm, hd]
    have : isWhitelisted d = false := by
      unfold isWhitelisted
      simp [hsd.type, hm]
    simp [this]
  exact o8.step (keeps_step K9)

end Ocelot
