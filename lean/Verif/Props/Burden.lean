import Verif.Proofs.PipelineElementary
import Verif.Props.Inventory

/-! # C106, C107: no flow is lost or counted twice between an undefined dataset and the datasets of the cut-off model (C106) and of the
consequential model (C107) -/

namespace Ocelot
namespace Spec

/-- The amount that `s` gives for the product of `o`: the production exchange with the id of its reference product. -/
def givenAmount (s o : Dataset) : ℚ :=
  (((production s).filter fun e => (refs o).any fun r => r.id == e.id).map (·.amount)).sum

/-- How often the dataset `o` has to be taken to get as much of its product as `s` gives. -/
def unitsIn (s o : Dataset) : ℚ := givenAmount s o / refAmount o

/-- An activity (not a market or market group) whose exchanges, apart from the consequential ones, have at most one reference
product with a nonzero amount, so that it is not a combined production, and no two production exchanges with the same id. -/
structure OrdinaryActivity (s : Dataset) : Prop where
  notMarket : s.type ≠ .market
  notGroup : s.type ≠ .marketGroup
  one : (liveRefs (attributional s)).length ≤ 1
  ids : ((production (attributional s)).map (·.id)).Nodup

end Spec

open Spec

/-- The amount given for an id. -/
def amountOf (s : Dataset) (i : String) : ℚ := (((production s).filter fun e => i == e.id).map (·.amount)).sum

theorem amountOf_mem {s : Dataset} (hn : ((production s).map (·.id)).Nodup) : ∀ e ∈ production s, amountOf s e.id = e.amount := by
  unfold amountOf
  generalize production s = l at hn
  induction l with
  | nil => intro e he; cases he
  | cons x l ih =>
    rw [List.map_cons, List.nodup_cons] at hn
    intro e he
    rw [List.filter_cons]
    rcases List.mem_cons.mp he with rfl | he
    · have : (l.filter fun y => e.id == y.id) = [] := by
        rw [List.filter_eq_nil_iff]
        intro y hy hq
        exact hn.1 (List.mem_map.mpr ⟨y, hy, (by simpa using hq : e.id = y.id).symm⟩)
      simp [this]
    · have : e.id ≠ x.id := fun hq => hn.1 (List.mem_map.mpr ⟨e, he, hq⟩)
      simp only [beq_iff_eq, this, if_false]
      exact ih hn.2 e he

theorem unitsIn_eq {s o : Dataset} {rp : Exchange} (hr : refs o = [rp]) : unitsIn s o = units (amountOf s) o := by
  unfold unitsIn units givenAmount amountOf
  rw [hr]
  simp

/-- All coded datasets have one product. -/
theorem coded_single {P : PipelineEnv} {data coded : List Dataset} (hs : runSteps P (cutoffBefore ++ [.addUniqueCodes]) data = .ok (coded.map .ds)) :
    ∀ d ∈ coded, ∃ rp, refs d = [rp] := by
  have hlab := coded_labelled P (cutoffBefore.dropLast.dropLast.dropLast.dropLast.dropLast.dropLast) data coded (by
    have : cutoffBefore ++ [.addUniqueCodes] = cutoffBefore.dropLast.dropLast.dropLast.dropLast.dropLast.dropLast ++
        [.labelReferenceProduct, .deleteWhitelistedMarkets, .assignFakePv,
      .correctPipelineLocation, .relabelGlobalToRow, .checkNoRowMarketGroups, .addUniqueCodes] := by decide +kernel
    rw [← this]
    exact hs)
  intro d hd
  obtain ⟨rp, h, -⟩ := hlab.1 d hd
  exact ⟨rp, h⟩

theorem coded_sum {P : PipelineEnv} {data coded : List Dataset} (h : runSteps P (cutoffBefore ++ [.addUniqueCodes]) data = .ok (coded.map .ds))
    {s : Dataset} (hs : s ∈ data) (ho : OrdinaryActivity s) {φ : Functional} (hb : Blind φ)
    (hφ : ∀ e ∈ refs (attributional s), φ .fromTechnosphere e.name e.compartment e.id = 0) :
    ((coded.filter fun d => d.id == s.id).map fun d => bur φ d * unitsIn (attributional s) d).sum = bur φ (attributional s) := by
  rw [← (coded_total h hs ho.notMarket ho.notGroup ho.one (amountOf_mem ho.ids)).2 φ hb hφ, total_filter]
  congr 1
  apply List.map_congr_left
  intro d hd
  obtain ⟨rp, hr⟩ := coded_single h d (List.mem_filter.mp hd).1
  rw [unitsIn_eq hr]

def flowF (g : String → String) (t : ExcType) (n : String) (c : Option (String × String)) : Functional :=
  fun t' m c' _ => if t' = t ∧ g m = n ∧ c' = c then 1 else 0

theorem bur_flowF {t : ExcType} (h1 : t ≠ .referenceProduct) (h2 : t ≠ .byproduct) (h3 : t ≠ .droppedProduct) (g : String → String) (n : String)
    (c : Option (String × String)) (d : Dataset) : bur (flowF g t n c) d = flowTotal (renamed g d) t n c := by
  rw [flowTotal_weigh, weigh_renamed]
  unfold bur weigh
  congr 1
  apply List.map_congr_left
  intro e _
  unfold contrib flowF flowW
  by_cases h : e.type = t ∧ g e.name = n ∧ e.compartment = c
  · have : (isProduction e || e.type == .droppedProduct) = false := by
      unfold isProduction
      rw [h.1]
      simp [h1, h2, h3]
    rw [this]
    simp [h]
  · simp [h]

theorem renamed_id (d : Dataset) : renamed id d = d := by
  unfold renamed
  have : d.refProduct.map id = d.refProduct := by simp
  simp

/-- C106: take an activity of the undefined datasets that is not a combined production, and the datasets that the cut-off model has
made of it before linking, each as often as is needed for the amounts of products that the activity gives. Together, they have
exactly the emissions, resources and inputs of the activity, apart from exchanges for consequential models. (The input of
a treated material, which is a reference product of the activity, is not an input before.) -/
theorem C106_flows (P : PipelineEnv) (data coded : List Dataset) (h : runSteps P (cutoffBefore ++ [.addUniqueCodes]) data = .ok (coded.map .ds))
    (s : Dataset) (hs : s ∈ data) (ho : OrdinaryActivity s) (t : ExcType) (n : String) (c : Option (String × String))
    (ht : t = .fromEnvironment ∨ t = .toEnvironment ∨ t = .fromTechnosphere ∧ ∀ e ∈ refs (attributional s), e.name ≠ n) :
    ((coded.filter fun d => d.id == s.id).map fun d => flowTotal d t n c * unitsIn (attributional s) d).sum = flowTotal (attributional s) t n c := by
  have h1 : t ≠ .referenceProduct := by rcases ht with rfl | rfl | ⟨rfl, -⟩ <;> decide
  have h2 : t ≠ .byproduct := by rcases ht with rfl | rfl | ⟨rfl, -⟩ <;> decide
  have h3 : t ≠ .droppedProduct := by rcases ht with rfl | rfl | ⟨rfl, -⟩ <;> decide
  have key := coded_sum h hs ho (φ := flowF id t n c) (fun m m' c' i => by simp [flowF, Ne.symm h2]) ?_
  · simp only [bur_flowF h1 h2 h3, renamed_id] at key
    exact key
  · intro e he
    unfold flowF
    rw [if_neg]
    rintro ⟨g1, g2, -⟩
    rcases ht with rfl | rfl | ⟨rfl, ht⟩
    · cases g1
    · cases g1
    · exact ht e he g2

/-- C106: the same for any exchange that is not a product, such as wastes and recyclable byproducts, by its id. -/
theorem C106_burden (P : PipelineEnv) (data coded : List Dataset) (h : runSteps P (cutoffBefore ++ [.addUniqueCodes]) data = .ok (coded.map .ds))
    (s : Dataset) (hs : s ∈ data) (ho : OrdinaryActivity s) (k : String) (hk : ∀ e ∈ refs (attributional s), e.id ≠ k) :
    ((coded.filter fun d => d.id == s.id).map fun d => burden d k * unitsIn (attributional s) d).sum = burden (attributional s) k := by
  have hb : ∀ d, bur (fun _ _ _ i => if i = k then 1 else 0) d = burden d k := by
    intro d
    rw [bur_nonproduction]
    unfold burden nonproduction
    rw [List.filter_filter]
    induction d.exchanges with
    | nil => rfl
    | cons e l ih =>
      rw [List.filter_cons, List.filter_cons]
      by_cases hp : isProduction e = true
      · simp [hp, ih]
      · by_cases hi : e.id = k <;> by_cases hd : e.type = .droppedProduct <;> simp [hp, hi, hd, ih, contrib]
  have key := coded_sum h hs ho (φ := fun _ _ _ i => if i = k then 1 else 0) (fun _ _ _ _ => rfl) fun e he => by simp [hk e he]
  simp only [hb] at key
  exact key

/-- C106: the same for the datasets that the cut-off model returns. `res` gives for each dataset made of the activity the
returned dataset with its code. -/
theorem C106_returned (P : PipelineEnv) (data : List Dataset) (out : List Item) (hu : Unlinked data) (hmd : ∀ s, P.md5 s ≠ "")
    (h : runConfig P cutoffConfig data = .ok out) :
    ∃ (g : String → String) (coded result : List Dataset), StripsSuffix g ∧
      runSteps P (cutoffBefore ++ [.addUniqueCodes]) data = .ok (coded.map .ds) ∧ out = result.map .ds ∧
      (RefineryGasSold coded ∨ DistinctInputs coded → ∀ s ∈ data, OrdinaryActivity s → ∀ res : Dataset → Dataset,
        (∀ d ∈ coded, d.id = s.id → res d ∈ result ∧ (res d).code = d.code) → ∀ t n c, t = .fromEnvironment ∨ t = .toEnvironment →
          ((coded.filter fun d => d.id == s.id).map fun d => flowTotal (res d) t n c * (givenAmount (attributional s) d / refAmount (res d))).sum =
            flowTotal (renamed g (attributional s)) t n c) := by
  obtain ⟨coded, result, h1, h2, h3, -, hn, h5⟩ := cutoff_through hu hmd h
  refine ⟨stripRc, coded, result, stripRc_strips, h1, h2, fun hg s hs ho res hres t n c ht => ?_⟩
  have t1 : t ≠ .referenceProduct := by rcases ht with rfl | rfl <;> decide
  have t2 : t ≠ .byproduct := by rcases ht with rfl | rfl <;> decide
  have t3 : t ≠ .droppedProduct := by rcases ht with rfl | rfl <;> decide
  have t4 : t ≠ .fromTechnosphere := by rcases ht with rfl | rfl <;> decide
  rw [← bur_flowF t1 t2 t3, ← coded_sum h1 hs ho (φ := flowF stripRc t n c) (fun m m' c' i => by simp [flowF, Ne.symm t2])
    (fun e he => by simp [flowF, Ne.symm t4])]
  congr 1
  apply List.map_congr_left
  intro d hd
  obtain ⟨hd, hi⟩ := List.mem_filter.mp hd
  have hi : d.id = s.id := by simpa using hi
  obtain ⟨hr, hc⟩ := hres d hd hi
  obtain ⟨d0, hd0, x, hT, hF, -⟩ := h5 true (hg.imp id fun h => ⟨rfl, h⟩) (res d) hr
  have : d0 = d := List.inj_on_of_nodup_map hn hd0 hd (by rw [← hT.code, ← hF.code, hc])
  subst this
  obtain ⟨m1, m2⟩ := (coded_total h1 hs ho.notMarket ho.notGroup ho.one (amountOf_mem ho.ids)).1 d0 hd hi
  obtain ⟨rp, rp', k, σ, σ', f1, f2, f3, f4, f5, f6, f7, f8, f9⟩ := hF.weigh
  obtain ⟨rfl, rfl⟩ := f6 (by rw [hT.type]; exact m1)
  obtain ⟨rp0, l1, -⟩ := h3 d0 hd
  have hamt : rp.amount = rp0.amount := by
    have := hT.refs
    unfold refPairs at this
    rw [f1, l1] at this
    simp at this
    exact this.2
  have hflow : flowTotal (res d0) t n c = k * bur (flowF stripRc t n c) d0 := by
    rw [flowTotal_weigh, (f9 _ (flowW_balanced t2 t4 n c)).2.2 rfl, bur_flowF t1 t2 t3, flowTotal_weigh, weigh_renamed, one_mul]
    congr 1
    rcases hT.weigh with ⟨g1, -⟩ | ⟨g1, -⟩
    · exact g1 _
    · rcases g1 with g1 | g1
      · exact absurd g1 m1
      · exact absurd g1 m2
  have hra : refAmount (res d0) = k * refAmount d0 := by
    unfold refAmount
    rw [f2, l1]
    simp [f8, hamt]
  rw [hflow, hra]
  unfold unitsIn
  have : k ≠ 0 := ne_of_gt f3
  rw [mul_comm k (refAmount d0), ← div_div]
  field_simp

/-! ## The consequential model -/

theorem flowTotal_same {s d : Dataset} (h : SameElem s d) {t : ExcType} (ht : t = .fromEnvironment ∨ t = .toEnvironment) (n : String)
    (c : Option (String × String)) : flowTotal d t n c = flowTotal s t n c := by
  rw [flowTotal_weigh, flowTotal_weigh]
  unfold weigh
  refine h.flows _ ?_ ?_ ?_
  · intro e e' hk
    simp only [hk.type, hk.name, hk.compartment, hk.amount]
  · intro e he
    unfold flowW
    have : e.type ≠ t := by
      rintro rfl
      unfold isElementary at he
      rcases ht with ht | ht <;> simp [ht] at he
    simp [this]
  · intro e he
    simp [he]

/-- C107: the consequential model makes one dataset of an activity with a single reference product, and it has the emissions and
resources of the activity. (Conditional exchanges are assumed not to be emissions or resources: they are for constrained markets.) -/
theorem C107_flows (P : PipelineEnv) (data coded : List Dataset) (h : runSteps P (consequentialBefore ++ [.addUniqueCodes]) data = .ok (coded.map .ds))
    (hc : ∀ d ∈ data, ∀ e ∈ d.exchanges, e.conditional = some true → e.type ≠ .fromEnvironment ∧ e.type ≠ .toEnvironment)
    (s : Dataset) (hs : s ∈ data) (hm : s.type ≠ .market) (hr : (refs s).length ≤ 1) :
    ∃ d, (coded.filter fun d => d.id == s.id) = [d] ∧ d.type = s.type ∧
      ∀ t n c, t = .fromEnvironment ∨ t = .toEnvironment → flowTotal d t n c = flowTotal s t n c := by
  obtain ⟨d, hd, hsd⟩ := consequential_elem h (fun d hd e he hcond => by
    obtain ⟨h1, h2⟩ := hc d hd e he hcond
    simp [isElementary, h1, h2]) hs hm hr
  exact ⟨d, hd, hsd.type, fun t n c ht => flowTotal_same hsd ht n c⟩

/-- C107: and so does the dataset that is returned, with all flows divided by the amount of the product. -/
theorem C107_returned (P : PipelineEnv) (data : List Dataset) (out : List Item) (hu : Unlinked data) (hmd : ∀ s, P.md5 s ≠ "")
    (hc : ∀ d ∈ data, ∀ e ∈ d.exchanges, e.conditional = some true → e.type ≠ .fromEnvironment ∧ e.type ≠ .toEnvironment)
    (h : runConfig P consequentialConfig data = .ok out) :
    ∃ coded result : List Dataset, runSteps P (consequentialBefore ++ [.addUniqueCodes]) data = .ok (coded.map .ds) ∧ out = result.map .ds ∧
      (RefineryGasSold coded ∨ DistinctInputs coded → ∀ s ∈ data, s.type ≠ .market → (refs s).length ≤ 1 →
        ∃ d ∈ coded, ∃ d' ∈ result, d.id = s.id ∧ d'.code = d.code ∧ ∃ k : ℚ, 0 < k ∧ refAmount d' = k * refAmount d ∧
          ∀ t n c, t = .fromEnvironment ∨ t = .toEnvironment → flowTotal d' t n c = k * flowTotal s t n c) := by
  obtain ⟨coded, result, h1, h2, h3, hn, h4, h5⟩ := consequential_through hu hmd h
  refine ⟨coded, result, h1, h2, fun hg s hs hm hr => ?_⟩
  obtain ⟨d, hd, -, hf⟩ := C107_flows P data coded h1 hc s hs hm hr
  have hdm0 : d ∈ coded.filter fun d => d.id == s.id := by rw [hd]; simp
  have hdm := List.mem_filter.mp hdm0
  obtain ⟨d', hd', hcode⟩ := h4 d hdm.1
  obtain ⟨d0, hd0, x, hT, hS, -, k, hk, hx, hF⟩ := h5 true (hg.imp id fun h => ⟨rfl, h⟩) d' hd'
  have hxc : d'.code = x.code := (congrArg Dataset.code hx).trans rfl
  have : d0 = d := List.inj_on_of_nodup_map hn hd0 hdm.1 (by rw [← hT.code, ← hcode, hxc])
  subst this
  refine ⟨d0, hd0, d', hd', by simpa using hdm.2, hcode, k, hk, ?_, ?_⟩
  · have e1 : refAmount d' = k * refAmount x := by
      unfold refAmount refs
      rw [← forall₂_map_eq' (p := fun e : Exchange => e.amount * k) (forall₂_filter_rel (p := fun e : Exchange => e.type == .referenceProduct)
        (q := fun e => e.type == .referenceProduct) hF fun a b hab => by rw [hab.type]) fun a b hab => hab.amount.symm, sum_map_mul, mul_comm]
    have e2 : refAmount x = refAmount d0 := by
      have := congrArg (fun l => (l.map Prod.snd).sum) hT.refs
      unfold refPairs at this
      simp only [List.map_map] at this
      exact this
    rw [e1, e2]
  · intro t n c ht
    rw [← hf t n c ht]
    have t4 : t ≠ .fromTechnosphere := by rcases ht with rfl | rfl <;> decide
    rw [flowTotal_weigh, flowTotal_weigh]
    have e1 : weigh (flowW t n c) d'.exchanges = k * weigh (flowW t n c) x.exchanges := by
      unfold weigh
      rw [← forall₂_map_eq' (p := fun e : Exchange => flowW t n c e.type e.name e.compartment * e.amount * k) hF fun a b hab => by
        rw [hab.type, hab.name, hab.amount, show b.compartment = a.compartment by rw [hab]]; ring]
      rw [sum_map_mul]
      ring
    rw [e1]
    congr 1
    rcases hT.weigh with ⟨g1, -⟩ | ⟨-, n', a, -, -, g4⟩
    · exact g1 _
    · rw [g4 _ (by simp)]
      simp [flowW, Ne.symm t4]

/-! ## Example -/

/-- A mine with two products, a recyclable byproduct, emissions, and an emission for consequential models only. -/
def exampleMine : Dataset := { name := "mine", location := "RER", id := "m", filepath := "m.spold", technologyLevel := some "current", startDate := some "2000", endDate := some "2010", exchanges := [{ name := "copper", id := "1", type := .referenceProduct, cls := some .allocatable, amount := 2, pv := some { amount := 100 }, properties := [{ name := "price", amount := 3 }] }, { name := "gold", id := "2", type := .byproduct, cls := some .allocatable, amount := 1, pv := some { amount := 50 }, properties := [{ name := "price", amount := 2 }] }, { name := "scrap", id := "3", type := .byproduct, cls := some .recyclable, amount := 3 }, { name := "carbon dioxide", id := "4", type := .toEnvironment, amount := 16, compartment := some ("air", "urban") }, { name := "carbon dioxide", id := "5", type := .toEnvironment, amount := 8, compartment := some ("air", "urban"), properties := [{ name := "consequential", amount := 1 }] }] }

def exampleMines : List Dataset := exampleMine :: exampleInput

/-- The hypotheses are met by a mine that becomes three datasets (for copper, for gold, and of recycled content); the emission
is 16 in total: 6 per unit of copper and 4 per unit of gold. -/
example : (runConfig exampleP' cutoffConfig exampleMines).toOption.isSome ∧ Unlinked exampleMines ∧ DistinctInputs (codedOf exampleP' exampleMines) ∧
    ((codedOf exampleP' exampleMines).filter fun d => d.id == "m").map (fun d => (d.name, refAmount d, flowTotal d .toEnvironment "carbon dioxide" (some ("air", "urban")), unitsIn (attributional exampleMine) d)) =
      [("mine", 1, 6, 2), ("mine", 1, 4, 1), ("scrap, Recycled Content cut-off", 1, 0, 0)] ∧
    flowTotal (attributional exampleMine) .toEnvironment "carbon dioxide" (some ("air", "urban")) = 16 ∧ flowTotal exampleMine .toEnvironment "carbon dioxide" (some ("air", "urban")) = 24 := by
  unfold Unlinked DistinctInputs; decide +kernel

example : OrdinaryActivity exampleMine := ⟨by decide +kernel, by decide +kernel, by decide +kernel, by decide +kernel⟩

/-- C107: its hypotheses are met by the steel production, whose iron is 6 before and after, and 3 per unit of steel. -/
example : (runConfig exampleP' consequentialConfig exampleInput).toOption.isSome ∧ DistinctInputs (codedOf' exampleP' exampleInput) ∧
    (∀ d ∈ exampleInput, ∀ e ∈ d.exchanges, e.conditional = some true → e.type ≠ .fromEnvironment ∧ e.type ≠ .toEnvironment) ∧
    ((codedOf' exampleP' exampleInput).filter fun d => d.id == "a").map (fun d => (d.name, refAmount d, flowTotal d .fromEnvironment "iron" none)) = [("steel production", 2, 6)] ∧
    (runConfig exampleP' consequentialConfig exampleInput).toOption.map (fun l => l.map fun i => match i with | .ds d => flowTotal d .fromEnvironment "iron" none | .str _ => 0) = some [3, 0, 0] := by
  unfold DistinctInputs; decide +kernel

end Ocelot
