import Verif.Props.Combined

/-! # Properties C26, C27: the whole cut-off allocation step -/

set_option linter.unusedSimpArgs false

namespace Ocelot
open Spec

namespace Spec

/-- What each allocation method makes of a dataset. -/
inductive MethodResult (M : MathEnv) (F : FormulaEnv) (ord : Dataset → Except Err (List String)) (d : Dataset) :
    String → List Dataset → Prop
  | single : MethodResult M F ord d "single product" [d]
  | group : SingleOutput d → MethodResult M F ord d "market group" [d]
  | unconstrained : SingleOutput d → MethodResult M F ord d "unconstrained market" [d]
  | economic {outs} : economicAllocation M d = .ok outs → MethodResult M F ord d "economic" outs
  | recycling {outs} : recyclingAllocation M d = .ok outs → MethodResult M F ord d "recycling" outs
  | waste {outs} : wasteTreatmentAllocation M d = .ok outs → MethodResult M F ord d "waste treatment" outs
  | without {outs} : combinedWithoutProducts M F ord d = .ok outs →
      MethodResult M F ord d "combined production without products" outs
  | combined {outs} : combinedProduction M F ord d = .ok outs → MethodResult M F ord d "combined production" outs
  | withBy {outs} : combinedWithByproducts M F ord d = .ok outs →
      MethodResult M F ord d "combined production with byproducts" outs

theorem Method.single_inv {d : Dataset} (h : Method d "single product") : OneProduct d := by
  generalize hm : "single product" = m at h
  cases h <;> simp_all

theorem Method.combined_inv {d : Dataset} (h : Method d "combined production") : ¬ HasLiveByproduct d := by
  generalize hm : "combined production" = m at h
  cases h <;> simp_all

theorem MethodResult.single_inv {M : MathEnv} {F : FormulaEnv} {ord : Dataset → Except Err (List String)} {d : Dataset}
    {outs : List Dataset} (h : MethodResult M F ord d "single product" outs) : outs = [d] := by
  generalize hm : "single product" = m at h
  cases h <;> simp_all

theorem MethodResult.combined_inv {M : MathEnv} {F : FormulaEnv} {ord : Dataset → Except Err (List String)} {d : Dataset}
    {outs : List Dataset} (h : MethodResult M F ord d "combined production" outs) :
    combinedProduction M F ord d = .ok outs := by
  generalize hm : "combined production" = m at h
  cases h <;> simp_all

/-- `d` with the allocation method label `l`. -/
def labelled (l : Option String) (d : Dataset) : Dataset := { d with allocationMethod := l }

end Spec

section Run
variable {M : MathEnv} {F : FormulaEnv} {ord : Dataset → Except Err (List String)}

theorem flatMapE_append_ok {α β : Type} {f : α → Except Err (List β)} {a b : List α} {r : List β}
    (h : flatMapE f (a ++ b) = .ok r) :
    ∃ ra rb, flatMapE f a = .ok ra ∧ flatMapE f b = .ok rb ∧ r = ra ++ rb := by
  obtain ⟨bs, h1, rfl⟩ := flatMapE_ok_iff.mp h
  obtain ⟨r1, r2, h2, h3, rfl⟩ := mapE_append.mp h1
  exact ⟨_, _, flatMapE_ok_iff.mpr ⟨_, h2, rfl⟩, flatMapE_ok_iff.mpr ⟨_, h3, rfl⟩, by simp⟩

theorem runMethods_append {ls : List String} {a b r : List Item} (h : runMethods M F ord ls (a ++ b) = .ok r) :
    ∃ ra rb, runMethods M F ord ls a = .ok ra ∧ runMethods M F ord ls b = .ok rb ∧ r = ra ++ rb := by
  induction ls generalizing a b r with
  | nil => cases h; exact ⟨a, b, rfl, rfl, rfl⟩
  | cons l ls ih =>
    obtain ⟨items, h1, h2⟩ := bind_eq_ok.mp h
    obtain ⟨ia, ib, h3, h4, rfl⟩ := flatMapE_append_ok h1
    obtain ⟨ra, rb, h5, h6, rfl⟩ := ih h2
    exact ⟨ra, rb, bind_eq_ok.mpr ⟨ia, h3, h5⟩, bind_eq_ok.mpr ⟨ib, h4, h6⟩, rfl⟩

theorem runMethods_each {ls : List String} {items r : List Item} (h : runMethods M F ord ls items = .ok r) :
    ∃ parts, List.Forall₂ (fun it p => runMethods M F ord ls [it] = .ok p) items parts ∧ r = parts.flatten := by
  induction items generalizing r with
  | nil =>
    refine ⟨[], .nil, ?_⟩
    have : ∀ ls, runMethods M F ord ls [] = .ok [] := by
      intro ls
      induction ls with
      | nil => rfl
      | cons l ls ih => exact ih
    rw [this] at h
    cases h; rfl
  | cons a l ih =>
    obtain ⟨ra, rb, h1, h2, rfl⟩ := runMethods_append (a := [a]) (b := l) h
    obtain ⟨parts, h3, rfl⟩ := ih h2
    exact ⟨ra :: parts, .cons h1 h3, by simp⟩

/-- Items whose label is not among the remaining methods pass through. -/
theorem runMethods_skip {ls : List String} {m : String} (hm : m ∉ ls) {l : List Dataset}
    (hl : ∀ d ∈ l, d.allocationMethod = some m) : runMethods M F ord ls (l.map .ds) = .ok (l.map .ds) := by
  induction ls with
  | nil => rfl
  | cons a ls ih =>
    have h1 : flatMapE (methodStep M F ord a) (l.map .ds) = .ok (l.map .ds) := by
      clear ih
      induction l with
      | nil => rfl
      | cons d l ih2 =>
        have hd : methodStep M F ord a (.ds d) = .ok [.ds d] := by
          simp only [methodStep]
          rw [hl d (by simp)]
          simp only [getKey_some, ebind_ok]
          rw [if_neg (by rintro rfl; simp at hm)]
          rfl
        rw [List.map_cons]
        exact flatMapE_cons_ok.mpr ⟨_, _, hd, ih2 fun x hx => hl x (by simp [hx]), rfl⟩
    unfold runMethods
    rw [h1]
    exact ih (by simp at hm; exact hm.2)

theorem runMethods_single {ls : List String} {d : Dataset} {m : String} (hl : d.allocationMethod = some m)
    {pre post : List String} (hs : ls = pre ++ m :: post) (hpre : m ∉ pre) {r : List Item}
    (h : runMethods M F ord ls [.ds d] = .ok r) :
    ∃ items, allocationMethod M F ord m d = .ok items ∧ runMethods M F ord post items = .ok r := by
  induction pre generalizing ls with
  | nil =>
    subst hs
    obtain ⟨items, h1, h2⟩ := bind_eq_ok.mp h
    obtain ⟨b, r', h3, h4, rfl⟩ := flatMapE_cons_ok.mp h1
    cases h4
    simp only [methodStep] at h3
    rw [hl] at h3
    simp only [getKey_some, ebind_ok, if_pos] at h3
    exact ⟨b, h3, by simpa using h2⟩
  | cons a pre ih =>
    subst hs
    obtain ⟨items, h1, h2⟩ := bind_eq_ok.mp h
    obtain ⟨b, r', h3, h4, rfl⟩ := flatMapE_cons_ok.mp h1
    cases h4
    simp only [methodStep] at h3
    rw [hl] at h3
    simp only [getKey_some, ebind_ok] at h3
    rw [if_neg (by rintro rfl; simp at hpre)] at h3
    cases h3
    exact ih rfl (by simp at hpre; exact hpre.2) h2

/-- Strings make every further method raise. -/
theorem runMethods_str {l : String} {ls : List String} {s : String} {items r : List Item}
    (h : runMethods M F ord (l :: ls) (.str s :: items) = .ok r) : False := by
  obtain ⟨_, h1, _⟩ := bind_eq_ok.mp h
  obtain ⟨b, r', h3, -, -⟩ := flatMapE_cons_ok.mp h1
  cases h3

end Run

/-! ## Labels are kept by the methods -/

section Labels
variable {M : MathEnv} {F : FormulaEnv} {ord : Dataset → Except Err (List String)}

theorem noAllocation_inv {d : Dataset} {outs : List Dataset} (h : noAllocation d = .ok outs) :
    SingleOutput d ∧ outs = [d] := by
  unfold noAllocation at h
  obtain ⟨_, h1, h⟩ := bind_eq_ok.mp h
  cases h
  refine ⟨?_, rfl⟩
  unfold checkSingleOutputActivity at h1
  obtain ⟨b, hb, h1⟩ := bind_eq_ok.mp h1
  by_cases hl : (referenceProducts d).length = 1
  swap
  · simp [hl] at h1
  cases b
  · refine ⟨hl, ?_⟩
    rintro e he ⟨ht, hc⟩
    exact ((anyAllocatableByproduct_false.mp hb) e he ht).2 hc
  · simp [hl] at h1

theorem economic_single {d : Dataset} {outs : List Dataset} (h : economicAllocation M d = .ok outs) :
    ∀ o ∈ outs, SingleOutput o ∧ o = { d with exchanges := o.exchanges } := by
  intro o ho
  obtain ⟨e, -, he⟩ := forall₂_mem_right (C15_economic_outputs M d outs h) ho
  exact ⟨he.1, he.2.1⟩

theorem recycling_single {d : Dataset} {outs : List Dataset} (h : recyclingAllocation M d = .ok outs) :
    ∀ o ∈ outs, SingleOutput o ∧ o = { d with exchanges := o.exchanges } := by
  intro o ho
  obtain ⟨rp, bys, -, -, -, -, -, -, hF, -⟩ := C18_recycling M d outs h
  obtain ⟨e, -, he⟩ := forall₂_mem_right hF ho
  exact ⟨he.1, he.2.1⟩

theorem waste_single {d : Dataset} {outs : List Dataset} (h : wasteTreatmentAllocation M d = .ok outs) :
    ∀ o ∈ outs, SingleOutput o ∧ o = { d with exchanges := o.exchanges } := by
  intro o ho
  obtain ⟨rp, first, free, n, -, -, -, rfl, -, -, -, -, hs, hf, -, hF⟩ := C17_waste_treatment M d outs h
  rcases List.mem_cons.mp ho with rfl | ho
  · exact ⟨hs, hf⟩
  · obtain ⟨e, -, m, -, -, he⟩ := forall₂_mem_right hF ho
    refine ⟨?_, by rw [he]⟩
    rw [he]
    refine ⟨rfl, ?_⟩
    intro x hx
    simp only [List.mem_singleton] at hx
    subst hx
    simp

theorem split_single {d : Dataset} {outs : List Dataset} (h : handleSplitDataset M d = .ok outs) :
    ∀ o ∈ outs, SingleOutput o ∧ ∃ nm, o = { d with exchanges := o.exchanges, name := nm } := by
  unfold handleSplitDataset at h
  obtain ⟨rp, -, h⟩ := bind_eq_ok.mp h
  intro o ho
  rcases hc : rp.cls with _ | _ | _ | _ <;> rw [hc] at h <;> simp only [splitBy] at h
  · cases h
  · cases h
  · obtain ⟨h1, h2⟩ := waste_single h o ho
    exact ⟨h1, d.name, by rw [h2]⟩
  · obtain ⟨h1, h2⟩ := recycling_single h o ho
    exact ⟨h1, _, by rw [h2]⟩

theorem combined_frame {d : Dataset} {outs : List Dataset} (h : combinedProduction M F ord d = .ok outs) :
    ∀ o ∈ outs, (refs o).length = 1 ∧ o = { d with exchanges := o.exchanges, parameters := o.parameters } := by
  intro o ho
  obtain ⟨e, -, rp, hr, -⟩ := forall₂_mem_right (C19_one_reference_product M F ord d outs h) ho
  refine ⟨by rw [hr]; rfl, ?_⟩
  obtain ⟨x, -, hx⟩ := mapE_mem h ho
  obtain ⟨od, -, hrec⟩ := recalculateO_inv hx
  exact (recalculate_frame hrec).1

theorem without_single {d : Dataset} {outs : List Dataset} (h : combinedWithoutProducts M F ord d = .ok outs) :
    ∀ o ∈ outs, SingleOutput o ∧ o.allocationMethod = d.allocationMethod := by
  obtain ⟨l, hl, h⟩ := bind_eq_ok.mp h
  intro o ho
  obtain ⟨x, hx, bs, hbs, hob⟩ := flatMapE_mem h ho
  obtain ⟨hs, nm, hn⟩ := split_single hbs o hob
  refine ⟨hs, ?_⟩
  rw [hn]
  change x.allocationMethod = _
  rw [(combined_frame hl x hx).2]

theorem addExchanges_refs (t d : Dataset) : (refs (addExchanges t d)).length = (refs t).length := by
  unfold refs addExchanges
  simp only [List.filter_map, List.length_map]
  have : ((fun e : Exchange => e.type == ExcType.referenceProduct) ∘ addTo d) = fun e => e.type == .referenceProduct := by
    funext e
    simp only [Function.comp, addTo]
    split <;> rfl
  rw [this]

theorem addExchanges_single {t d : Dataset} (h : SingleOutput t) : SingleOutput (addExchanges t d) := by
  refine ⟨by rw [addExchanges_refs]; exact h.1, ?_⟩
  intro e he
  obtain ⟨x, hx, rfl⟩ := List.mem_map.mp he
  have := h.2 x hx
  unfold addTo
  split <;> exact this

theorem foldl_add_single (rest : List Dataset) {t : Dataset} (h : SingleOutput t) :
    SingleOutput (rest.foldl addExchanges t) ∧ (rest.foldl addExchanges t).allocationMethod = t.allocationMethod := by
  induction rest generalizing t with
  | nil => exact ⟨h, rfl⟩
  | cons d rest ih => exact ⟨(ih (addExchanges_single h)).1, (ih (addExchanges_single h)).2⟩

theorem merge_single {data outs : List Dataset} (h : mergeByproducts data = .ok outs) (lab : Option String)
    (hd : ∀ d ∈ data, SingleOutput d ∧ d.allocationMethod = lab) :
    ∀ o ∈ outs, SingleOutput o ∧ o.allocationMethod = lab := by
  unfold mergeByproducts at h
  obtain ⟨-, -, h⟩ := bind_eq_ok.mp h
  obtain ⟨keyed, hk, h⟩ := bind_eq_ok.mp h
  simp only [epure, Except.ok.injEq] at h
  have hkeyed := mapE_withKey hk
  subst h
  intro o ho
  obtain ⟨⟨k, g⟩, hg, ho⟩ := List.mem_flatMap.mp ho
  have hgm : ∀ d ∈ g.map (·.2), d ∈ data := by
    intro d hd
    obtain ⟨p, hp, rfl⟩ := List.mem_map.mp hd
    rw [groupBy_mem hg] at hp
    have := (List.mem_filter.mp hp).1
    rw [hkeyed] at this
    obtain ⟨x, hx, rfl⟩ := List.mem_map.mp this
    exact hx
  simp only at ho
  rcases hgl : g.map (·.2) with _ | ⟨parent, rest⟩
  · rw [hgl] at ho; cases ho
  · rw [hgl] at ho hgm
    simp only [mergeGroup, List.mem_singleton] at ho
    subst ho
    obtain ⟨h1, h2⟩ := hd parent (hgm parent (by simp))
    obtain ⟨h3, h4⟩ := foldl_add_single rest h1
    exact ⟨h3, by rw [h4, h2]⟩

theorem withBy_single {d : Dataset} {outs : List Dataset} (h : combinedWithByproducts M F ord d = .ok outs) :
    ∀ o ∈ outs, SingleOutput o ∧ o.allocationMethod = d.allocationMethod := by
  obtain ⟨l, hl, h⟩ := bind_eq_ok.mp h
  obtain ⟨a, ha, h⟩ := bind_eq_ok.mp h
  refine merge_single h _ ?_
  intro x hx
  obtain ⟨y, hy, bs, hbs, hxb⟩ := flatMapE_mem ha hx
  obtain ⟨h1, h2⟩ := economic_single hbs x hxb
  refine ⟨h1, ?_⟩
  rw [h2]
  change y.allocationMethod = _
  rw [(combined_frame hl y hy).2]

/-- The results of every method are single-output datasets with the label of the input, except that
`single product` and `combined production` only guarantee what is known already. -/
theorem methodResult_frame {d : Dataset} {m : String} {outs : List Dataset} (h : MethodResult M F ord d m outs) :
    (∀ o ∈ outs, o.allocationMethod = d.allocationMethod) ∧
    (m ≠ "single product" → ∀ o ∈ outs, (refs o).length = 1) ∧
    (m ≠ "single product" → m ≠ "combined production" → ∀ o ∈ outs, SingleOutput o) := by
  cases h with
  | single => simp
  | group hs => exact ⟨by simp, fun _ => by simpa using hs.1, fun _ _ => by simpa using hs⟩
  | unconstrained hs => exact ⟨by simp, fun _ => by simpa using hs.1, fun _ _ => by simpa using hs⟩
  | economic h => exact ⟨fun o ho => by rw [(economic_single h o ho).2], fun _ o ho => (economic_single h o ho).1.1, fun _ _ o ho => (economic_single h o ho).1⟩
  | recycling h => exact ⟨fun o ho => by rw [(recycling_single h o ho).2], fun _ o ho => (recycling_single h o ho).1.1, fun _ _ o ho => (recycling_single h o ho).1⟩
  | waste h => exact ⟨fun o ho => by rw [(waste_single h o ho).2], fun _ o ho => (waste_single h o ho).1.1, fun _ _ o ho => (waste_single h o ho).1⟩
  | without h => exact ⟨fun o ho => (without_single h o ho).2, fun _ o ho => (without_single h o ho).1.1, fun _ _ o ho => (without_single h o ho).1⟩
  | combined h => exact ⟨fun o ho => by rw [(combined_frame h o ho).2], fun _ o ho => (combined_frame h o ho).1, by simp⟩
  | withBy h => exact ⟨fun o ho => (withBy_single h o ho).2, fun _ o ho => (withBy_single h o ho).1.1, fun _ _ o ho => (withBy_single h o ho).1⟩

theorem datasetMethod_result {m : String} {d : Dataset} {outs : List Dataset}
    (h : datasetMethod M F ord m d = .ok outs) : MethodResult M F ord d m outs := by
  unfold datasetMethod at h
  split at h
  · rename_i hm; subst hm; obtain ⟨h1, rfl⟩ := noAllocation_inv h; exact .group h1
  split at h
  · rename_i hm; subst hm; obtain ⟨h1, rfl⟩ := noAllocation_inv h; exact .unconstrained h1
  split at h
  · rename_i hm; subst hm; exact .economic h
  split at h
  · rename_i hm; subst hm; exact .recycling h
  split at h
  · rename_i hm; subst hm; exact .waste h
  split at h
  · rename_i hm; subst hm; exact .without h
  split at h
  · rename_i hm; subst hm; exact .combined h
  split at h
  · rename_i hm; subst hm; exact .withBy h
  · cases h

end Labels

theorem allocationLabels_split {m : String} (hm : m ∈ allocationLabels.drop 1) :
    ∃ pre post, allocationLabels.drop 1 = pre ++ m :: post ∧ m ∉ pre ∧ m ∉ post := by
  have hnd : (allocationLabels.drop 1).Nodup := by decide +kernel
  obtain ⟨pre, post, h⟩ := List.append_of_mem hm
  rw [h] at hnd
  have := List.nodup_append.mp hnd
  refine ⟨pre, post, h, ?_, (List.nodup_cons.mp this.2.1).1⟩
  intro hp
  exact this.2.2 m hp m (by simp) rfl

/-- One labelled dataset through all the methods. -/
theorem run_one {M : MathEnv} {F : FormulaEnv} {ord : Dataset → Except Err (List String)} {d : Dataset} {m : String}
    (hl : d.allocationMethod = some m) {r : List Item}
    (h : runMethods M F ord (allocationLabels.drop 1) [.ds d] = .ok r) :
    m ≠ "constrained market" ∧ ∃ outs, r = outs.map .ds ∧
      ((m ∉ allocationLabels.drop 1 ∧ outs = [d]) ∨ (m ∈ allocationLabels.drop 1 ∧ MethodResult M F ord d m outs)) := by
  by_cases hm : m ∈ allocationLabels.drop 1
  · obtain ⟨pre, post, hs, h1, h2⟩ := allocationLabels_split hm
    obtain ⟨items, h3, h4⟩ := runMethods_single hl hs h1 h
    have hne : m ≠ "constrained market" := by
      rintro rfl
      simp only [allocationMethod, if_true, epure, Except.ok.injEq] at h3
      subst h3
      rcases post with _ | ⟨p, post⟩
      · have := congrArg List.getLast? hs
        rw [List.getLast?_append] at this
        have h7 : (allocationLabels.drop 1).getLast? = some "combined production with byproducts" := by decide +kernel
        rw [h7] at this
        simp at this
      · exact runMethods_str h4
    refine ⟨hne, ?_⟩
    simp only [allocationMethod, if_neg hne] at h3
    obtain ⟨outs, h5, h6⟩ := bind_eq_ok.mp h3
    cases h6
    have hr := datasetMethod_result h5
    refine ⟨outs, ?_, Or.inr ⟨hm, hr⟩⟩
    rw [runMethods_skip h2 fun o ho => by rw [(methodResult_frame hr).1 o ho, hl]] at h4
    cases h4; rfl
  · refine ⟨?_, [d], ?_, Or.inl ⟨hm, rfl⟩⟩
    · rintro rfl
      exact hm (by decide +kernel)
    · have := runMethods_skip (M := M) (F := F) (ord := ord) hm (l := [d]) (by simpa using hl)
      rw [List.map_singleton] at this
      rw [this] at h
      cases h; rfl

/-- C26: the allocation step treats every dataset separately, in order, with the method of the documented
decision tree, and replaces it by the results of that method without any allocation label. -/
theorem C26_dispatch (M : MathEnv) (F : FormulaEnv) (ord : Dataset → Except Err (List String)) (data : List Dataset)
    (items : List Item) (h : cutoffAllocation M F ord data = .ok items) :
    ∃ parts : List (List Dataset), items = (parts.flatten.map (labelled none)).map Item.ds ∧
      List.Forall₂ (fun d outs => ∃ m, Method d m ∧ m ≠ "constrained market" ∧
        MethodResult M F ord (labelled (some m) d) m outs) data parts := by
  unfold cutoffAllocation at h
  obtain ⟨l, hl, h⟩ := bind_eq_ok.mp h
  obtain ⟨its, hr, h⟩ := bind_eq_ok.mp h
  obtain ⟨ps, hF, rfl⟩ := runMethods_each hr
  rw [List.forall₂_map_left_iff] at hF
  have hl' := mapE_ok_iff.mp hl
  have key : List.Forall₂ (fun d p => ∃ outs : List Dataset, p = outs.map Item.ds ∧ ∃ m, Method d m ∧
      m ≠ "constrained market" ∧ MethodResult M F ord (labelled (some m) d) m outs) data ps := by
    refine forall₂_trans' hl' hF ?_
    intro d d' p h1 h2
    obtain ⟨m, hm, h3⟩ := bind_eq_ok.mp h1
    cases h3
    have hlab := C13_choose_label d m hm
    have hM := ((C13_choose_exact d m).mp hm).2
    obtain ⟨hne, outs, rfl, hcase⟩ := run_one (m := m) rfl h2
    refine ⟨outs, rfl, m, hM, hne, ?_⟩
    rcases hcase with ⟨hnm, rfl⟩ | ⟨-, hres⟩
    · have : m = "single product" := by
        have h4 : m ∈ allocationLabels := hlab
        have h5 : allocationLabels = "single product" :: allocationLabels.drop 1 := rfl
        rw [h5, List.mem_cons] at h4
        exact h4.resolve_right hnm
      subst this
      exact .single
    · exact hres
  have hdel : ∀ (ps : List (List Item)) (data : List Dataset) (its : List Item),
      List.Forall₂ (fun d p => ∃ outs : List Dataset, p = outs.map Item.ds ∧ ∃ m, Method d m ∧
      m ≠ "constrained market" ∧ MethodResult M F ord (labelled (some m) d) m outs) data ps →
      mapE deleteAllocationMethod ps.flatten = .ok its →
      ∃ parts : List (List Dataset), its = (parts.flatten.map (labelled none)).map Item.ds ∧
        List.Forall₂ (fun d outs => ∃ m, Method d m ∧ m ≠ "constrained market" ∧
          MethodResult M F ord (labelled (some m) d) m outs) data parts := by
    intro ps data its hF
    induction hF generalizing its with
    | nil => intro h; cases h; exact ⟨[], rfl, .nil⟩
    | cons hab _ ih =>
      intro h
      rw [List.flatten_cons] at h
      obtain ⟨r1, r2, h1, h2, rfl⟩ := mapE_append.mp h
      obtain ⟨parts, rfl, hparts⟩ := ih _ h2
      obtain ⟨outs, rfl, hm⟩ := hab
      refine ⟨outs :: parts, ?_, .cons hm hparts⟩
      have : r1 = (outs.map (labelled none)).map Item.ds := by
        clear hm h h2 hparts ih
        induction outs generalizing r1 with
        | nil => cases h1; rfl
        | cons o outs ih =>
          obtain ⟨b, r', hb, hr', rfl⟩ := mapE_cons_ok.mp h1
          cases hb
          rw [ih _ hr']
          rfl
      rw [this]
      simp
  exact hdel ps data items key h

/-- C26, first half: every result is a dataset without label and with exactly one reference product. -/
theorem C26_one_reference_product (M : MathEnv) (F : FormulaEnv) (ord : Dataset → Except Err (List String))
    (data : List Dataset) (items : List Item) (h : cutoffAllocation M F ord data = .ok items)
    (hnz : ∀ d ∈ data, ∀ e ∈ refs d, e.amount ≠ 0) :
    ∀ it ∈ items, ∃ d, it = .ds d ∧ d.allocationMethod = none ∧ (refs d).length = 1 := by
  obtain ⟨parts, rfl, hF⟩ := C26_dispatch M F ord data items h
  intro it hit
  obtain ⟨d, hd, rfl⟩ := List.mem_map.mp hit
  obtain ⟨o, ho, rfl⟩ := List.mem_map.mp hd
  refine ⟨_, rfl, rfl, ?_⟩
  obtain ⟨outs, houts, hoo⟩ := List.mem_flatten.mp ho
  obtain ⟨src, m, hsrc, hM, hne, hres⟩ : ∃ src m, src ∈ data ∧ Method src m ∧ m ≠ "constrained market" ∧
      MethodResult M F ord (labelled (some m) src) m outs := by
    have := forall₂_mem_right (R := fun d outs => d ∈ data ∧ ∃ m, Method d m ∧ m ≠ "constrained market" ∧
        MethodResult M F ord (labelled (some m) d) m outs) (l := data) (r := parts) ?_ houts
    · obtain ⟨src, -, hs, m, h1, h2, h3⟩ := this
      exact ⟨src, m, hs, h1, h2, h3⟩
    · exact forall₂_with_mem hF
  change (refs o).length = 1
  by_cases hs : m = "single product"
  · subst hs
    rw [hres.single_inv, List.mem_singleton] at hoo
    subst hoo
    change (refs src).length = 1
    have : liveRefs src = refs src := by
      unfold liveRefs
      rw [List.filter_eq_self]
      intro e he
      simp [hnz src hsrc e he]
    rw [← this]; exact hM.single_inv.1
  · exact (methodResult_frame hres).2.1 hs o hoo

/-- C26, second half. Missing from the full statement: datasets with an allocatable byproduct that has
amount zero and a formula, for which the claim is false (`C26_live_byproduct_after_recalculation`). Formulas
are evaluated in an order that respects dependencies, and variable names are unique. -/
theorem C26_no_live_byproduct_partial (M : MathEnv) (F : FormulaEnv) (hempty : F.parse "" = none)
    (ord : Dataset → Except Err (List String)) (hord : ∀ d o, ord d = .ok o → AdmissibleOrder F d o)
    (data : List Dataset) (items : List Item) (h : cutoffAllocation M F ord data = .ok items)
    (hu : ∀ d ∈ data, (d.numObjs.filterMap (·.var)).Nodup)
    (hnf : ∀ d ∈ data, ∀ e ∈ d.exchanges, e.type = .byproduct → e.cls = some .allocatable → e.amount = 0 →
      e.formula = none) :
    ∀ d, Item.ds d ∈ items → ∀ e ∈ d.exchanges, e.type = .byproduct → e.cls = some .allocatable → e.amount = 0 := by
  obtain ⟨parts, rfl, hF⟩ := C26_dispatch M F ord data items h
  intro d hd
  obtain ⟨d', hd', hdd⟩ := List.mem_map.mp hd
  cases hdd
  obtain ⟨o, ho, rfl⟩ := List.mem_map.mp hd'
  obtain ⟨outs, houts, hoo⟩ := List.mem_flatten.mp ho
  obtain ⟨src, -, hsrc, m, hM, hne, hres⟩ := forall₂_mem_right (forall₂_with_mem hF) houts
  intro e he ht hc
  change e ∈ o.exchanges at he
  by_cases hs : m = "single product"
  · subst hs
    rw [hres.single_inv, List.mem_singleton] at hoo
    subst hoo
    by_contra hz
    exact hM.single_inv.2 ⟨e, he, ht, hc, hz⟩
  by_cases hcp : m = "combined production"
  swap
  · exact absurd ⟨ht, hc⟩ (((methodResult_frame hres).2.2 hs hcp o hoo).2 e he)
  subst hcp
  have hcomb := C19_combined_production M F hempty ord hord (labelled (some "combined production") src)
    (hu src hsrc) outs hres.combined_inv
  obtain ⟨sel, -, -, rp, dropped, rest, hex, hrefs, hsame, -, -, -, hdrop, hrest, -⟩ := forall₂_mem_right hcomb hoo
  rw [hex] at he
  simp only [List.cons_append, List.mem_cons, List.mem_append] at he
  rcases he with rfl | he | he
  · have : e ∈ refs o := by rw [hrefs]; simp
    have := (List.mem_filter.mp this).2
    rw [ht] at this
    simp at this
  · obtain ⟨x, -, hx⟩ := forall₂_mem_right hdrop he
    rw [hx.2.2.1] at ht
    cases ht
  · obtain ⟨x, hx, hsx, -, hfix⟩ := forall₂_mem_right hrest he
    have hxm : x ∈ src.exchanges := (List.mem_filter.mp hx).1
    have hxt : x.type = .byproduct := by rw [← ht, hsx.1]
    have hxc : x.cls = some .allocatable := by rw [← hc, hsx.1]
    have hxz : x.amount = 0 := by
      by_contra hz
      exact hM.combined_inv ⟨x, hxm, hxt, hxc, hz⟩
    rw [hfix (hnf src hsrc x hxm hxt hxc hxz), hxz]

/-- A formula environment that knows one formula. -/
def exampleSub : FormulaEnv where
  parse s := if s = "x - y" then some (.sub (.var "x") (.var "y")) else none
  fn1 _ _ := .error .other
  fn2 _ _ _ := .error .other
  base _ := none

/-- Two products of equal amount, and a byproduct produced in proportion to their difference. -/
def exampleDifference : Dataset :=
  { name := "plant", exchanges := [{ name := "p", id := "1", type := .referenceProduct, cls := some .allocatable, amount := 3, var := some "x" }, { name := "q", id := "2", type := .referenceProduct, cls := some .allocatable, amount := 3, var := some "y" }, { name := "heat", id := "3", type := .byproduct, cls := some .allocatable, amount := 0, formula := some "x - y" }] }

/-- C26 is false in general: subdividing combined production recalculates byproducts, which can make an
allocatable byproduct of amount zero nonzero, and it is not allocated afterwards. -/
theorem C26_live_byproduct_after_recalculation :
    ∃ items d e, cutoffAllocation sampleM exampleSub (fun _ => .ok ["x", "y"]) [exampleDifference] = .ok items ∧
      Item.ds d ∈ items ∧ e ∈ d.exchanges ∧ e.type = .byproduct ∧ e.cls = some .allocatable ∧ e.amount = 3 := by
  refine ⟨[.ds { name := "plant", exchanges := [{ name := "p", id := "1", type := .referenceProduct, cls := some .allocatable, amount := 3, var := some "x" }, { name := "q", id := "2", type := .droppedProduct, cls := some .allocatable, amount := 0, var := some "y" }, { name := "heat", id := "3", type := .byproduct, cls := some .allocatable, amount := 3, formula := some "x - y" }] }, .ds { name := "plant", exchanges := [{ name := "q", id := "2", type := .referenceProduct, cls := some .allocatable, amount := 3, var := some "y" }, { name := "p", id := "1", type := .droppedProduct, cls := some .allocatable, amount := 0, var := some "x" }, { name := "heat", id := "3", type := .byproduct, cls := some .allocatable, amount := -3, formula := some "x - y" }] }], _, { name := "heat", id := "3", type := .byproduct, cls := some .allocatable, amount := 3, formula := some "x - y" }, by decide +kernel, List.mem_cons_self, ?_, rfl, rfl, rfl⟩
  simp

/-- Combined production, economic allocation and a single product together. -/
def exampleAllocation : List Dataset := [{ name := "refinery", exchanges := [{ name := "petrol", id := "1", type := .referenceProduct, cls := some .allocatable, amount := 3, var := some "x" }, { name := "diesel", id := "2", type := .referenceProduct, cls := some .allocatable, amount := 5, var := some "y" }, { name := "crude", id := "3", type := .fromTechnosphere, amount := 6, formula := some "x * 2" }] }, econDs, { name := "b", exchanges := [{ name := "r", type := .referenceProduct, amount := 2 }] }]

/-- The hypotheses of the C26 theorems are met by data with several methods. -/
example : ((cutoffAllocation sampleM exampleF (fun _ => .ok ["x", "y"]) exampleAllocation).map List.length = .ok 5) ∧
    (∀ d ∈ exampleAllocation, ∀ e ∈ refs d, e.amount ≠ 0) ∧
    (∀ d ∈ exampleAllocation, (d.numObjs.filterMap (·.var)).Nodup) ∧
    (∀ d ∈ exampleAllocation, ∀ e ∈ d.exchanges, e.type = .byproduct → e.cls = some .allocatable → e.amount = 0 →
      e.formula = none) := by
  refine ⟨?_, ?_, ?_, ?_⟩ <;> decide +kernel

/-! ## C27 -/

/-- C27 is false of the code: as soon as some dataset is a constrained market, the allocation step does not
return (`constrained_market_allocation` returns the dataset instead of a list of datasets). -/
theorem C27_constrained_market_never_returns (M : MathEnv) (F : FormulaEnv) (ord : Dataset → Except Err (List String))
    (data : List Dataset) (d : Dataset) (hd : d ∈ data) (hm : Method d "constrained market") :
    ∀ items, cutoffAllocation M F ord data ≠ .ok items := by
  intro items h
  obtain ⟨parts, -, hF⟩ := C26_dispatch M F ord data items h
  obtain ⟨outs, -, m, hM, hne, -⟩ := forall₂_mem_left hF hd
  exact hne (hM.unique hm)

/-- C27: for a constrained market alone, the exception is a `TypeError`. -/
theorem C27_constrained_market_type_error (M : MathEnv) (F : FormulaEnv) (ord : Dataset → Except Err (List String))
    (d : Dataset) (hc : Classified d) (hm : Method d "constrained market") :
    cutoffAllocation M F ord [d] = .error .typeError := by
  have h1 := (C13_choose_exact d _).mpr ⟨readable_of_classified hc, hm⟩
  have h2 : labelAllocationMethod [d] = .ok [labelled (some "constrained market") d] := by
    unfold labelAllocationMethod
    simp only [mapE, h1]
    rfl
  have hskip : ∀ l, l ≠ "constrained market" →
      flatMapE (methodStep M F ord l) [.ds (labelled (some "constrained market") d)] = .ok [.ds (labelled (some "constrained market") d)] := by
    intro l hl
    simp only [flatMapE, methodStep, labelled, getKey_some, ebind_ok]
    rw [if_neg (fun h => hl h.symm)]
    rfl
  have hlast : ∃ r, flatMapE (methodStep M F ord "constrained market") [.ds (labelled (some "constrained market") d)] = .ok (.str "filepath" :: r) :=
    ⟨_, rfl⟩
  obtain ⟨r, hr⟩ := hlast
  unfold cutoffAllocation
  rw [h2, ebind_ok]
  have h3 : allocationLabels.drop 1 = ["market group", "unconstrained market", "economic", "constrained market", "recycling", "waste treatment", "combined production without products", "combined production", "combined production with byproducts"] := rfl
  rw [h3, List.map_singleton]
  have hrun : runMethods M F ord ["market group", "unconstrained market", "economic", "constrained market", "recycling", "waste treatment", "combined production without products", "combined production", "combined production with byproducts"] [.ds (labelled (some "constrained market") d)] = .error .typeError := by
    rw [runMethods, hskip _ (by decide), ebind_ok, runMethods, hskip _ (by decide), ebind_ok, runMethods, hskip _ (by decide), ebind_ok, runMethods, hr, ebind_ok]
    rfl
  rw [hrun]
  rfl

/-- C27, the part that holds: `constrained_market_allocation` itself turns exactly the conditional byproducts
into dropped products of amount zero and changes nothing else. Missing: the wrapped function is never able to
hand this dataset on. -/
theorem C27_zero_conditional_partial (ds : Dataset) :
    zeroConditional ds = { ds with exchanges := (zeroConditional ds).exchanges } ∧
    List.Forall₂ (fun e e' => if e.type = .byproduct ∧ e.conditional = some true
        then e' = { e with type := .droppedProduct, amount := 0, formula := none, uncertainty := none, pv := none }
        else e' = e) ds.exchanges (zeroConditional ds).exchanges := by
  refine ⟨rfl, ?_⟩
  unfold zeroConditional
  simp only
  rw [List.forall₂_map_right_iff]
  refine List.forall₂_same.mpr ?_
  intro e _
  by_cases h : e.type = .byproduct ∧ e.conditional = some true
  · rw [if_pos h, if_pos h]; rfl
  · rw [if_neg h, if_neg h]

/-- A market whose byproduct is linked conditionally. -/
example : Classified { name := "m", type := .market, exchanges := [{ name := "w", type := .referenceProduct, amount := 1 }, { name := "heat", type := .byproduct, cls := some .allocatable, amount := 3, conditional := some true }] } ∧
    Method { name := "m", type := .market, exchanges := [{ name := "w", type := .referenceProduct, amount := 1 }, { name := "heat", type := .byproduct, cls := some .allocatable, amount := 3, conditional := some true }] } "constrained market" := by
  exact ⟨by decide +kernel, ((C13_choose_exact _ _).mp (by decide +kernel)).2⟩

end Ocelot
