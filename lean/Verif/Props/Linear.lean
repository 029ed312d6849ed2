import Verif.Spec.Linear
import Verif.Props.Allocation
import Verif.Props.MonotoneAllocation
import Mathlib.Tactic.Linarith
import Mathlib.Tactic.Ring
import Mathlib.Tactic.FieldSimp

/-! # C137: what an activity takes or emits does not influence how it is shared out -/

namespace Ocelot

open Spec

namespace Linearly

open Direction

theorem zip_right {α β : Type} {R : ℚ × α → β → Prop} {Q : ℚ → β → Prop} (g : α → ℚ → ℚ) (hR : ∀ q x o, R (q, x) o → Q (g x q) o) :
    ∀ {l : List α} {fs : List ℚ} {r : List β}, fs.length = l.length → List.Forall₂ R (fs.zip l) r → List.Forall₂ Q (List.zipWith g l fs) r
  | [], [], r, _, h => by cases h; exact .nil
  | x :: l, q :: fs, r, hl, h => by
    rw [List.zip_cons_cons] at h
    obtain ⟨o, r, h1, h2, rfl⟩ := List.forall₂_cons_left_iff.mp h
    exact .cons (hR q x o h1) (zip_right g hR (by simpa using hl) h2)

/-- The parts of economic allocation. -/
def parts (P : List Exchange) : List ℚ :=
  match economicFactors P with
  | .ok fs => List.zipWith (fun e q => q / e.amount) P fs
  | .error _ => []

theorem economic_parts {M : MathEnv} {ds : Dataset} {outs : List Dataset} (h : economicAllocation M ds = .ok outs) :
    List.Forall₂ (fun q o => ∀ k, perUnit o k = q * burden ds k) (parts (production ds)) outs := by
  obtain ⟨-, -, fs, hf, hl, h2⟩ := economicAllocation_inv h
  unfold parts
  rw [hf]
  refine zip_right _ (fun q x o ho k => ?_) hl h2
  rw [(chosen_perUnit ho k).2]
  ring

theorem byproducts_of_production (l : List Exchange) :
    l.filter (fun e => e.type == .byproduct && e.cls == some .allocatable) = (l.filter isProduction).filter fun e => e.type == .byproduct && e.cls == some .allocatable := by
  rw [List.filter_filter]
  apply List.filter_congr
  intro e _
  unfold isProduction
  cases e.type <;> simp

theorem refs_of_production (ds : Dataset) : refs ds = (production ds).filter fun e => e.type == .referenceProduct := by
  unfold refs production
  rw [List.filter_filter]
  apply List.filter_congr
  intro e _
  unfold isProduction
  cases e.type <;> simp

theorem recycling_parts {M : MathEnv} {ds : Dataset} {outs : List Dataset} (h : recyclingAllocation M ds = .ok outs) :
    List.Forall₂ (fun q o => ∀ k, perUnit o k = q * (burden ds k + treatedMaterial (production ds) k))
      (parts ((production ds).filter fun e => e.type == .byproduct && e.cls == some .allocatable)) outs := by
  unfold recyclingAllocation at h
  obtain ⟨rp, hrp, h⟩ := bind_eq_ok.mp h
  by_cases h2 : rp.amount < 0
  swap
  · simp [h2] at h
  simp only [h2, not_true_eq_false, if_false] at h
  obtain ⟨b, hb, h⟩ := bind_eq_ok.mp h
  rcases b with _ | _
  · simp at h
  simp only [Bool.true_eq_false, if_false] at h
  obtain ⟨ex, hex, h⟩ := bind_eq_ok.mp h
  have hprod : production { ds with exchanges := ex } = (production ds).filter fun e => e.type == .byproduct && e.cls == some .allocatable :=
    (recycling_production hex).trans (byproducts_of_production _)
  have hmain := economic_parts h
  rw [hprod] at hmain
  refine hmain.imp fun q o ho k => ?_
  rw [ho k, recycling_burden hex ds k]
  congr 2
  unfold treatedMaterial
  change (((refs ds).filter fun e => e.id == k).map fun e => -e.amount).sum = _
  rw [refs_of_production, List.filter_filter]
  congr 2
  apply List.filter_congr
  intro e _
  exact Bool.and_comm _ _

theorem waste_parts {M : MathEnv} {ds : Dataset} {outs : List Dataset} (h : wasteTreatmentAllocation M ds = .ok outs) :
    List.Forall₂ (fun q o => ∀ k, perUnit o k = q * burden ds k)
      (((production ds).filter fun e => e.type == .referenceProduct).map (fun e => 1 / e.amount) ++
        ((production ds).filter fun e => e.type == .byproduct && e.cls == some .allocatable).map fun _ => 0) outs := by
  obtain ⟨rp, first, free, n, hrp, -, hneg, rfl, hn, -, hr, -, -, -, hb, hF⟩ := C17_waste_treatment M ds outs h
  rw [← refs_of_production, hrp]
  refine .cons (fun k => ?_) ?_
  · unfold perUnit
    rw [hb, hr]
    have h1 : n ≠ 0 := ne_of_gt hn
    have h2 : rp.amount ≠ 0 := ne_of_lt hneg
    field_simp
  · change List.Forall₂ _ (([] : List ℚ) ++ _) _
    rw [List.nil_append, List.forall₂_map_left_iff]
    have := byproducts_of_production ds.exchanges
    change _ = (production ds).filter _ at this
    rw [← this]
    refine hF.imp fun e out ho k => ?_
    obtain ⟨m, -, -, rfl⟩ := ho
    unfold perUnit burden nonproduction
    simp [isProduction]

end Linearly

open Linearly

/-- C137: economic allocation. -/
theorem C137_economic : SharedLinearly economicAllocation fun _ _ => 0 := by
  refine fun P => ⟨parts P, ?_⟩
  rintro M ds outs rfl h
  refine (economic_parts h).imp fun q o ho k => ?_
  rw [ho k, add_zero]

/-- C137: recycling, where the treated material is an input as well. -/
theorem C137_recycling : SharedLinearly recyclingAllocation treatedMaterial := by
  refine fun P => ⟨parts (P.filter fun e => e.type == .byproduct && e.cls == some .allocatable), ?_⟩
  rintro M ds outs rfl h
  exact recycling_parts h

/-- C137: waste treatment. -/
theorem C137_waste_treatment : SharedLinearly wasteTreatmentAllocation fun _ _ => 0 := by
  refine fun P => ⟨(P.filter fun e => e.type == .referenceProduct).map (fun e => 1 / e.amount) ++
    (P.filter fun e => e.type == .byproduct && e.cls == some .allocatable).map fun _ => 0, ?_⟩
  rintro M ds outs rfl h
  refine (waste_parts h).imp fun q o ho k => ?_
  rw [ho k, add_zero]

/-- C137: the results for two activities with the same products can be added. -/
theorem C137_superposition {alloc : MathEnv → Dataset → Except Err (List Dataset)} (hs : SharedLinearly alloc fun _ _ => 0) (M : MathEnv) (ds ds1 ds2 : Dataset) (c1 c2 : ℚ)
    (h1 : production ds1 = production ds) (h2 : production ds2 = production ds) (k : String) (hk : burden ds k = c1 * burden ds1 k + c2 * burden ds2 k)
    (o o1 o2 : List Dataset) (h : alloc M ds = .ok o) (h' : alloc M ds1 = .ok o1) (h'' : alloc M ds2 = .ok o2) :
    o.map (fun d => perUnit d k) = List.zipWith (fun a b => c1 * perUnit a k + c2 * perUnit b k) o1 o2 := by
  obtain ⟨w, hw⟩ := hs (production ds)
  have g := hw M ds o rfl h
  have g1 := hw M ds1 o1 h1 h'
  have g2 := hw M ds2 o2 h2 h''
  clear h h' h'' hw
  induction g generalizing o1 o2 with
  | nil => cases g1; rfl
  | cons hq _ ih =>
    obtain ⟨a, o1, ha, r1, rfl⟩ := List.forall₂_cons_left_iff.mp g1
    obtain ⟨b, o2, hb, r2, rfl⟩ := List.forall₂_cons_left_iff.mp g2
    rw [List.map_cons, List.zipWith_cons_cons, ih o1 o2 r1 r2, hq, ha, hb, hk]
    congr 1
    ring

/-- C137: nor does it influence which method is used, apart from conditional exchanges. -/
theorem C137_method (ds ds' : Dataset) (l l' : String) (hp : production ds' = production ds) (ht : ds'.type = ds.type) (hn : ds'.name = ds.name)
    (hc : HasConditional ds' ↔ HasConditional ds) (h : chooseAllocationMethod ds = .ok l) (h' : chooseAllocationMethod ds' = .ok l') : l' = l := by
  unfold chooseAllocationMethod at h h'
  obtain ⟨b1, hb1, h⟩ := bind_eq_ok.mp h
  obtain ⟨b2, hb2, h⟩ := bind_eq_ok.mp h
  obtain ⟨c1, hc1, h'⟩ := bind_eq_ok.mp h'
  obtain ⟨c2, hc2, h'⟩ := bind_eq_ok.mp h'
  have e1 : c1 = b1 := (anyProduction_value hc1).trans ((congrArg (fun P : List Exchange => P.any fun e => e.type == .byproduct && e.amount != 0) hp).trans (anyProduction_value hb1).symm)
  have e2 : c2 = b2 := (anyProduction_value hc2).trans
    ((congrArg (fun P : List Exchange => P.any fun e => e.type == .referenceProduct && e.cls == some .allocatable) hp).trans (anyProduction_value hb2).symm)
  have hr : refs ds' = refs ds := by rw [refs_of_production, refs_of_production, hp]
  have e3 : (ds'.exchanges.filter fun e => e.type == .referenceProduct && e.amount != 0) = ds.exchanges.filter fun e => e.type == .referenceProduct && e.amount != 0 := by
    have := congrArg (List.filter fun e : Exchange => e.amount != 0) hr
    unfold refs at this
    rw [List.filter_filter, List.filter_filter] at this
    simpa only [Bool.and_comm] using this
  have e4 : (ds'.exchanges.any fun e => e.type == .referenceProduct && decide (e.amount < 0)) = ds.exchanges.any fun e => e.type == .referenceProduct && decide (e.amount < 0) := by
    have := congrArg (List.any · fun e : Exchange => decide (e.amount < 0)) hr
    unfold refs at this
    simpa only [List.any_filter] using this
  have e5 : (ds'.exchanges.any fun e => e.conditional == some true) = ds.exchanges.any fun e => e.conditional == some true := by
    rw [Bool.eq_iff_iff]
    simpa [HasConditional] using hc
  subst e1
  subst e2
  simp only [e3, e4, e5, ht, hn] at h'
  rw [h] at h'
  exact (Except.ok.inj h').symm

/-- The same method with and without an emission. -/
example : chooseAllocationMethod (pricedPair 2) = .ok "economic" ∧
    chooseAllocationMethod { pricedPair 2 with exchanges := { name := "x", type := .toEnvironment, amount := -1 } :: (pricedPair 2).exchanges } = .ok "economic" := by decide +kernel

example : (economicAllocation { log := fun _ => 0, e := 1 } (pricedPair 2)).map (fun l => l.map fun d => perUnit d "i") = .ok [3, 6] := by decide +kernel
example : ((recyclingAllocation { log := fun _ => 0, e := 1 } { name := "recycling", exchanges := [{ name := "scrap", id := "1", type := .referenceProduct, amount := -2, cls := some .recyclable }, { name := "alu", id := "2", type := .byproduct, cls := some .allocatable, amount := 4, properties := [{ name := "price", amount := 2 }] }, { name := "oil", id := "3", type := .fromTechnosphere, amount := 6 }] }).map
    fun l => l.map fun d => (perUnit d "3", perUnit d "1")) = .ok [(3 / 2, 1 / 2)] := by decide +kernel
example : ((wasteTreatmentAllocation { log := fun _ => 0, e := 1 } { name := "treatment", exchanges := [{ name := "w", id := "1", type := .referenceProduct, amount := -2, cls := some .waste }, { name := "heat", id := "2", type := .byproduct, cls := some .allocatable, amount := 4 }, { name := "oil", id := "3", type := .fromTechnosphere, amount := 6 }] }).map
    fun l => l.map fun d => perUnit d "3") = .ok [-3, 0] := by decide +kernel

end Ocelot
