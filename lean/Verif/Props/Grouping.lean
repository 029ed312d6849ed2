import Verif.Spec.Grouping
import Verif.Props.MonotoneAllocation
import Mathlib.Tactic.Linarith
import Mathlib.Tactic.Ring
import Mathlib.Tactic.FieldSimp
import Mathlib.Tactic.LinearCombination

/-! # C138: describing one product or supplier as two -/

namespace Ocelot

open Spec

namespace Grouped

open Direction

theorem sum_split {α : Type} {f : α → ℚ} {e e1 e2 : α} (h : f e1 + f e2 = f e) (a b : List α) : ((a ++ e1 :: e2 :: b).map f).sum = ((a ++ e :: b).map f).sum := by
  simp only [List.map_append, List.map_cons, List.sum_append, List.sum_cons]
  linarith

theorem sumOver_split {p : Exchange → Bool} {f : Exchange → ℚ} {e e1 e2 : Exchange} (h : f e1 + f e2 = f e) (h1 : p e1 = p e) (h2 : p e2 = p e) (a b : List Exchange) :
    sumOver (a ++ e1 :: e2 :: b) p f = sumOver (a ++ e :: b) p f := by
  unfold sumOver
  simp only [List.filter_append, List.filter_cons, h1, h2]
  cases p e
  · rfl
  · simp only [if_true]
    exact sum_split h _ _

/-- The volume of the suppliers with one of the codes `K`. -/
def amongVolume (sup : List Exchange) (K : String → Bool) : ℚ := ((sup.filter fun s => s.code.any K).map vol).sum

theorem among_inputs (sup : List Exchange) (r T : ℚ) (K : String → Bool) :
    ((((sup.filter fun s => vol s != 0).map (inputFrom r T)).filter fun e => e.code.any K).map (·.amount)).sum = amongVolume sup K / T * r := by
  unfold amongVolume
  induction sup with
  | nil => simp
  | cons s l ih =>
    have hcode : (inputFrom r T s).code = s.code := rfl
    have hamount : (inputFrom r T s).amount = vol s / T * r := rfl
    by_cases hv : vol s = 0
    · have hb : (vol s != 0) = false := by simp [hv]
      simp only [List.filter_cons, hb, Bool.false_eq_true, if_false, ih]
      split
      · simp only [List.map_cons, List.sum_cons, hv, zero_add]
      · rfl
    · have hb : (vol s != 0) = true := by simp [hv]
      simp only [List.filter_cons, hb, if_true, List.map_cons, hcode]
      split
      · simp only [List.map_cons, List.sum_cons, ih, hamount]
        ring
      · exact ih

end Grouped

open Grouped Direction

/-- C138: if one product is described as two, they share what it got in proportion to their amounts, and all other products get the same. -/
theorem C138_products (a b : List Exchange) (e e1 e2 : Exchange) (fs : List ℚ) (hs : SplitProduct e e1 e2) (h : economicFactors (a ++ e :: b) = .ok fs) :
    ∃ θ θ' : Exchange → ℚ, fs = (a ++ e :: b).map θ ∧ economicFactors (a ++ e1 :: e2 :: b) = .ok ((a ++ e1 :: e2 :: b).map θ') ∧
      θ' e1 + θ' e2 = θ e ∧ (θ' e1 * e.amount = θ e * e1.amount ∧ θ' e2 * e.amount = θ e * e2.amount) ∧ ∀ x ∈ a ++ b, θ' x = θ x := by
  obtain ⟨hp1, hp2⟩ := hs.price
  obtain ⟨ht1, ht2⟩ := hs.trueValue
  have hrev : rev e1 + rev e2 = rev e := by
    unfold rev
    rw [hp1, hp2, ← hs.amount]
    ring
  have hw : tvWeight e1 + tvWeight e2 = tvWeight e := by
    unfold tvWeight
    rw [ht1, ht2, ← hs.amount]
    ring
  have hv1 : hasTv e1 = hasTv e := by unfold hasTv; rw [ht1]
  have hv2 : hasTv e2 = hasTv e := by unfold hasTv; rw [ht2]
  have hT : ((a ++ e1 :: e2 :: b).map rev).sum = ((a ++ e :: b).map rev).sum := sum_split hrev a b
  have hW := sumOver_split hw hv1 hv2 a b
  have hR := sumOver_split hrev hv1 hv2 a b
  obtain ⟨-, hT0, hW0, hfs⟩ := economicFactors_inv h
  obtain ⟨fs', hf'⟩ := factors_exist (prod := a ++ e1 :: e2 :: b) (by simp) (by rw [hT]; exact hT0) (by
    rintro ⟨x, hx, hxt⟩
    rw [hW]
    rcases List.mem_append.mp hx with hx | hx
    · exact hW0 ⟨x, List.mem_append_left _ hx, hxt⟩
    rcases List.mem_cons.mp hx with rfl | hx
    · exact hW0 ⟨e, by simp, by rw [← hv1]; exact hxt⟩
    rcases List.mem_cons.mp hx with rfl | hx
    · exact hW0 ⟨e, by simp, by rw [← hv2]; exact hxt⟩
    · exact hW0 ⟨x, List.mem_append_right _ (List.mem_cons_of_mem _ hx), hxt⟩)
  obtain ⟨-, -, -, hfs'⟩ := economicFactors_inv hf'
  rw [hT, hW, hR] at hfs'
  refine ⟨_, _, hfs, by rw [hf', hfs'], ?_, ⟨?_, ?_⟩, fun x _ => rfl⟩ <;> simp only [hv1, hv2] <;> cases hasTv e <;> simp only [Bool.false_eq_true, if_false, if_true]
  · rw [← hrev]
    ring
  · rw [← hw]
    ring
  · unfold rev
    rw [hp1]
    ring
  · unfold tvWeight
    rw [ht1]
    ring
  · unfold rev
    rw [hp2]
    ring
  · unfold tvWeight
    rw [ht2]
    ring

theorem Grouped.map_perUnit {M : MathEnv} {ds : Dataset} {θ : Exchange → ℚ} (k : String) : ∀ {l : List Exchange} {outs : List Dataset},
    List.Forall₂ (fun (p : ℚ × Exchange) o => chooseReferenceProduct M ds p.2 p.1 = .ok o) ((l.map θ).zip l) outs →
      outs.map (fun o => perUnit o k) = l.map (fun x => θ x * (burden ds k / x.amount)) ∧ ∀ x ∈ l, x.amount ≠ 0
  | [], outs, h => by
    cases h
    simp
  | x :: l, outs, h => by
    rw [List.map_cons, List.zip_cons_cons] at h
    obtain ⟨o, outs, h1, h2, rfl⟩ := List.forall₂_cons_left_iff.mp h
    obtain ⟨i1, i2⟩ := map_perUnit k h2
    obtain ⟨j1, j2⟩ := chosen_perUnit h1 k
    refine ⟨by rw [List.map_cons, List.map_cons, i1, j2], fun y hy => ?_⟩
    rcases List.mem_cons.mp hy with rfl | hy
    · exact j1
    · exact i2 y hy

/-- C138: the activities for the two products take and emit the same per unit as the activity for the one product, and nothing changes
for the other activities. -/
theorem C138_allocation (M : MathEnv) (ds : Dataset) (a b : List Exchange) (e e1 e2 : Exchange) (outs outs' : List Dataset) (hx : ds.exchanges = a ++ e :: b)
    (hp : isProduction e = true ∧ isProduction e1 = true ∧ isProduction e2 = true) (hs : SplitProduct e e1 e2) (h : economicAllocation M ds = .ok outs)
    (h' : economicAllocation M { ds with exchanges := a ++ e1 :: e2 :: b } = .ok outs') (k : String) :
    ∃ l q r, l.length = (a.filter isProduction).length ∧ outs.map (fun o => perUnit o k) = l ++ q :: r ∧ outs'.map (fun o => perUnit o k) = l ++ q :: q :: r := by
  obtain ⟨hp, hp1, hp2⟩ := hp
  have hP : production ds = a.filter isProduction ++ e :: b.filter isProduction := by
    unfold production
    rw [hx, List.filter_append, List.filter_cons, if_pos hp]
  have hP' : production { ds with exchanges := a ++ e1 :: e2 :: b } = a.filter isProduction ++ e1 :: e2 :: b.filter isProduction := by
    unfold production
    simp only
    rw [List.filter_append, List.filter_cons, if_pos hp1, List.filter_cons, if_pos hp2]
  have hB : burden { ds with exchanges := a ++ e1 :: e2 :: b } k = burden ds k := by
    unfold burden nonproduction
    simp only
    rw [hx]
    simp only [List.filter_append, List.filter_cons, hp, hp1, hp2, Bool.not_true, Bool.false_eq_true, if_false]
  obtain ⟨-, -, fs, hf, -, h2⟩ := economicAllocation_inv h
  obtain ⟨-, -, fs', hf', -, h2'⟩ := economicAllocation_inv h'
  rw [hP] at h2 hf
  rw [hP'] at h2' hf'
  generalize a.filter isProduction = pa at *
  generalize b.filter isProduction = pb at *
  obtain ⟨θ, θ', rfl, hfs', -, ⟨hθ1, hθ2⟩, hothers⟩ := C138_products pa pb e e1 e2 fs hs hf
  rw [hf'] at hfs'
  cases hfs'
  obtain ⟨g, gn⟩ := map_perUnit k h2
  obtain ⟨g', gn'⟩ := map_perUnit k h2'
  have n0 := gn e (by simp)
  have n1 := gn' e1 (by simp)
  have n2 := gn' e2 (by simp)
  refine ⟨pa.map fun x => θ x * (burden ds k / x.amount), θ e * (burden ds k / e.amount), pb.map fun x => θ x * (burden ds k / x.amount), by simp, ?_, ?_⟩
  · rw [g, List.map_append, List.map_cons]
  · have w1 : θ' e1 * (burden ds k / e1.amount) = θ e * (burden ds k / e.amount) := by
      field_simp
      linear_combination burden ds k * hθ1
    have w2 : θ' e2 * (burden ds k / e2.amount) = θ e * (burden ds k / e.amount) := by
      field_simp
      linear_combination burden ds k * hθ2
    rw [g', hB, List.map_append, List.map_cons, List.map_cons, w1, w2]
    congr 1
    · exact List.map_congr_left fun x hx => by rw [hothers x (List.mem_append_left _ hx)]
    · congr 2
      exact List.map_congr_left fun x hx => by rw [hothers x (List.mem_append_right _ hx)]

/-- C138: if one supplier of a market is described as two, they share what it delivered, and all others deliver the same.
Partial: the full statement has no condition on `totalVol`; without any production volume it is false (see `C138_zero`). -/
theorem C138_suppliers_partial (ds out out' : Dataset) (a b : List Exchange) (s s1 s2 : Exchange) (K : String → Bool) (hs : ds.suppliers = some (a ++ s :: b))
    (hsp : SplitSupplier s s1 s2) (hK : (s1.code.any K = s.code.any K) ∧ (s2.code.any K = s.code.any K)) (ht : totalVol (a ++ s :: b) ≠ 0)
    (h : allocateSuppliers ds = .ok out) (h' : allocateSuppliers { ds with suppliers := some (a ++ s1 :: s2 :: b) } = .ok out') :
    receivedAmong out' K = receivedAmong out K := by
  obtain ⟨p, p1, p2, hp, hp1, hp2, hpp⟩ := hsp
  have hv : vol s1 + vol s2 = vol s := by
    unfold vol
    rw [hp, hp1, hp2]
    exact hpp
  have hT : totalVol (a ++ s1 :: s2 :: b) = totalVol (a ++ s :: b) := sum_split hv a b
  obtain ⟨r, hr, rfl⟩ := C41_shares ds out _ hs ht h
  obtain ⟨r2, hr2, rfl⟩ := C41_shares { ds with suppliers := some (a ++ s1 :: s2 :: b) } out' _ rfl (by rw [hT]; exact ht) h'
  have : refs { ds with suppliers := some (a ++ s1 :: s2 :: b) } = refs ds := rfl
  rw [this, hr] at hr2
  cases hr2
  have hA : amongVolume (a ++ s1 :: s2 :: b) K = amongVolume (a ++ s :: b) K := by
    unfold amongVolume
    simp only [List.filter_append, List.filter_cons, hK.1, hK.2]
    cases s.code.any K
    · rfl
    · simp only [if_true]
      exact sum_split hv _ _
  have hrec : ∀ l : List Exchange, ∀ o, receivedAmong { ds with suppliers := o, exchanges := ds.exchanges ++ (l.filter fun s => vol s != 0).map (inputFrom r.amount (totalVol l)) } K =
      receivedAmong ds K + amongVolume l K / totalVol l * r.amount := by
    intro l o
    unfold receivedAmong
    rw [← among_inputs]
    simp only [List.filter_append, List.map_append, List.sum_append]
  refine (hrec (a ++ s1 :: s2 :: b) _).trans ?_
  rw [hA, hT]
  exact (hrec (a ++ s :: b) ds.suppliers).symm

/-- A market with a supplier `a` without production, and the same described as two. -/
def idleMarket (codes : List String) : Dataset := { smallMarket 0 with suppliers := some (codes.map fun k => { name := "p", type := .referenceProduct, amount := 1, pv := some { amount := 0 }, code := some k, location := some "CH" }) }

/-- C138 fails without production volumes: a single supplier delivers everything, two of them nothing. -/
theorem C138_zero : (allocateSuppliers (idleMarket ["a"])).map (fun d => receivedAmong d fun _ => true) = .ok 1 ∧
    (allocateSuppliers (idleMarket ["a", "b"])).map (fun d => receivedAmong d fun _ => true) = .ok 0 := by decide +kernel

example : SplitProduct { cheap with amount := 3 } cheap { cheap with amount := 2 } := ⟨by decide +kernel, ⟨rfl, rfl⟩, rfl, rfl⟩
example : economicFactors [dear, { cheap with amount := 3 }] = .ok [1 / 2, 1 / 2] := by decide +kernel
example : economicFactors [dear, cheap, { cheap with amount := 2 }] = .ok [1 / 2, 1 / 6, 1 / 3] := by decide +kernel

/-- Two products, and the first one described as two. -/
example : (economicAllocation { log := fun _ => 0, e := 1 } { pricedPair 2 with exchanges := (pricedPair 2).exchanges.flatMap fun x => if x.id = "x" then [{ x with amount := 3 / 2 }, { x with amount := 1 / 2 }] else [x] }).map
    (fun l => l.map fun d => perUnit d "i") = .ok [3, 3, 6] := by decide +kernel

/-- Two suppliers, and the second one described as two. -/
example : (allocateSuppliers (smallMarket 3)).map (fun d => receivedAmong d fun k => k == "b" || k == "c") = .ok (3 / 4) := by decide +kernel
example : (allocateSuppliers { smallMarket 1 with suppliers := (smallMarket 1).suppliers.map fun l => l ++ [{ name := "p", type := .referenceProduct, amount := 1, pv := some { amount := 2 }, code := some "c", location := some "DE" }] }).map
    (fun d => receivedAmong d fun k => k == "b" || k == "c") = .ok (3 / 4) := by decide +kernel

end Ocelot
