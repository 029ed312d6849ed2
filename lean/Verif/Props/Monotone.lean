import Verif.Spec.Monotone
import Verif.Proofs.Economic
import Verif.Props.MarketAllocation
import Mathlib.Tactic.Linarith
import Mathlib.Tactic.Ring
import Mathlib.Tactic.FieldSimp
import Mathlib.Tactic.NormNum

/-! # C136: prices and production volumes act in the right direction -/

namespace Ocelot

open Spec

namespace Direction

theorem up {r T δ : ℚ} (hr : r ≤ T) (hT : 0 < T) (hδ : 0 ≤ δ) : r / T ≤ (r + δ) / (T + δ) := by
  rw [div_le_div_iff₀ hT (by linarith)]
  nlinarith [mul_nonneg hδ (sub_nonneg.mpr hr)]

theorem down {r T δ : ℚ} (hr : 0 ≤ r) (hT : 0 < T) (hδ : 0 ≤ δ) : r / (T + δ) ≤ r / T :=
  div_le_div_of_nonneg_left hr hT (by linarith)

theorem sum_nonneg {α : Type} {f : α → ℚ} {l : List α} (h : ∀ x ∈ l, 0 ≤ f x) : 0 ≤ (l.map f).sum := by
  apply List.sum_nonneg
  intro y hy
  obtain ⟨x, hx, rfl⟩ := List.mem_map.mp hy
  exact h x hx

theorem filter_sum_le {α : Type} {f : α → ℚ} (p : α → Bool) {l : List α} (h : ∀ x ∈ l, 0 ≤ f x) : ((l.filter p).map f).sum ≤ (l.map f).sum := by
  induction l with
  | nil => simp
  | cons a l ih =>
    have h1 := h a List.mem_cons_self
    have h2 := ih fun x hx => h x (List.mem_cons_of_mem _ hx)
    rw [List.filter_cons]
    cases p a
    · simp only [Bool.false_eq_true, if_false, List.map_cons, List.sum_cons]; linarith
    · simp only [if_true, List.map_cons, List.sum_cons]; linarith

theorem sum_replace {α : Type} (f : α → ℚ) (a b : List α) (e e' : α) :
    ((a ++ e' :: b).map f).sum = ((a ++ e :: b).map f).sum + (f e' - f e) := by
  simp only [List.map_append, List.map_cons, List.sum_append, List.sum_cons]
  ring

theorem mem_le_sum {α : Type} {f : α → ℚ} {l : List α} (h : ∀ x ∈ l, 0 ≤ f x) {x : α} (hx : x ∈ l) : f x ≤ (l.map f).sum := by
  induction l with
  | nil => cases hx
  | cons a l ih =>
    have h1 := h a List.mem_cons_self
    have h2 := sum_nonneg fun x hx => h x (List.mem_cons_of_mem a hx)
    simp only [List.map_cons, List.sum_cons]
    rcases List.mem_cons.mp hx with rfl | hx
    · linarith
    · have := ih (fun x hx => h x (List.mem_cons_of_mem _ hx)) hx
      linarith

/-- The factors exist whenever there is revenue, and weight if there are true values. -/
theorem factors_exist {prod : List Exchange} (h0 : prod ≠ []) (h1 : (prod.map rev).sum ≠ 0) (h2 : (∃ e ∈ prod, hasTv e = true) → sumOver prod hasTv tvWeight ≠ 0) :
    ∃ fs, economicFactors prod = .ok fs := by
  unfold economicFactors
  have e1 : revenue = rev := rfl
  have e2 : hasTrueValue = hasTv := funext hasTrueValue_eq
  have e3 : (fun e : Exchange => trueValue e * e.amount) = tvWeight := rfl
  rw [e1, e2, e3, tv_total, if_neg h0]
  refine ⟨_, (if_neg h1).trans (if_neg ?_)⟩
  rintro ⟨ha, hb⟩
  obtain ⟨x, hx, hxt⟩ := List.any_eq_true.mp ha
  exact h2 ⟨x, hx, hxt⟩ hb

end Direction

open Direction

/-- C136: a higher price does not lower the share of the product; it does not raise the share of any other product, except that products
with true values share the revenue of all of them. -/
theorem C136_price (a b : List Exchange) (e e' : Exchange) (fs : List ℚ) (h : economicFactors (a ++ e :: b) = .ok fs) (hd : Dearer e e')
    (hn : ∀ x ∈ a ++ e :: b, NonNegative x) :
    ∃ θ θ' : Exchange → ℚ, fs = (a ++ e :: b).map θ ∧ economicFactors (a ++ e' :: b) = .ok ((a ++ e' :: b).map θ') ∧ θ e ≤ θ' e' ∧
      ∀ x ∈ a ++ b, if hasTv e = true ∧ hasTv x = true then θ x ≤ θ' x else θ' x ≤ θ x := by
  obtain ⟨p, p', hp, hp', hpp⟩ := hd.price
  have hrev : ∀ x ∈ a ++ e :: b, 0 ≤ rev x := by
    intro x hx
    obtain ⟨h1, h2, -⟩ := hn x hx
    unfold rev
    cases hx : propValue x "price" with
    | none => simp
    | some q => exact mul_nonneg (h2 q hx) h1
  have hw : ∀ x ∈ a ++ e :: b, 0 ≤ tvWeight x := by
    intro x hx
    obtain ⟨h1, -, h2⟩ := hn x hx
    unfold tvWeight
    cases hx : propValue x "true value relation" with
    | none => simp
    | some q => exact mul_nonneg (h2 q hx) h1
  have hem : e ∈ a ++ e :: b := by simp
  have hδ : 0 ≤ rev e' - rev e := by
    unfold rev
    rw [hp, hp', hd.amount]
    have := mul_nonneg (sub_nonneg.mpr hpp) (hn e hem).1
    simp only [Option.getD_some]
    linarith
  have htv : hasTv e' = hasTv e := by unfold hasTv; rw [hd.trueValue]
  have htw : tvWeight e' = tvWeight e := by unfold tvWeight; rw [hd.trueValue, hd.amount]
  obtain ⟨h0, hT0, hW, hfs⟩ := economicFactors_inv h
  set δ := rev e' - rev e with hδd
  set T := ((a ++ e :: b).map rev).sum with hTd
  have hT : 0 < T := lt_of_le_of_ne (sum_nonneg hrev) (Ne.symm hT0)
  have hT' : ((a ++ e' :: b).map rev).sum = T + δ := sum_replace rev a b e e'
  set W := sumOver (a ++ e :: b) hasTv tvWeight with hWd
  have hW' : sumOver (a ++ e' :: b) hasTv tvWeight = W := by
    rw [hWd]
    unfold sumOver
    simp only [List.filter_append, List.filter_cons, htv]
    cases hasTv e
    · rfl
    · simp only [if_true, List.map_append, List.map_cons, List.sum_append, List.sum_cons, htw]
  have hW0 : 0 ≤ W := sum_nonneg fun x hx => hw x (List.mem_filter.mp hx).1
  set R := sumOver (a ++ e :: b) hasTv rev with hRd
  have hR0 : 0 ≤ R := sum_nonneg fun x hx => hrev x (List.mem_filter.mp hx).1
  have hRT : R ≤ T := filter_sum_le hasTv hrev
  have hR' : sumOver (a ++ e' :: b) hasTv rev = if hasTv e = true then R + δ else R := by
    rw [hRd, hδd]
    unfold sumOver
    simp only [List.filter_append, List.filter_cons, htv]
    cases hasTv e
    · rfl
    · simp only [if_true, List.map_append, List.map_cons, List.sum_append, List.sum_cons]
      ring
  obtain ⟨fs', hf'⟩ := factors_exist (prod := a ++ e' :: b) (by simp) (by rw [hT']; linarith) (by
    rintro ⟨x, hx, hxt⟩
    rw [hW']
    rcases List.mem_append.mp hx with hx | hx
    · exact hW ⟨x, List.mem_append_left _ hx, hxt⟩
    rcases List.mem_cons.mp hx with rfl | hx
    · exact hW ⟨e, hem, by rw [← htv]; exact hxt⟩
    · exact hW ⟨x, List.mem_append_right _ (List.mem_cons_of_mem _ hx), hxt⟩)
  obtain ⟨-, -, -, hfs'⟩ := economicFactors_inv hf'
  rw [hT', hW', hR'] at hfs'
  refine ⟨_, _, hfs, by rw [hf', hfs'], ?_, ?_⟩
  · simp only [htv, htw]
    cases ht : hasTv e
    · simp only [Bool.false_eq_true, if_false]
      have : rev e' = rev e + δ := by rw [hδd]; ring
      rw [this]
      exact up (mem_le_sum hrev hem) hT hδ
    · simp only [if_true]
      exact mul_le_mul_of_nonneg_left (up hRT hT hδ) (div_nonneg (hw e hem) hW0)
  · intro x hx
    have hx' : x ∈ a ++ e :: b := by
      rcases List.mem_append.mp hx with hx | hx
      · exact List.mem_append_left _ hx
      · exact List.mem_append_right _ (List.mem_cons_of_mem _ hx)
    have hq := div_nonneg (hw x hx') hW0
    cases ht : hasTv e <;> cases hx2 : hasTv x
    · simp only [Bool.false_eq_true, if_false, and_self]
      exact down (hrev x hx') hT hδ
    · simp only [Bool.false_eq_true, false_and, if_false, if_true]
      exact mul_le_mul_of_nonneg_left (down hR0 hT hδ) hq
    · simp only [Bool.false_eq_true, and_false, if_false]
      exact down (hrev x hx') hT hδ
    · simp only [and_self, if_true]
      exact mul_le_mul_of_nonneg_left (up hRT hT hδ) hq

/-- Two products with a price each. -/
def cheap : Exchange := { name := "p", type := .referenceProduct, amount := 1, properties := [{ name := "price", amount := 1 }] }
def dear : Exchange := { cheap with properties := [{ name := "price", amount := 3 }] }

example : Dearer cheap dear := ⟨rfl, rfl, 1, 3, rfl, rfl, by norm_num⟩
example : NonNegative cheap := ⟨by decide +kernel, fun p h => by cases h; decide +kernel, fun v h => by cases h⟩
example : economicFactors [cheap, cheap] = .ok [1 / 2, 1 / 2] := by decide +kernel
example : economicFactors [cheap, dear] = .ok [1 / 4, 3 / 4] := by decide +kernel

/-- A product with a true value. -/
def valued (p : ℚ) : Exchange := { cheap with properties := [{ name := "price", amount := p }, { name := "true value relation", amount := 1 }] }

/-- With true values a higher price raises the shares of other products with true values as well. -/
theorem C136_price_shared : economicFactors [cheap, valued 1, valued 1] = .ok [1 / 3, 1 / 3, 1 / 3] ∧
    economicFactors [cheap, valued 3, valued 1] = .ok [1 / 5, 2 / 5, 2 / 5] ∧ Dearer (valued 1) (valued 3) :=
  ⟨by decide +kernel, by decide +kernel, rfl, rfl, 1, 3, rfl, rfl, by norm_num⟩

namespace Direction

/-- The volume of the suppliers with code `k`. -/
def codeVolume (sup : List Exchange) (k : String) : ℚ := ((sup.filter fun s => s.code == some k).map vol).sum

theorem received_inputs (sup : List Exchange) (r T : ℚ) (k : String) :
    ((((sup.filter fun s => vol s != 0).map (inputFrom r T)).filter fun e => e.code == some k).map (·.amount)).sum = codeVolume sup k / T * r := by
  unfold codeVolume
  induction sup with
  | nil => simp
  | cons s l ih =>
    have hcode : (inputFrom r T s).code = s.code := rfl
    have hamount : (inputFrom r T s).amount = vol s / T * r := rfl
    by_cases hv : vol s = 0
    · have hb : (vol s != 0) = false := by simp [hv]
      simp only [List.filter_cons, hb, Bool.false_eq_true, if_false, ih]
      split
      · simp only [List.map_cons, List.sum_cons, hv, zero_add]
      · rfl
    · have hb : (vol s != 0) = true := by simp [hv]
      simp only [List.filter_cons, hb, if_true, List.map_cons, hcode]
      split
      · simp only [List.map_cons, List.sum_cons, ih, hamount]
        ring
      · exact ih

end Direction

/-- C136: a bigger production volume of one supplier does not lower what a market gets from it, nor raise what it gets from others. -/
theorem C136_market (ds out out' : Dataset) (a b : List Exchange) (s s' r : Exchange) (k : String) (hs : ds.suppliers = some (a ++ s :: b))
    (hb : Bigger s s') (hk : s.code = some k) (hn : ∀ x ∈ a ++ s :: b, 0 ≤ vol x) (ht : totalVol (a ++ s :: b) ≠ 0) (hr : refs ds = [r]) (hr0 : 0 ≤ r.amount)
    (h : allocateSuppliers ds = .ok out) (h' : allocateSuppliers { ds with suppliers := some (a ++ s' :: b) } = .ok out') :
    received out k ≤ received out' k ∧ ∀ j, j ≠ k → received out' j ≤ received out j := by
  obtain ⟨p, p', hp, hp', hpp⟩ := hb.volume
  have hδ : 0 ≤ vol s' - vol s := by
    unfold vol
    rw [hp, hp']
    exact sub_nonneg.mpr hpp
  set δ := vol s' - vol s with hδd
  have hT : 0 < totalVol (a ++ s :: b) := lt_of_le_of_ne (sum_nonneg hn) (Ne.symm ht)
  have hT' : totalVol (a ++ s' :: b) = totalVol (a ++ s :: b) + δ := sum_replace vol a b s s'
  obtain ⟨r1, hr1, rfl⟩ := C41_shares ds out _ hs ht h
  obtain ⟨r2, hr2, rfl⟩ := C41_shares { ds with suppliers := some (a ++ s' :: b) } out' _ rfl (by rw [hT']; linarith) h'
  rw [hr] at hr1
  cases hr1
  have : refs { ds with suppliers := some (a ++ s' :: b) } = refs ds := rfl
  rw [this, hr] at hr2
  cases hr2
  have hrec : ∀ j, ∀ l : List Exchange, received { ds with exchanges := ds.exchanges ++ (l.filter fun s => vol s != 0).map (inputFrom r.amount (totalVol l)) } j =
      received ds j + codeVolume l j / totalVol l * r.amount := by
    intro j l
    unfold received
    rw [← received_inputs]
    simp only [List.filter_append, List.map_append, List.sum_append]
  have hrec' : ∀ j, ∀ l : List Exchange, ∀ o, received { ds with suppliers := o, exchanges := ds.exchanges ++ (l.filter fun s => vol s != 0).map (inputFrom r.amount (totalVol l)) } j =
      received ds j + codeVolume l j / totalVol l * r.amount := fun j l _ => hrec j l
  have hV : ∀ j, codeVolume (a ++ s' :: b) j = if j = k then codeVolume (a ++ s :: b) j + δ else codeVolume (a ++ s :: b) j := by
    intro j
    unfold codeVolume
    simp only [List.filter_append, List.filter_cons, hb.code, hk]
    by_cases hj : j = k
    · subst hj
      simp only [beq_self_eq_true, if_true, List.map_append, List.map_cons, List.sum_append, List.sum_cons, hδd]
      ring
    · have : (some k == some j) = false := by simp [Ne.symm hj]
      simp only [this, Bool.false_eq_true, if_false, hj]
  have hVT : codeVolume (a ++ s :: b) k ≤ totalVol (a ++ s :: b) := filter_sum_le _ hn
  refine ⟨?_, fun j hj => ?_⟩
  · rw [hrec k, hrec' k, hV, if_pos rfl, hT']
    have := mul_le_mul_of_nonneg_right (up hVT hT hδ) hr0
    linarith
  · rw [hrec j, hrec' j, hV, if_neg hj, hT']
    have hV0 : 0 ≤ codeVolume (a ++ s :: b) j := sum_nonneg fun x hx => hn x (List.mem_filter.mp hx).1
    have := mul_le_mul_of_nonneg_right (down hV0 hT hδ) hr0
    linarith

/-- A market with two suppliers. -/
def smallMarket (v : ℚ) : Dataset := { name := "m", location := "GLO", type := .market, refProduct := some "p", exchanges := [{ name := "p", type := .referenceProduct, amount := 1 }], suppliers := some [{ name := "p", type := .referenceProduct, amount := 1, pv := some { amount := 1 }, code := some "a", location := some "CH" },
    { name := "p", type := .referenceProduct, amount := 1, pv := some { amount := v }, code := some "b", location := some "FR" }] }

example : (allocateSuppliers (smallMarket 1)).map (fun d => (received d "a", received d "b")) = .ok (1 / 2, 1 / 2) := by decide +kernel
example : (allocateSuppliers (smallMarket 3)).map (fun d => (received d "a", received d "b")) = .ok (1 / 4, 3 / 4) := by decide +kernel

end Ocelot
