import Verif.Model.Cutoff
import Verif.Props.Utils
import Mathlib.Algebra.Order.BigOperators.Group.List
import Mathlib.Tactic.Positivity

namespace Ocelot
open Spec

theorem sum_filter_split {α : Type} (l : List α) (p : α → Bool) (f : α → ℚ) :
    (l.map f).sum = ((l.filter p).map f).sum + ((l.filter fun a => !p a).map f).sum := by
  induction l with
  | nil => simp
  | cons a l ih =>
    by_cases h : p a = true
    · simp [h, ih]; ring
    · simp [h, ih]; ring

theorem sum_map_mul {α : Type} (l : List α) (f : α → ℚ) (c : ℚ) :
    (l.map fun a => f a * c).sum = (l.map f).sum * c := by
  induction l with
  | nil => simp
  | cons a l ih => simp [ih]; ring

theorem sum_map_div {α : Type} (l : List α) (f : α → ℚ) (c : ℚ) :
    (l.map fun a => f a / c).sum = (l.map f).sum / c := by
  simp only [div_eq_mul_inv]; exact sum_map_mul l f c⁻¹

theorem revenue_eq (e : Exchange) : revenue e = rev e := rfl

theorem hasTrueValue_eq (e : Exchange) : hasTrueValue e = hasTv e := by
  unfold hasTrueValue hasTv getPropertyByName propValue
  cases e.properties.find? _ <;> rfl

theorem tvWeight_eq (e : Exchange) : trueValue e * e.amount = tvWeight e := rfl

theorem tvWeight_of_not {e : Exchange} (h : hasTv e = false) : tvWeight e = 0 := by
  unfold hasTv at h; unfold tvWeight
  rcases hp : propValue e "true value relation" with _ | v
  · simp
  · simp [hp] at h

theorem tv_total (l : List Exchange) :
    (l.map tvWeight).sum = sumOver l hasTv tvWeight := by
  rw [sum_filter_split l hasTv tvWeight]
  unfold sumOver
  have : ((l.filter fun a => !hasTv a).map tvWeight).sum = 0 := by
    apply List.sum_eq_zero
    intro x hx
    obtain ⟨e, he, rfl⟩ := List.mem_map.mp hx
    exact tvWeight_of_not (by simpa using (List.mem_filter.mp he).2)
  rw [this, add_zero]

/-- The factors in terms of the specification vocabulary. -/
theorem economicFactors_inv {prod : List Exchange} {fs : List ℚ} (h : economicFactors prod = .ok fs) :
    prod ≠ [] ∧ (prod.map rev).sum ≠ 0 ∧
    ((∃ e ∈ prod, hasTv e = true) → sumOver prod hasTv tvWeight ≠ 0) ∧
    fs = prod.map fun e =>
      if hasTv e then tvWeight e / sumOver prod hasTv tvWeight * (sumOver prod hasTv rev / (prod.map rev).sum)
      else rev e / (prod.map rev).sum := by
  unfold economicFactors at h
  have e1 : revenue = rev := rfl
  have e2 : hasTrueValue = hasTv := funext hasTrueValue_eq
  have e3 : (fun e : Exchange => trueValue e * e.amount) = tvWeight := rfl
  rw [e1, e2, e3, tv_total] at h
  split at h
  · cases h
  next hne =>
  simp only at h
  split at h
  · cases h
  next hR =>
  split at h
  · cases h
  next hT =>
  refine ⟨hne, hR, ?_, (Except.ok.inj h).symm⟩
  rintro ⟨e, he, ht⟩ h0
  exact hT ⟨List.any_eq_true.mpr ⟨e, he, ht⟩, h0⟩

theorem sum_ite_split {α : Type} (l : List α) (p : α → Bool) (f g : α → ℚ) :
    (l.map fun a => if p a then f a else g a).sum = sumOver l p f + sumOver l (fun a => !p a) g := by
  unfold sumOver
  induction l with
  | nil => simp
  | cons a l ih =>
    by_cases h : p a = true
    · simp [h, ih]; ring
    · simp [h, ih]; ring

theorem economicFactors_sum {prod : List Exchange} {fs : List ℚ} (h : economicFactors prod = .ok fs) :
    fs.sum = 1 := by
  obtain ⟨-, hR, hT, rfl⟩ := economicFactors_inv h
  rw [sum_ite_split]
  have hsplit := sum_filter_split prod hasTv rev
  have h2 : sumOver prod (fun a => !hasTv a) (fun e => rev e / (prod.map rev).sum)
      = sumOver prod (fun a => !hasTv a) rev / (prod.map rev).sum := sum_map_div _ _ _
  have h1 : sumOver prod hasTv (fun e => tvWeight e / sumOver prod hasTv tvWeight * (sumOver prod hasTv rev / (prod.map rev).sum))
      = sumOver prod hasTv rev / (prod.map rev).sum := by
    by_cases hex : ∃ e ∈ prod, hasTv e = true
    · have hT' := hT hex
      have : sumOver prod hasTv (fun e => tvWeight e / sumOver prod hasTv tvWeight * (sumOver prod hasTv rev / (prod.map rev).sum))
          = sumOver prod hasTv tvWeight / sumOver prod hasTv tvWeight * (sumOver prod hasTv rev / (prod.map rev).sum) := by
        conv_lhs => unfold sumOver
        rw [sum_map_mul, sum_map_div]; rfl
      rw [this, div_self hT', one_mul]
    · have : prod.filter hasTv = [] := by
        rw [List.filter_eq_nil_iff]; intro a ha; exact fun h => hex ⟨a, ha, h⟩
      simp [sumOver, this]
  rw [h1, h2, ← add_div]
  rw [show sumOver prod hasTv rev + sumOver prod (fun a => !hasTv a) rev = (prod.map rev).sum from hsplit.symm]
  exact div_self hR

theorem checkEconomic_ok {e : Exchange} (h : checkEconomicExchange e = .ok ()) :
    0 ≤ rev e ∧ 0 ≤ e.amount ∧ ∃ p, propValue e "price" = some p ∧ 0 ≤ p := by
  unfold checkEconomicExchange at h
  have : getNumericalProperty e "price" = propValue e "price" := rfl
  rw [this] at h
  rcases hp : propValue e "price" with _ | p <;> rw [hp] at h
  · cases h
  simp only at h
  split at h
  · cases h
  next h1 =>
  split at h
  · cases h
  next h2 =>
  have h1 := not_lt.mp h1
  have h2 := not_lt.mp h2
  refine ⟨?_, h2, p, rfl, h1⟩
  unfold rev; rw [hp]; exact mul_nonneg h1 h2

theorem economicFactors_nonneg {prod : List Exchange} {fs : List ℚ}
    (h : economicFactors prod = .ok fs) (h1 : ∀ e ∈ prod, 0 ≤ rev e)
    (h2 : ∀ e ∈ prod, 0 ≤ tvWeight e) : ∀ θ ∈ fs, 0 ≤ θ := by
  obtain ⟨-, hR, hT, rfl⟩ := economicFactors_inv h
  have s1 : 0 ≤ (prod.map rev).sum := List.sum_nonneg (by simpa using h1)
  have s2 : 0 ≤ sumOver prod hasTv tvWeight := List.sum_nonneg (by
    intro x hx; obtain ⟨e, he, rfl⟩ := List.mem_map.mp hx; exact h2 e (List.mem_filter.mp he).1)
  have s3 : 0 ≤ sumOver prod hasTv rev := List.sum_nonneg (by
    intro x hx; obtain ⟨e, he, rfl⟩ := List.mem_map.mp hx; exact h1 e (List.mem_filter.mp he).1)
  intro θ hθ
  obtain ⟨e, he, rfl⟩ := List.mem_map.mp hθ
  have := h1 e he
  have := h2 e he
  split <;> positivity

theorem economicAllocation_inv {M : MathEnv} {ds : Dataset} {outs : List Dataset}
    (h : economicAllocation M ds = .ok outs) :
    Classified ds ∧ (∀ e ∈ production ds, 0 ≤ rev e ∧ 0 ≤ e.amount ∧ ∃ p, propValue e "price" = some p ∧ 0 ≤ p) ∧
    ∃ fs, economicFactors (production ds) = .ok fs ∧ fs.length = (production ds).length ∧
      List.Forall₂ (fun (p : ℚ × Exchange) o => chooseReferenceProduct M ds p.2 p.1 = .ok o)
        (fs.zip (production ds)) outs := by
  unfold economicAllocation at h
  obtain ⟨prod, hp, h⟩ := bind_eq_ok.mp h
  obtain ⟨hc, rfl⟩ := allocatableProduction_inv hp
  obtain ⟨_, hck, h⟩ := bind_eq_ok.mp h
  obtain ⟨fs, hf, h⟩ := bind_eq_ok.mp h
  refine ⟨hc, fun e he => checkEconomic_ok (forE_ok_iff.mp hck e he), fs, hf, ?_, mapE_ok_iff.mp h⟩
  obtain ⟨-, -, -, rfl⟩ := economicFactors_inv hf
  simp

/-- The effect of choosing a product on the burdens and the reference amount. -/
theorem choose_burden {M : MathEnv} {ds out : Dataset} {x : Exchange} {f : ℚ}
    (h : chooseReferenceProduct M ds x f = .ok out) :
    ∃ n, 0 < n ∧ NormFactor x.amount n ∧ x.amount ≠ 0 ∧ refAmount out = x.amount * n ∧
      ∀ k, burden out k = burden ds k * (f * n) := by
  obtain ⟨h0, hc, n, non, hn, hN, hS, hout⟩ := C11_choose_shape M ds out x f h
  refine ⟨n, hn, hN, h0, ?_, ?_⟩
  · obtain ⟨rp, hr, -⟩ := C11_choose_reference M ds out x f h
    have hr' := hr
    rw [hout] at hr'
    unfold refs at hr'
    simp only [List.cons_append] at hr'
    rw [List.filter_cons_of_pos (by rfl)] at hr'
    have := (List.cons.inj hr').1
    unfold refAmount
    rw [hr, ← this]; simp
  · intro k
    have hnon : ∀ e ∈ non, isProduction e = false := by
      intro e he
      obtain ⟨a, ha, hab⟩ := forall₂_mem_right hS he
      rw [hab.prod]; simpa using (List.mem_filter.mp ha).2
    have h1 : (nonproduction out).filter (fun e => e.id == k && e.type != .droppedProduct)
        = non.filter fun e => e.id == k && e.type != .droppedProduct := by
      rw [hout]
      unfold nonproduction
      simp only [List.cons_append]
      rw [List.filter_cons_of_neg (by simp [isProduction]), List.filter_append, List.filter_append]
      rw [List.filter_filter,
        (List.filter_eq_nil_iff (l := List.map _ _)).mpr (by
          intro e he
          obtain ⟨a, _, rfl⟩ := List.mem_map.mp he
          simp)]
      simp only [List.nil_append]
      congr 1
      exact List.filter_eq_self.mpr (by intro a ha; simp [hnon a ha])
    unfold burden
    rw [h1]
    have h2 : List.Forall₂ (ScaledBy (f * n))
        ((nonproduction ds).filter fun e => e.id == k && e.type != .droppedProduct)
        (non.filter fun e => e.id == k && e.type != .droppedProduct) :=
      forall₂_filter_rel hS fun a b hab => by rw [hab.id, hab.type]
    rw [← forall₂_map_eq' (p := fun e : Exchange => e.amount * (f * n)) h2
      (fun a b hab => hab.amount.symm)]
    exact sum_map_mul _ (fun e : Exchange => e.amount) (f * n)

theorem conserve_sum {M : MathEnv} {ds : Dataset} {fs : List ℚ} {prod : List Exchange}
    {outs : List Dataset} (hl : fs.length = prod.length)
    (h : List.Forall₂ (fun (p : ℚ × Exchange) o => chooseReferenceProduct M ds p.2 p.1 = .ok o)
        (fs.zip prod) outs) (k : String) :
    ((prod.zip outs).map fun po => burden po.2 k * (po.1.amount / refAmount po.2)).sum
      = fs.sum * burden ds k := by
  induction prod generalizing fs outs with
  | nil =>
    rcases fs with _ | ⟨f, fs⟩
    · simp
    · simp at hl
  | cons p prod ih =>
    rcases fs with _ | ⟨f, fs⟩
    · simp at hl
    · rw [List.zip_cons_cons] at h
      cases h with
      | @cons _ o _ outs' h1 h2 =>
        simp only [List.zip_cons_cons, List.map_cons, List.sum_cons]
        rw [ih (by simpa using hl) h2]
        obtain ⟨n, hn, -, h0, hr, hb⟩ := choose_burden h1
        simp only at hr hb h0
        rw [hr, hb k]
        field_simp

end Ocelot
