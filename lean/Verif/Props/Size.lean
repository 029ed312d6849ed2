import Verif.Spec.Size
import Verif.Model.ActivityLinks
import Verif.Model.Validation
import Verif.Proofs.Utils
import Verif.Proofs.UnitsBase
import Verif.Proofs.OrderVolumes
import Mathlib.Tactic.FieldSimp
import Mathlib.Tactic.Ring
import Mathlib.Tactic.Linarith
import Mathlib.Tactic.NormNum

/-! # C135: the size at which an activity is described does not matter -/

namespace Ocelot

open Spec

namespace Size

variable {c : ℚ}

theorem inj (hc : 0 < c) {e e' : Exchange} (h : excAtSize c e = excAtSize c e') : e = e' := by
  have ha : c * e.amount = c * e'.amount := congrArg (fun x : Exchange => x.amount) h
  have ha' : e.amount = e'.amount := mul_left_cancel₀ hc.ne' ha
  have hinv : ∀ x : Exchange, ({ excAtSize c x with amount := x.amount } : Exchange) = x := fun _ => rfl
  have : ({ excAtSize c e with amount := e'.amount } : Exchange) = { excAtSize c e' with amount := e'.amount } := by rw [h]
  rw [hinv, ← ha', hinv] at this
  exact this

theorem isAllocatable_at (c : ℚ) (e : Exchange) : isAllocatable (excAtSize c e) = isAllocatable e := rfl

theorem filterE_at (c : ℚ) {p : Exchange → Except Err Bool} (hp : ∀ e, p (excAtSize c e) = p e) (l : List Exchange) :
    filterE p (l.map (excAtSize c)) = (filterE p l).map fun r => r.map (excAtSize c) := by
  induction l with
  | nil => rfl
  | cons a l ih =>
    simp only [List.map_cons, filterE, hp, ih]
    cases p a with
    | error x => rfl
    | ok b =>
      cases filterE p l with
      | error x => rfl
      | ok r => cases b <;> rfl

theorem filterE_sub {α : Type} {p : α → Except Err Bool} {l r : List α} (h : filterE p l = .ok r) : ∀ a ∈ r, a ∈ l ∧ p a = .ok true := by
  induction l generalizing r with
  | nil => cases h; intro a ha; cases ha
  | cons b l ih =>
    simp only [filterE] at h
    cases hb : p b with
    | error x => rw [hb] at h; cases h
    | ok t =>
      rw [hb] at h
      cases hr : filterE p l with
      | error x => rw [hr] at h; cases h
      | ok s =>
        rw [hr] at h
        cases t
        · cases h
          exact fun a ha => ⟨List.mem_cons_of_mem _ (ih hr a ha).1, (ih hr a ha).2⟩
        · cases h
          intro a ha
          rcases List.mem_cons.mp ha with rfl | ha
          · exact ⟨List.mem_cons_self, hb⟩
          · exact ⟨List.mem_cons_of_mem _ (ih hr a ha).1, (ih hr a ha).2⟩

/-- Without uncertainty, scaling multiplies the amounts. -/
theorem scale_all (M : MathEnv) (f : ℚ) (l : List Exchange) (h : ∀ e ∈ l, e.uncertainty = none) :
    mapE (fun e => scaleExchange M e f) l = .ok (l.map (excAtSize f)) := by
  induction l with
  | nil => rfl
  | cons a l ih =>
    have h1 : scaleExchange M a f = .ok (excAtSize f a) := by
      rw [scaleExchange_certain f (h a List.mem_cons_self)]
      unfold excAtSize
      rw [mul_comm]
    simp only [mapE, h1, ih fun e he => h e (List.mem_cons_of_mem _ he)]
    rfl

theorem refs_at (c : ℚ) (d : Dataset) : referenceProducts (atSize c d) = (referenceProducts d).map (excAtSize c) := by
  unfold referenceProducts atSize
  rw [List.filter_map]; rfl

theorem single_at (c : ℚ) (d : Dataset) : getSingleReferenceProduct (atSize c d) = (getSingleReferenceProduct d).map (excAtSize c) := by
  unfold getSingleReferenceProduct
  rw [refs_at]
  match referenceProducts d with
  | [] => rfl
  | [e] => rfl
  | _ :: _ :: _ => rfl

/-- What normalising does to an activity whose reference product is told apart from one. -/
theorem normalize_form (M : MathEnv) (d : Dataset) (hd : Certain d) (rp : Exchange) (hrp : getSingleReferenceProduct d = .ok rp)
    (h : Distinct rp.amount) (h0 : rp.amount ≠ 0) : normalize M d = .ok (atSize (1 / |rp.amount|) d) := by
  unfold normalize
  rw [hrp]
  show (if rp.amount = 0 then _ else _) = _
  rw [if_neg h0]
  show (if |1 / |rp.amount| - 1| > normEpsilon then _ else _) = _
  rcases h with h | h | h
  · exact absurd h h0
  · rw [h]
    rw [if_neg (by unfold normEpsilon; norm_num)]
    have : atSize (1 / 1) d = d := by
      unfold atSize excAtSize
      simp
    rw [this]; rfl
  · rw [if_pos (by unfold normEpsilon; exact h), scale_all M _ _ hd]
    rfl

theorem atSize_atSize (a b : ℚ) (d : Dataset) : atSize a (atSize b d) = atSize (a * b) d := by
  unfold atSize excAtSize
  simp only [List.map_map]
  congr 1
  apply List.map_congr_left
  intro e _
  simp only [Function.comp, mul_assoc]

theorem certain_at {d : Dataset} (h : Certain d) : Certain (atSize c d) := by
  intro e he
  obtain ⟨x, hx, rfl⟩ := List.mem_map.mp he
  exact h x hx

theorem normalize_at (hc : 0 < c) (M : MathEnv) (d : Dataset) (hd : Certain d)
    (h : ∀ rp ∈ referenceProducts d, Distinct rp.amount ∧ Distinct (c * rp.amount)) : normalize M (atSize c d) = normalize M d := by
  cases hrp : getSingleReferenceProduct d with
  | error x =>
    have : getSingleReferenceProduct (atSize c d) = .error x := by rw [single_at, hrp]; rfl
    unfold normalize
    rw [hrp, this]; rfl
  | ok rp =>
    have hat : getSingleReferenceProduct (atSize c d) = .ok (excAtSize c rp) := by rw [single_at, hrp]; rfl
    have hmem : rp ∈ referenceProducts d := by
      unfold getSingleReferenceProduct at hrp
      split at hrp
      · cases hrp
      · next heq => cases hrp; rw [heq]; exact List.mem_cons_self
      · cases hrp
    by_cases h0 : rp.amount = 0
    · have h0' : (excAtSize c rp).amount = 0 := by show c * rp.amount = 0; rw [h0, mul_zero]
      unfold normalize
      rw [hrp, hat]
      show (if _ then _ else _) = (if _ then _ else _)
      rw [if_pos h0, if_pos h0']
      rfl
    · have h0' : (excAtSize c rp).amount ≠ 0 := mul_ne_zero hc.ne' h0
      rw [normalize_form M d hd rp hrp (h rp hmem).1 h0, normalize_form M _ (certain_at hd) _ hat (h rp hmem).2 h0', atSize_atSize]
      congr 2
      show 1 / |c * rp.amount| * c = _
      rw [abs_mul, abs_of_pos hc]
      have := abs_ne_zero.mpr h0
      field_simp

theorem production_at (c : ℚ) (d : Dataset) : allocatableProduction (atSize c d) = (allocatableProduction d).map fun r => r.map (excAtSize c) :=
  filterE_at c (isAllocatable_at c) _

theorem nonproduction_at (c : ℚ) (d : Dataset) : nonproductionExchanges (atSize c d) = (nonproductionExchanges d).map fun r => r.map (excAtSize c) :=
  filterE_at c (fun _ => rfl) _

theorem comm (c f : ℚ) (e : Exchange) : excAtSize f (excAtSize c e) = excAtSize c (excAtSize f e) := by
  unfold excAtSize
  simp only [mul_left_comm]

/-- What is known about the results of normalising, for amounts of reference products that are `good`. -/
def Normalized (c : ℚ) (M : MathEnv) (good : ℚ → Prop) (Q : Dataset → Dataset → Prop) : Prop :=
  ∀ d, Certain d → (∀ rp ∈ referenceProducts d, good rp.amount) → Units.ER Q (normalize M d) (normalize M (atSize c d))

theorem choose_at (hc : 0 < c) {M : MathEnv} {good : ℚ → Prop} {Q : Dataset → Dataset → Prop} (hQ : Normalized c M good Q)
    (d : Dataset) (hd : Certain d) (e : Exchange) (f : ℚ) (h : good e.amount) :
    Units.ER Q (chooseReferenceProduct M d e f) (chooseReferenceProduct M (atSize c d) (excAtSize c e) f) := by
  unfold chooseReferenceProduct
  by_cases h0 : e.amount = 0
  · rw [if_pos h0, if_pos (show (excAtSize c e).amount = 0 by show c * e.amount = 0; rw [h0, mul_zero])]; exact rfl
  rw [if_neg h0, if_neg (show (excAtSize c e).amount ≠ 0 from mul_ne_zero hc.ne' h0)]
  rw [production_at, nonproduction_at]
  cases hp : allocatableProduction d with
  | error x => exact rfl
  | ok prod =>
    cases hn : nonproductionExchanges d with
    | error x => exact rfl
    | ok non =>
      have hnd : ∀ x ∈ non, x.uncertainty = none := fun x hx => hd x (filterE_sub hn x hx).1
      have hnt : ∀ x ∈ non, x.type ≠ .referenceProduct := by
        intro x hx ht
        have := (filterE_sub hn x hx).2
        simp only [isAllocatable, ht] at this
        cases this
      show Units.ER Q (mapE _ non >>= _) (mapE _ (non.map (excAtSize c)) >>= _)
      rw [scale_all M f non hnd, scale_all M f (non.map (excAtSize c)) (by
        intro x hx
        obtain ⟨y, hy, rfl⟩ := List.mem_map.mp hx
        exact hnd y hy)]
      show Units.ER Q (normalize M _) (normalize M _)
      have heq : ({ atSize c d with exchanges := [chosenProduct (excAtSize c e)]
          ++ ((prod.map (excAtSize c)).filter fun x => x != excAtSize c e).map nonreferenceProduct
          ++ (non.map (excAtSize c)).map (excAtSize f) } : Dataset)
          = atSize c { d with exchanges := [chosenProduct e]
          ++ (prod.filter fun x => x != e).map nonreferenceProduct ++ non.map (excAtSize f) } := by
        unfold atSize
        simp only [List.map_append, List.map_map, List.map_cons, List.map_nil]
        congr 1
        congr 1
        · congr 1
          rw [List.filter_map, List.map_map]
          have : ((fun x => x != excAtSize c e) ∘ excAtSize c) = fun x => x != e := by
            funext x
            show (excAtSize c x != excAtSize c e) = (x != e)
            by_cases hx : x = e
            · subst hx; simp
            · have : excAtSize c x ≠ excAtSize c e := fun hh => hx (inj hc hh)
              rw [bne_iff_ne.mpr hx, bne_iff_ne.mpr this]
          rw [this]
          apply List.map_congr_left
          intro x _
          show nonreferenceProduct (excAtSize c x) = excAtSize c (nonreferenceProduct x)
          unfold nonreferenceProduct excAtSize
          simp
        · apply List.map_congr_left
          intro x _
          exact comm c f x
      rw [heq]
      apply hQ
      · intro x hx
        simp only [List.mem_append, List.mem_map, List.mem_singleton] at hx
        rcases hx with (rfl | ⟨y, -, rfl⟩) | ⟨y, hy, rfl⟩
        · rfl
        · rfl
        · exact hnd y hy
      · intro rp hrp
        unfold referenceProducts at hrp
        rw [List.mem_filter] at hrp
        obtain ⟨hx, ht⟩ := hrp
        simp only [List.mem_append, List.mem_map, List.mem_singleton] at hx
        rcases hx with (rfl | ⟨y, -, rfl⟩) | ⟨y, hy, rfl⟩
        · exact h
        · cases ht
        · exact absurd (eq_of_beq ht) (hnt y hy)

theorem sum_at (c : ℚ) (g : Exchange → ℚ) (hg : ∀ e, g (excAtSize c e) = c * g e) (l : List Exchange) :
    ((l.map (excAtSize c)).map g).sum = c * (l.map g).sum := by
  induction l with
  | nil => simp
  | cons a l ih => simp only [List.map_cons, List.sum_cons, hg, ih, mul_add]

theorem revenue_at (c : ℚ) (e : Exchange) : revenue (excAtSize c e) = c * revenue e := by
  show price e * (c * e.amount) = c * (price e * e.amount)
  ring

/-- The shares of the products do not depend on the size. -/
theorem factors_at (hc : 0 < c) (l : List Exchange) : economicFactors (l.map (excAtSize c)) = economicFactors l := by
  unfold economicFactors
  have ht := sum_at c revenue (revenue_at c) l
  have hv := sum_at c (fun e => trueValue e * e.amount) (fun e => by show trueValue e * (c * e.amount) = _; ring) l
  have hr : (((l.map (excAtSize c)).filter hasTrueValue).map revenue).sum = c * ((l.filter hasTrueValue).map revenue).sum := by
    rw [List.filter_map]; exact sum_at c revenue (revenue_at c) _
  have ha : (l.map (excAtSize c)).any hasTrueValue = l.any hasTrueValue := by rw [List.any_map]; rfl
  simp only [ht, hv, hr, ha, List.map_eq_nil_iff, mul_eq_zero, hc.ne', false_or]
  by_cases h1 : l = []
  · simp [h1]
  rw [if_neg h1, if_neg h1]
  by_cases h2 : (l.map revenue).sum = 0
  · rw [if_pos h2, if_pos h2]
  rw [if_neg h2, if_neg h2]
  split
  · rfl
  · congr 1
    rw [List.map_map]
    apply List.map_congr_left
    intro e _
    show (if hasTrueValue e then trueValue e * (c * e.amount) / _ * _ else revenue (excAtSize c e) / _) = _
    rw [revenue_at]
    split
    · by_cases h3 : (l.map fun e => trueValue e * e.amount).sum = 0
      · simp [h3]
      · have := hc.ne'
        field_simp
    · have := hc.ne'
      field_simp

theorem check_at (hc : 0 < c) (l : List Exchange) : forE checkEconomicExchange (l.map (excAtSize c)) = forE checkEconomicExchange l := by
  induction l with
  | nil => rfl
  | cons a l ih =>
    have : checkEconomicExchange (excAtSize c a) = checkEconomicExchange a := by
      unfold checkEconomicExchange
      rw [show getNumericalProperty (excAtSize c a) "price" = getNumericalProperty a "price" from rfl]
      cases getNumericalProperty a "price" with
      | none => rfl
      | some p =>
        have : (excAtSize c a).amount < 0 ↔ a.amount < 0 := by
          show c * a.amount < 0 ↔ _
          exact mul_neg_iff.trans ⟨fun h => h.elim (·.2) fun h => absurd h.1 (not_lt.mpr hc.le), fun h => .inl ⟨hc, h⟩⟩
        simp only [this]
    simp only [List.map_cons, forE, this, ih]

theorem mapE_zip_at {β γ : Type} {Q : Dataset → Dataset → Prop} (g : γ → γ) {F G : β × γ → Except Err Dataset} (fs : List β) (l : List γ)
    (h : ∀ x ∈ l, ∀ b, Units.ER Q (G (b, x)) (F (b, g x))) : Units.ER (List.Forall₂ Q) (mapE G (fs.zip l)) (mapE F (fs.zip (l.map g))) := by
  induction l generalizing fs with
  | nil => cases fs <;> exact List.Forall₂.nil
  | cons a l ih =>
    cases fs with
    | nil => exact List.Forall₂.nil
    | cons b fs =>
      exact (h a List.mem_cons_self b).bind fun y y' hy => (ih fs fun x hx => h x (List.mem_cons_of_mem _ hx)).bind fun r r' hr => List.Forall₂.cons hy hr

theorem production_type {e : Exchange} (h : isAllocatable e = .ok true) : e.type = .referenceProduct ∨ e.type = .byproduct := by
  unfold isAllocatable at h
  split at h
  · next h' => exact .inl h'
  · next h' => exact .inr h'
  · cases h

theorem neg_at (hc : 0 < c) (x : ℚ) : c * x < 0 ↔ x < 0 :=
  mul_neg_iff.trans ⟨fun h => h.elim (·.2) fun h => absurd h.1 (not_lt.mpr hc.le), fun h => .inl ⟨hc, h⟩⟩

theorem anyByproduct_at (c : ℚ) (l : List Exchange) : anyAllocatableByproduct (l.map (excAtSize c)) = anyAllocatableByproduct l := by
  induction l with
  | nil => rfl
  | cons a l ih =>
    simp only [List.map_cons, anyAllocatableByproduct, ih]
    rfl

theorem single_mem {d : Dataset} {rp : Exchange} (hrp : getSingleReferenceProduct d = .ok rp) : rp ∈ d.exchanges ∧ rp.type = .referenceProduct := by
  unfold getSingleReferenceProduct at hrp
  split at hrp
  · cases hrp
  · next heq =>
    cases hrp
    have : rp ∈ referenceProducts d := by rw [heq]; exact List.mem_cons_self
    exact ⟨(List.mem_filter.mp this).1, eq_of_beq (List.mem_filter.mp this).2⟩
  · cases hrp

theorem ratios_at (hc : 0 < c) (l : List Exchange) : pvRatios (l.map (excAtSize c)) = (pvRatios l).map fun r => r.map fun x => x / c := by
  induction l with
  | nil => rfl
  | cons a l ih =>
    simp only [List.map_cons, pvRatios, ih]
    have : ((excAtSize c a).type = .referenceProduct ∧ (excAtSize c a).amount ≠ 0) ↔ (a.type = .referenceProduct ∧ a.amount ≠ 0) := by
      show (a.type = _ ∧ c * a.amount ≠ 0) ↔ _
      rw [mul_ne_zero_iff]
      exact ⟨fun h => ⟨h.1, h.2.2⟩, fun h => ⟨h.1, hc.ne', h.2⟩⟩
    by_cases h : a.type = .referenceProduct ∧ a.amount ≠ 0
    · rw [if_pos h, if_pos (this.mpr h)]
      show (getKey a.pv >>= _) = _
      cases a.pv with
      | none => rfl
      | some p =>
        cases pvRatios l with
        | error x => rfl
        | ok r =>
          show Except.ok (p.amount / (c * a.amount) :: _) = Except.ok (p.amount / a.amount / c :: _)
          rw [div_div, mul_comm c]
    · rw [if_neg h, if_neg (fun h' => h (this.mp h'))]

theorem biggest_at (hc : 0 < c) (d : Dataset) : getBiggestPvRatio (atSize c d) = (getBiggestPvRatio d).map fun x => x / c := by
  unfold getBiggestPvRatio
  show (pvRatios (d.exchanges.map (excAtSize c)) >>= _) = _
  rw [ratios_at hc]
  cases pvRatios d.exchanges with
  | error x => rfl
  | ok rs =>
    have hs : (rs.map fun x => x / c).insertionSort (fun a b => |b| ≤ |a|) = (rs.insertionSort (fun a b => |b| ≤ |a|)).map fun x => x / c := by
      refine (List.map_insertionSort _ _ _ _ fun a _ b _ => ?_).symm
      rw [abs_div, abs_div]
      exact (div_le_div_iff_of_pos_right (abs_pos.mpr hc.ne')).symm
    show (match (rs.map fun x => x / c).insertionSort (fun a b => |b| ≤ |a|) with | [] => _ | r :: _ => _) = _
    rw [hs]
    show _ = Except.map _ (match rs.insertionSort (fun a b => |b| ≤ |a|) with | [] => _ | r :: _ => _)
    cases rs.insertionSort (fun a b => |b| ≤ |a|) with
    | nil => rfl
    | cons r l => rfl

end Size

open Size

/-- C135: normalising an activity gives the same result at every size, if the tolerance does not interfere. -/
theorem C135_normalize (c : ℚ) (hc : 0 < c) (M : MathEnv) (d : Dataset) (hd : Certain d) (hs : Sizeable c d) :
    normalize M (atSize c d) = normalize M d := by
  refine normalize_at hc M d hd fun rp hrp => ?_
  unfold referenceProducts at hrp
  rw [List.mem_filter] at hrp
  exact hs rp hrp.1 (.inl (eq_of_beq hrp.2))

/-- What normalising does in general: it multiplies by a factor that makes the reference product one, or is within the tolerance of it. -/
theorem Size.normalize_factor {M : MathEnv} {d r : Dataset} (hd : Certain d) (h : normalize M d = .ok r) :
    ∃ rp k u, getSingleReferenceProduct d = .ok rp ∧ rp.amount ≠ 0 ∧ r = atSize k d ∧ k = u * (1 / |rp.amount|) ∧ |1 / u - 1| ≤ 1 / 10 ^ 14 ∧ u ≠ 0 := by
  unfold normalize at h
  cases hrp : getSingleReferenceProduct d with
  | error x => rw [hrp] at h; cases h
  | ok rp =>
    rw [hrp] at h
    by_cases h0 : rp.amount = 0
    · replace h := (if_pos h0).symm.trans h
      cases h
    replace h := (if_neg h0).symm.trans h
    have ha := abs_ne_zero.mpr h0
    by_cases hf : |1 / |rp.amount| - 1| > normEpsilon
    · replace h := (if_pos hf).symm.trans h
      rw [scale_all M _ _ hd] at h
      cases h
      exact ⟨rp, 1 / |rp.amount|, 1, rfl, h0, rfl, by ring, by norm_num, one_ne_zero⟩
    · replace h := (if_neg hf).symm.trans h
      cases h
      refine ⟨rp, 1, |rp.amount|, rfl, h0, ?_, by field_simp, not_lt.mp hf, ha⟩
      unfold atSize excAtSize
      simp

theorem Size.normalize_ok (M : MathEnv) {d : Dataset} (hd : Certain d) {rp : Exchange} (hrp : getSingleReferenceProduct d = .ok rp) (h0 : rp.amount ≠ 0) :
    ∃ y, normalize M d = .ok y := by
  unfold normalize
  rw [hrp]
  by_cases hf : |1 / |rp.amount| - 1| > normEpsilon
  · refine ⟨atSize (1 / |rp.amount|) d, (if_neg h0).trans ((if_pos hf).trans ?_)⟩
    rw [scale_all M _ _ hd]
    rfl
  · exact ⟨_, (if_neg h0).trans (if_neg hf)⟩

/-- C135: in any case the two results differ by a common factor that is one within 3e-14. -/
theorem C135_tolerance (c : ℚ) (hc : 0 < c) (M : MathEnv) (d r r' : Dataset) (hd : Certain d)
    (h : normalize M d = .ok r) (h' : normalize M (atSize c d) = .ok r') : NearlySame r r' := by
  obtain ⟨rp, k, u, hrp, h0, rfl, hk, hu, hu0⟩ := normalize_factor hd h
  obtain ⟨rp', k', u', hrp', h0', rfl, hk', hu', hu0'⟩ := normalize_factor (certain_at hd) h'
  rw [single_at, hrp] at hrp'
  cases hrp'
  have ha := abs_ne_zero.mpr h0
  have hc' := hc.ne'
  refine ⟨u' / u, ?_, ?_⟩
  · have hx := abs_le.mp hu
    have hy := abs_le.mp hu'
    set x := 1 / u with hxd
    set y := 1 / u' with hyd
    have hy0 : 0 < y := by
      have : (0 : ℚ) < 1 - 1 / 10 ^ 14 := by norm_num
      linarith
    have : u' / u = x / y := by rw [hxd, hyd]; field_simp
    rw [this, show x / y - 1 = (x - y) / y by field_simp, abs_div, abs_of_pos hy0, div_le_iff₀ hy0, abs_le]
    have h1 : (1 : ℚ) - 1 / 10 ^ 14 ≤ y := by linarith [hy.1]
    have h2 : (2 : ℚ) / 10 ^ 14 ≤ 3 / 10 ^ 14 * (1 - 1 / 10 ^ 14) := by norm_num
    have h3 : (3 : ℚ) / 10 ^ 14 * (1 - 1 / 10 ^ 14) ≤ 3 / 10 ^ 14 * y := mul_le_mul_of_nonneg_left h1 (by norm_num)
    constructor <;> linarith [hx.1, hx.2, hy.1, hy.2]
  · rw [atSize_atSize, atSize_atSize]
    congr 1
    rw [hk, hk']
    show u' * (1 / |c * rp.amount|) * c = _
    rw [abs_mul, abs_of_pos hc]
    field_simp

/-- An activity whose product is one up to 1e-15. -/
def nearlyOne : Dataset := { name := "a", location := "GLO", type := .transforming, exchanges := [{ name := "p", type := .referenceProduct, amount := 1 + 1 / 10 ^ 15 }] }

/-- The results are not the same when the amounts are within the tolerance of one: described at twice the size the activity is normalised. -/
theorem C135_exact_false (M : MathEnv) : normalize M (atSize 2 nearlyOne) ≠ normalize M nearlyOne := by
  intro h
  have hd : Certain nearlyOne := by
    intro e he
    rw [List.mem_singleton.mp he]
  have h1 : normalize M (atSize 2 nearlyOne) = .ok (atSize (1 / |2 * (1 + 1 / 10 ^ 15)|) (atSize 2 nearlyOne)) :=
    normalize_form M (atSize 2 nearlyOne) (certain_at hd) (excAtSize 2 { name := "p", type := .referenceProduct, amount := 1 + 1 / 10 ^ 15 }) rfl
      (.inr (.inr (by show (1 : ℚ) / 10 ^ 14 < |1 / |2 * (1 + 1 / 10 ^ 15)| - 1|; norm_num [abs_of_pos, abs_of_neg]))) (by show (2 : ℚ) * (1 + 1 / 10 ^ 15) ≠ 0; norm_num)
  have h2 : normalize M nearlyOne = .ok nearlyOne := by
    unfold normalize
    show (if (1 + 1 / 10 ^ 15 : ℚ) = 0 then _ else _) = _
    refine (if_neg (by norm_num)).trans ?_
    show (if |1 / |(1 + 1 / 10 ^ 15 : ℚ)| - 1| > normEpsilon then _ else _) = _
    exact if_neg (by unfold normEpsilon; norm_num [abs_of_pos, abs_of_neg])
  rw [h1, h2] at h
  injection h with h
  have := congrArg (fun d : Dataset => d.exchanges.map (fun e : Exchange => e.amount)) h
  simp only [atSize, excAtSize, nearlyOne, List.map_cons, List.map_nil, List.cons.injEq, and_true] at this
  norm_num [abs_of_pos] at this

/-- C135: the allocation method does not depend on the size. -/
theorem C135_method (c : ℚ) (hc : 0 < c) (d : Dataset) : chooseAllocationMethod (atSize c d) = chooseAllocationMethod d := by
  have h0 : ∀ e : Exchange, (c * e.amount != 0) = (e.amount != 0) := by
    intro e
    rw [Bool.eq_iff_iff]
    simp [hc.ne']
  have h1 : (((atSize c d).exchanges.filter fun e => e.type == .referenceProduct && e.amount != 0).map (·.cls))
      = ((d.exchanges.filter fun e => e.type == .referenceProduct && e.amount != 0).map (·.cls)) := by
    show (((d.exchanges.map (excAtSize c)).filter _).map _) = _
    rw [List.filter_map, List.map_map]
    congr 1
    congr 1
    funext e
    show (e.type == _ && (c * e.amount != 0)) = _
    rw [h0]
  have h2 : ((atSize c d).exchanges.any fun e => e.type == .referenceProduct && decide (e.amount < 0))
      = d.exchanges.any fun e => e.type == .referenceProduct && decide (e.amount < 0) := by
    show (d.exchanges.map (excAtSize c)).any _ = _
    rw [List.any_map]
    congr 1
    funext e
    show (e.type == _ && decide (c * e.amount < 0)) = _
    congr 1
    exact decide_eq_decide.mpr (neg_at hc _)
  have hany : ∀ (p : Exchange → Bool), (∀ e, p (excAtSize c e) = p e) → ∀ l : List Exchange,
      anyProduction p (l.map (excAtSize c)) = anyProduction p l := by
    intro p hp l
    induction l with
    | nil => rfl
    | cons a l ih => simp only [List.map_cons, anyProduction, hp, ih, isAllocatable_at]
  have h3 := hany (fun e => e.type == .byproduct && e.amount != 0) (fun e => by
    show (e.type == _ && (c * e.amount != 0)) = _
    rw [h0]) d.exchanges
  have h4 := hany (fun e => e.type == .referenceProduct && e.cls == some .allocatable) (fun _ => rfl) d.exchanges
  have h5 : ((atSize c d).exchanges.any fun e => e.conditional == some true) = d.exchanges.any fun e => e.conditional == some true := by
    show (d.exchanges.map (excAtSize c)).any _ = _
    rw [List.any_map]; rfl
  unfold chooseAllocationMethod
  rw [h1, h2, h5]
  show (anyProduction _ (d.exchanges.map (excAtSize c)) >>= _) = _
  rw [h3]
  have h4' : anyProduction (fun e => e.type == .referenceProduct && e.cls == some .allocatable) (atSize c d).exchanges = _ := h4
  rw [h4']
  rfl

namespace Size

variable {c : ℚ}

/-- The amounts of products and byproducts are good. -/
def Good (good : ℚ → Prop) (d : Dataset) : Prop := ∀ e ∈ d.exchanges, e.type = .referenceProduct ∨ e.type = .byproduct → good e.amount

theorem economic_at (hc : 0 < c) {M : MathEnv} {good : ℚ → Prop} {Q : Dataset → Dataset → Prop} (hQ : Normalized c M good Q)
    (d : Dataset) (hd : Certain d) (hs : Good good d) : Units.ER (List.Forall₂ Q) (economicAllocation M d) (economicAllocation M (atSize c d)) := by
  unfold economicAllocation
  rw [production_at]
  cases hp : allocatableProduction d with
  | error x => exact rfl
  | ok prod =>
    show Units.ER _ (forE checkEconomicExchange prod >>= _) (forE checkEconomicExchange (prod.map (excAtSize c)) >>= fun _ => economicFactors (prod.map (excAtSize c)) >>= _)
    rw [check_at hc, factors_at hc]
    refine (Units.ER.refl _).bind fun _ _ _ => (Units.ER.refl _).bind fun fs _ hfs => ?_
    subst hfs
    unfold applyAllocationFactors
    refine mapE_zip_at (excAtSize c) fs prod fun x hx b => ?_
    have := filterE_sub hp x hx
    exact choose_at hc hQ d hd x b (hs x this.1 (production_type this.2))

theorem waste_at (hc : 0 < c) {M : MathEnv} {good : ℚ → Prop} {Q : Dataset → Dataset → Prop} (hQ : Normalized c M good Q)
    (d : Dataset) (hd : Certain d) (hs : Good good d) : Units.ER (List.Forall₂ Q) (wasteTreatmentAllocation M d) (wasteTreatmentAllocation M (atSize c d)) := by
  unfold wasteTreatmentAllocation
  rw [single_at]
  cases hrp : getSingleReferenceProduct d with
  | error x => exact rfl
  | ok rp =>
    obtain ⟨hm, ht⟩ := single_mem hrp
    refine Units.ER.ite Iff.rfl (fun _ => rfl) fun _ => ?_
    refine Units.ER.ite (not_congr (neg_at hc rp.amount)).symm (fun _ => rfl) fun _ => ?_
    refine (choose_at hc hQ d hd rp 1 (hs rp hm (.inl ht))).bind fun first first' hfirst => ?_
    rw [production_at]
    cases hp : allocatableProduction d with
    | error x => exact rfl
    | ok prod =>
      show Units.ER _ (mapE (freeByproduct M d) (prod.filter _) >>= _) (mapE (freeByproduct M (atSize c d)) ((prod.map (excAtSize c)).filter _) >>= _)
      rw [List.filter_map]
      have hrel : ∀ l : List Exchange, (∀ e ∈ l, e ∈ prod) → List.Forall₂ (fun e e' => e ∈ prod ∧ e' = excAtSize c e) l (l.map (excAtSize c)) := by
        intro l hl
        induction l with
        | nil => exact .nil
        | cons a l ih => exact .cons ⟨hl a List.mem_cons_self, rfl⟩ (ih fun e he => hl e (List.mem_cons_of_mem _ he))
      refine Units.ER.bind (R := List.Forall₂ Q) ?_ fun free free' hfree => List.Forall₂.cons hfirst hfree
      refine Units.ER.mapE (hrel (prod.filter fun e => e.type != .referenceProduct) fun e he => (List.mem_filter.mp he).1) fun e e' he => ?_
      obtain ⟨he, rfl⟩ := he
      have hmem := filterE_sub hp e he
      exact choose_at hc hQ { d with exchanges := [e] } (fun x hx => by
        rw [List.mem_singleton.mp hx]; exact hd e hmem.1) e 1 (hs e hmem.1 (production_type hmem.2))

theorem recycling_at (hc : 0 < c) {M : MathEnv} {good : ℚ → Prop} {Q : Dataset → Dataset → Prop} (hQ : Normalized c M good Q)
    (d : Dataset) (hd : Certain d) (hs : Good good d) : Units.ER (List.Forall₂ Q) (recyclingAllocation M d) (recyclingAllocation M (atSize c d)) := by
  unfold recyclingAllocation
  rw [single_at]
  cases hrp : getSingleReferenceProduct d with
  | error x => exact rfl
  | ok rp =>
    refine Units.ER.ite (not_congr (neg_at hc rp.amount)).symm (fun _ => rfl) fun _ => ?_
    show Units.ER _ (anyAllocatableByproduct d.exchanges >>= _) (anyAllocatableByproduct (d.exchanges.map (excAtSize c)) >>= _)
    rw [anyByproduct_at]
    refine (Units.ER.refl _).bind fun b b' hb => ?_
    subst hb
    refine Units.ER.ite Iff.rfl (fun _ => rfl) fun _ => ?_
    have hin : ∀ e ∈ d.exchanges, recyclingInput M e = .ok (if e.type = .referenceProduct then excAtSize (-1) { e with type := .fromTechnosphere } else e) := by
      intro e he
      unfold recyclingInput
      split
      · have := scale_all M (-1) [{ e with type := .fromTechnosphere }] (by intro x hx; rw [List.mem_singleton.mp hx]; exact hd e he)
        simp only [mapE] at this
        revert this
        cases scaleExchange M { e with type := .fromTechnosphere } (-1) with
        | error x => intro h; cases h
        | ok y => intro h; cases h; rfl
      · rfl
    have hin' : ∀ e ∈ d.exchanges, recyclingInput M (excAtSize c e) = .ok (excAtSize c (if e.type = .referenceProduct then excAtSize (-1) { e with type := .fromTechnosphere } else e)) := by
      intro e he
      have h1 := hin e he
      unfold recyclingInput at h1 ⊢
      show (if e.type = .referenceProduct then _ else _) = _
      split
      · have := scale_all M (-1) [excAtSize c { e with type := .fromTechnosphere }] (by intro x hx; rw [List.mem_singleton.mp hx]; exact hd e he)
        simp only [mapE] at this
        show scaleExchange M (excAtSize c { e with type := .fromTechnosphere }) (-1) = _
        revert this
        cases scaleExchange M (excAtSize c { e with type := .fromTechnosphere }) (-1) with
        | error x => intro h; cases h
        | ok y => intro h; cases h; rw [comm]
      · rfl
    have hall : ∀ l : List Exchange, (∀ e ∈ l, e ∈ d.exchanges) → mapE (recyclingInput M) (l.map (excAtSize c)) = (mapE (recyclingInput M) l).map fun r => r.map (excAtSize c) := by
      intro l hl
      induction l with
      | nil => rfl
      | cons a l ih =>
        simp only [List.map_cons, mapE, hin a (hl a List.mem_cons_self), hin' a (hl a List.mem_cons_self), ih fun e he => hl e (List.mem_cons_of_mem _ he)]
        cases mapE (recyclingInput M) l with
        | error x => rfl
        | ok r => rfl
    show Units.ER _ (mapE (recyclingInput M) d.exchanges >>= _) (mapE (recyclingInput M) (d.exchanges.map (excAtSize c)) >>= _)
    rw [hall d.exchanges fun _ h => h]
    cases hm : mapE (recyclingInput M) d.exchanges with
    | error x => exact rfl
    | ok ex =>
      have hfrom : ∀ y ∈ ex, y.uncertainty = none ∧ (y.type = .referenceProduct ∨ y.type = .byproduct → good y.amount) := by
        have := mapE_ok_iff.mp hm
        intro y hy
        obtain ⟨x, hx, hxy⟩ : ∃ x ∈ d.exchanges, recyclingInput M x = .ok y := by
          clear hall hin hin' hm hs hd hrp
          generalize d.exchanges = l at this ⊢
          induction this with
          | nil => cases hy
          | cons hab _ ih =>
            rcases List.mem_cons.mp hy with rfl | hy
            · exact ⟨_, List.mem_cons_self, hab⟩
            · obtain ⟨x, hx, h⟩ := ih hy
              exact ⟨x, List.mem_cons_of_mem _ hx, h⟩
        rw [hin x hx] at hxy
        cases hxy
        split
        · exact ⟨hd x hx, fun h => by rcases h with h | h <;> cases h⟩
        · exact ⟨hd x hx, hs x hx⟩
      exact economic_at hc hQ { d with exchanges := ex } (fun y hy => (hfrom y hy).1) fun y hy => (hfrom y hy).2

theorem exactly (hc : 0 < c) (M : MathEnv) : Normalized c M (fun a => Distinct a ∧ Distinct (c * a)) Eq := by
  intro d hd h
  rw [normalize_at hc M d hd h]
  exact Units.ER.refl _

theorem nearly (hc : 0 < c) (M : MathEnv) : Normalized c M (fun _ => True) NearlySame := by
  intro d hd _
  cases h : normalize M d with
  | ok r =>
    cases h' : normalize M (atSize c d) with
    | ok r' => exact C135_tolerance c hc M d r r' hd h h'
    | error x =>
      obtain ⟨rp, k, u, hrp, h0, -⟩ := normalize_factor hd h
      obtain ⟨y, hy⟩ := normalize_ok M (certain_at (c := c) hd) (show getSingleReferenceProduct (atSize c d) = .ok (excAtSize c rp) by rw [single_at, hrp]; rfl) (mul_ne_zero hc.ne' h0)
      rw [h'] at hy
      cases hy
  | error x =>
    cases hrp : getSingleReferenceProduct d with
    | error y =>
      have : getSingleReferenceProduct (atSize c d) = .error y := by rw [single_at, hrp]; rfl
      have h' : normalize M (atSize c d) = normalize M d := by unfold normalize; rw [hrp, this]; rfl
      rw [h', h]
      exact rfl
    | ok rp =>
      by_cases h0 : rp.amount = 0
      · have h1 : normalize M d = .error .zeroProduction := by
          unfold normalize
          rw [hrp]
          exact if_pos h0
        have h2 : normalize M (atSize c d) = .error .zeroProduction := by
          unfold normalize
          rw [single_at, hrp]
          exact if_pos (show c * rp.amount = 0 by rw [h0, mul_zero])
        rw [← h, h1, h2]
        exact rfl
      · obtain ⟨y, hy⟩ := normalize_ok M hd hrp h0
        rw [h] at hy
        cases hy

theorem forall₂_eq {x y : Except Err (List Dataset)} (h : Units.ER (List.Forall₂ Eq) x y) : y = x :=
  (Units.ER.eq (h.mono fun a b hab => by rwa [List.forall₂_eq_eq_eq] at hab)).symm

theorem upTo {x y : Except Err (List Dataset)} (h : Units.ER (List.Forall₂ NearlySame) x y) : SameUpToTolerance x y := by
  cases x <;> cases y <;> exact h

end Size

/-- C135: allocation by revenue gives the same results at every size. -/
theorem C135_economic (c : ℚ) (hc : 0 < c) (M : MathEnv) (d : Dataset) (hd : Certain d) :
    SameUpToTolerance (economicAllocation M d) (economicAllocation M (atSize c d)) :=
  upTo (economic_at hc (nearly hc M) d hd fun _ _ _ => trivial)

/-- C135: so does the allocation of recycling activities. -/
theorem C135_recycling (c : ℚ) (hc : 0 < c) (M : MathEnv) (d : Dataset) (hd : Certain d) :
    SameUpToTolerance (recyclingAllocation M d) (recyclingAllocation M (atSize c d)) :=
  upTo (recycling_at hc (nearly hc M) d hd fun _ _ _ => trivial)

/-- C135: so does the allocation of waste treatment. -/
theorem C135_waste (c : ℚ) (hc : 0 < c) (M : MathEnv) (d : Dataset) (hd : Certain d) :
    SameUpToTolerance (wasteTreatmentAllocation M d) (wasteTreatmentAllocation M (atSize c d)) :=
  upTo (waste_at hc (nearly hc M) d hd fun _ _ _ => trivial)

/-- C135: the results are equal when the tolerance does not interfere: no product is nearly but not exactly one. -/
theorem C135_exact (c : ℚ) (hc : 0 < c) (M : MathEnv) (d : Dataset) (hd : Certain d) (hs : Sizeable c d) :
    economicAllocation M (atSize c d) = economicAllocation M d ∧ recyclingAllocation M (atSize c d) = recyclingAllocation M d ∧
    wasteTreatmentAllocation M (atSize c d) = wasteTreatmentAllocation M d :=
  ⟨forall₂_eq (economic_at hc (exactly hc M) d hd hs), forall₂_eq (recycling_at hc (exactly hc M) d hd hs), forall₂_eq (waste_at hc (exactly hc M) d hd hs)⟩

/-- C135: the yearly production volumes that are estimated for byproducts do not depend on the size. -/
theorem C135_volumes (c : ℚ) (hc : 0 < c) (d : Dataset) : fillVolumes (atSize c d) = (fillVolumes d).map (atSize c) := by
  unfold fillVolumes
  show (anyAllocatableByproduct (d.exchanges.map (excAtSize c)) >>= _) = _
  rw [anyByproduct_at]
  cases anyAllocatableByproduct d.exchanges with
  | error x => rfl
  | ok b =>
    cases b with
    | false => rfl
    | true =>
      show (getBiggestPvRatio (atSize c d) >>= _) = Except.map _ (getBiggestPvRatio d >>= _)
      rw [biggest_at hc]
      cases getBiggestPvRatio d with
      | error x => rfl
      | ok s =>
        have h1 : ∀ e, fillByproduct (s / c) (excAtSize c e) = (fillByproduct s e).map (excAtSize c) := by
          intro e
          unfold fillByproduct
          show (isAllocatableByproduct e >>= _) = _
          cases isAllocatableByproduct e with
          | error x => rfl
          | ok b =>
            cases b with
            | false => rfl
            | true =>
              show fillVolume (s / c) (excAtSize c e) = (fillVolume s e).map (excAtSize c)
              unfold fillVolume
              show (getKey e.pv >>= _) = _
              cases e.pv with
              | none => rfl
              | some p =>
                show (if p.amount = 0 then _ else _) = Except.map _ (if p.amount = 0 then _ else _)
                split
                · show Except.ok _ = Except.ok _
                  have : (excAtSize c e).amount * (s / c) = e.amount * s := by
                    show c * e.amount * (s / c) = _
                    have := hc.ne'
                    field_simp
                  rw [this]; rfl
                · rfl
        have hall : ∀ l : List Exchange, mapE (fillByproduct (s / c)) (l.map (excAtSize c)) = (mapE (fillByproduct s) l).map fun r => r.map (excAtSize c) := by
          intro l
          induction l with
          | nil => rfl
          | cons a l ih =>
            simp only [List.map_cons, mapE, h1, ih]
            cases fillByproduct s a with
            | error x => rfl
            | ok y =>
              cases mapE (fillByproduct s) l with
              | error x => rfl
              | ok r => rfl
        show (mapE (fillByproduct (s / c)) (d.exchanges.map (excAtSize c)) >>= _) = Except.map _ (mapE (fillByproduct s) d.exchanges >>= _)
        rw [hall]
        cases mapE (fillByproduct s) d.exchanges with
        | error x => rfl
        | ok r => rfl

/-- C135: what a hard link takes from the volume of its supplier does not depend on the size. -/
theorem C135_hard_link (c : ℚ) (hc : 0 < c) (d : Dataset) (st : List Dataset) (e : Exchange) :
    hardLinkStep (atSize c d) st (excAtSize c e) = hardLinkStep d st e := by
  have hadd : addToTarget (excAtSize c e).name (excAtSize c e).amount (getBiggestPvRatio (atSize c d)) = addToTarget e.name e.amount (getBiggestPvRatio d) := by
    funext t
    rw [biggest_at hc]
    unfold addToTarget
    show (productionNamed t e.name >>= _) = _
    congr 1
    funext found
    match found with
    | [] => rfl
    | _ :: _ :: _ => rfl
    | [x] =>
      cases getBiggestPvRatio d with
      | error x => rfl
      | ok s =>
        have : (excAtSize c e).amount * (s / c) = e.amount * s := by
          show c * e.amount * (s / c) = _
          have := hc.ne'
          field_simp
        show (getKey x.pv >>= fun _ => Except.ok _) = (getKey x.pv >>= fun _ => Except.ok _)
        simp only [this]
        rfl
  unfold hardLinkStep
  rw [hadd]
  rfl

/-- An activity with two products, at two sizes, to which the theorems apply. -/
def twoProducts : Dataset := { name := "a", location := "GLO", type := .transforming, exchanges := [
  { name := "p", type := .referenceProduct, amount := 2, properties := [{ name := "price", amount := 3 }], pv := some { amount := 10 } },
  { name := "q", type := .byproduct, cls := some .allocatable, amount := 4, properties := [{ name := "price", amount := 1 }], pv := some { amount := 0 } },
  { name := "i", type := .fromTechnosphere, amount := 6 }] }

example : Certain twoProducts := by
  intro e he
  simp only [twoProducts, List.mem_cons, List.not_mem_nil, or_false] at he
  rcases he with rfl | rfl | rfl <;> rfl

example : Sizeable 3 twoProducts := by
  intro e he ht
  simp only [twoProducts, List.mem_cons, List.not_mem_nil, or_false] at he
  rcases he with rfl | rfl | rfl
  · constructor <;> right <;> right <;> norm_num [abs_of_pos, abs_of_neg]
  · constructor <;> right <;> right <;> norm_num [abs_of_pos, abs_of_neg]
  · rcases ht with ht | ht <;> cases ht

example : economicFactors (twoProducts.exchanges.take 2) = .ok [6 / 10, 4 / 10] := by decide +kernel
example : atSize 3 twoProducts ≠ twoProducts := by decide +kernel
example : chooseAllocationMethod twoProducts = .ok "economic" := by decide +kernel
example : pvRatios twoProducts.exchanges = .ok [5] ∧ pvRatios (atSize 2 twoProducts).exchanges = .ok [5 / 2] := by decide +kernel

end Ocelot
