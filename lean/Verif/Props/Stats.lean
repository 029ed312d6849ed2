import Verif.Spec.Stats
import Verif.Props.Uncertainty
import Mathlib.NumberTheory.Padics.PadicVal.Basic

/-! # Property C117: the description for the sampler fits the exchange, and is scaled with it -/

namespace Ocelot
open Spec

theorem mathSqrt_ok {v : ℚ} {s : ℝ} (h : mathSqrt v = .ok s) : 0 ≤ v ∧ s = Real.sqrt v := by
  unfold mathSqrt at h
  split at h
  · cases h
  · next hv => cases h; exact ⟨not_lt.mp hv, rfl⟩

theorem mathSqrt_nonneg {v : ℚ} (h : 0 ≤ v) : mathSqrt v = .ok (Real.sqrt v) := by rw [mathSqrt, if_neg (not_lt.mpr h)]

/-- **C117**: after repair, the description fits the amount: its location, sign and bounds are those of the amount, its standard deviation is not negative. -/
theorem C117_repaired (M : MathEnv) (o o' : NumObj) (d : StatsDict) (h : repair M o = .ok o') (hd : toStats o' = .ok d) : Fits M o.amount d := by
  have hr := C07_repair_valid M o o' h
  have ha : o'.amount = o.amount := by rw [hr.1]
  rw [← ha]
  cases hr.2 with
  | certain hu => simp only [toStats, hu] at hd; cases hd; exact ⟨rfl, rfl⟩
  | unchecked u hu hk =>
    rcases hk with hk | hk <;> (simp only [toStats, hu, hk] at hd; cases hd; exact ⟨rfl, rfl⟩)
  | normal u hu hk hm =>
    simp only [toStats, hu, hk, hm, getKey_some, ebind_ok] at hd
    obtain ⟨v, hv, hd⟩ := bind_eq_ok.mp hd
    obtain ⟨s, hs, hd⟩ := bind_eq_ok.mp hd
    cases hd
    exact ⟨rfl, rfl, s, rfl, (mathSqrt_ok hs).2 ▸ Real.sqrt_nonneg _⟩
  | bounded u lo hi hb hlt =>
    rcases hb.kind with hk | ⟨hk, hm⟩
    · simp only [toStats, hb.unc, hk, hb.min, hb.max, getKey_some, ebind_ok] at hd
      cases hd
      exact ⟨rfl, lo, hi, rfl, rfl, hb.lo_le, hb.le_hi, hlt⟩
    · simp only [toStats, hb.unc, hk, hm, hb.min, hb.max, getKey_some, ebind_ok] at hd
      cases hd
      exact ⟨rfl, rfl, lo, hi, rfl, rfl, hb.lo_le, hb.le_hi, hlt⟩
  | lognormal u hl =>
    simp only [toStats, hl.unc, hl.kind, hl.mu, getKey_some, ebind_ok] at hd
    obtain ⟨v, hv, hd⟩ := bind_eq_ok.mp hd
    obtain ⟨s, hs, hd⟩ := bind_eq_ok.mp hd
    cases hd
    exact ⟨rfl, hl.nonzero, rfl, rfl, s, rfl, (mathSqrt_ok hs).2 ▸ Real.sqrt_nonneg _⟩

/-- After repair a lognormal or normal distribution has a variance with pedigree uncertainty. -/
theorem repair_variance {M : MathEnv} {o o' : NumObj} {u' : Unc} (h : repair M o = .ok o') (hu' : o'.uncertainty = some u')
    (hk' : u'.kind = some .lognormal ∨ u'.kind = some .normal) : ∃ v, u'.variancePed = some v := by
  unfold repair at h
  split at h
  · next hu => cases h; rw [hu] at hu'; cases hu'
  next u hu =>
  split at h
  · next hk => cases h; rw [hu] at hu'; cases hu'; simp [hk] at hk'
  · next hk => cases h; rw [hu] at hu'; cases hu'; simp [hk] at hk'
  · next hk =>
    unfold lognormalRepair at h
    split at h
    · cases h; cases hu'
    · obtain ⟨vp, hvp, h⟩ := bind_eq_ok.mp h
      have hvp' : u.variancePed = some vp := by
        unfold getKey at hvp
        split at hvp <;> cases hvp
        assumption
      simp only [epure] at h
      split at h
      · cases h; cases hu'
      · obtain ⟨pv, hpv, h⟩ := bind_eq_ok.mp h
        repeat' split at h
        all_goals cases h; cases hu'; simp [hvp']
  · next hk =>
    unfold normalRepair at h
    obtain ⟨vp, hvp, h⟩ := bind_eq_ok.mp h
    have hvp' : u.variancePed = some vp := by
      unfold getKey at hvp
      split at hvp <;> cases hvp
      assumption
    simp only [epure] at h
    split at h
    · cases h; cases hu'
    · cases h; cases hu'; exact ⟨vp, hvp'⟩
  · next hk =>
    rcases hmn : u.minimum with _ | mn
    · simp [triangularRepair, hmn] at h
    rcases hmx : u.maximum with _ | mx
    · simp [triangularRepair, hmn, hmx] at h
    rw [triangularRepair_eq hmn hmx] at h
    repeat' split at h
    all_goals (cases h; cases hu')
    simp [hk] at hk'
  · next hk =>
    rcases hmn : u.minimum with _ | mn
    · simp [uniformRepair, hmn] at h
    rcases hmx : u.maximum with _ | mx
    · simp [uniformRepair, hmn, hmx] at h
    rw [uniformRepair_eq hmn hmx, triangularRepair_eq rfl rfl] at h
    repeat' split at h
    all_goals (cases h; try cases hu')
    all_goals simp [hk] at hk'
  · cases h

/-- **C117**: after repair there always is a description, except for a lognormal or normal distribution with a negative variance, which is refused. -/
theorem C117_total (M : MathEnv) (o o' : NumObj) (h : repair M o = .ok o') :
    (∃ d, toStats o' = .ok d) ∨
      ∃ u v, o'.uncertainty = some u ∧ (u.kind = some .lognormal ∨ u.kind = some .normal) ∧ u.variancePed = some v ∧ v < 0 ∧ toStats o' = .error .valueError := by
  cases (C07_repair_valid M o o' h).2 with
  | certain hu => exact Or.inl ⟨_, by simp only [toStats, hu]; rfl⟩
  | unchecked u hu hk => rcases hk with hk | hk <;> exact Or.inl ⟨_, by simp only [toStats, hu, hk]; rfl⟩
  | normal u hu hk hm =>
    obtain ⟨v, hv⟩ := repair_variance h hu (Or.inr hk)
    rcases lt_or_ge v 0 with h0 | h0
    · exact Or.inr ⟨u, v, hu, Or.inr hk, hv, h0, by simp only [toStats, hu, hk, hm, hv, getKey_some, ebind_ok, mathSqrt, if_pos h0]; rfl⟩
    · exact Or.inl ⟨_, by simp only [toStats, hu, hk, hm, hv, getKey_some, ebind_ok, mathSqrt_nonneg h0]; rfl⟩
  | bounded u lo hi hb hlt =>
    rcases hb.kind with hk | ⟨hk, hm⟩
    · exact Or.inl ⟨_, by simp only [toStats, hb.unc, hk, hb.min, hb.max, getKey_some, ebind_ok]; rfl⟩
    · exact Or.inl ⟨_, by simp only [toStats, hb.unc, hk, hm, hb.min, hb.max, getKey_some, ebind_ok]; rfl⟩
  | lognormal u hl =>
    obtain ⟨v, hv⟩ := repair_variance h hl.unc (Or.inl hl.kind)
    rcases lt_or_ge v 0 with h0 | h0
    · exact Or.inr ⟨u, v, hl.unc, Or.inl hl.kind, hv, h0, by simp only [toStats, hl.unc, hl.kind, hl.mu, hv, getKey_some, ebind_ok, mathSqrt, if_pos h0]; rfl⟩
    · exact Or.inl ⟨_, by simp only [toStats, hl.unc, hl.kind, hl.mu, hv, getKey_some, ebind_ok, mathSqrt_nonneg h0]; rfl⟩

/-- **C117**, the part that holds: scaling a repaired exchange by a number other than zero scales the described distribution, if it is not a normal distribution
(`C117_normal_stale`) nor a uniform one whose middle is not exactly the amount (see C03). `log` is only assumed to turn products of positive numbers into sums. -/
theorem C117_scaled_partial (M : MathEnv) (hlog : ∀ x y, 0 < x → 0 < y → M.log (x * y) = M.log x + M.log y) (o : NumObj) (f : ℚ) (hf : f ≠ 0)
    (hr : Repaired M o) (hund : ∀ u, o.uncertainty = some u → u.kind = some .undefined → u.minimum ≠ none ∧ u.maximum ≠ none)
    (hnormal : ∀ u, o.uncertainty = some u → u.kind ≠ some .normal)
    (huni : ∀ u lo hi, o.uncertainty = some u → u.kind = some .uniform → u.minimum = some lo → u.maximum = some hi → o.amount = (lo + hi) / 2)
    (d : StatsDict) (hd : toStats o = .ok d) :
    ∃ o' d', o.scale M f = .ok o' ∧ toStats o' = .ok d' ∧ ScaledStats M f d d' := by
  by_cases h1 : f = 1
  · subst h1
    refine ⟨o, d, by simp [NumObj.scale], hd, rfl, by simp, ?_⟩
    have hl1 : M.log 1 = 0 := by
      have := hlog 1 1 one_pos one_pos
      simpa using this
    have hn : ¬ (1 : ℚ) < 0 := by norm_num
    rcases d with ⟨k, a, l, s, mn, mx, ng⟩
    cases k <;> simp [hl1, hn]
  cases hr with
  | certain hu =>
    simp only [toStats, hu] at hd
    cases hd
    refine ⟨{ o with amount := o.amount * f }, ?_⟩
    apply Exists.intro
    refine ⟨by simp [NumObj.scale, h1, hu], ?_, ?_⟩
    · simp only [toStats, hu]; rfl
    · exact ⟨rfl, rfl, rfl⟩
  | unchecked u hu hk =>
    rcases hk with hk | hk
    · simp only [toStats, hu, hk] at hd
      cases hd
      refine ⟨{ o with amount := o.amount * f }, ?_⟩
      apply Exists.intro
      refine ⟨by simp [NumObj.scale, h1, hu, hk], ?_, ?_⟩
      · simp only [toStats, hu, hk]; rfl
      · exact ⟨rfl, rfl, rfl⟩
    · simp only [toStats, hu, hk] at hd
      cases hd
      obtain ⟨hmn, hmx⟩ := hund u hu hk
      obtain ⟨mn, hmn⟩ := Option.ne_none_iff_exists'.mp hmn
      obtain ⟨mx, hmx⟩ := Option.ne_none_iff_exists'.mp hmx
      refine ⟨{ o with amount := o.amount * f, uncertainty := some { u with minimum := some (mn * f), maximum := some (mx * f) } }, ?_⟩
      apply Exists.intro
      refine ⟨?_, ?_, ?_⟩
      · simp [NumObj.scale, h1, hu, hk, undefinedRescale, hmn, hmx]
      · simp only [toStats, hk]; rfl
      · exact ⟨rfl, rfl, rfl⟩
  | normal u hu hk hm => exact absurd hk (hnormal u hu)
  | bounded u lo hi hb hlt =>
    have hlt' : ¬ (lo * f = hi * f ∧ hi * f = o.amount * f) := fun hc => hlt.ne (mul_right_cancel₀ hf hc.1)
    have hin : ¬ (o.amount * f < min (lo * f) (hi * f) ∨ o.amount * f > max (lo * f) (hi * f)) := by
      push Not
      rcases le_total 0 f with hp | hn
      · exact ⟨min_le_of_left_le (mul_le_mul_of_nonneg_right hb.lo_le hp), le_max_of_le_right (mul_le_mul_of_nonneg_right hb.le_hi hp)⟩
      · exact ⟨min_le_of_right_le (mul_le_mul_of_nonpos_right hb.le_hi hn), le_max_of_le_left (mul_le_mul_of_nonpos_right hb.lo_le hn)⟩
    have hmin : some (min (lo * f) (hi * f)) = (if f < 0 then some hi else some lo).map (· * f) := by
      split
      · next hn => rw [min_eq_right (mul_le_mul_of_nonpos_right hlt.le hn.le)]; rfl
      · next hn => rw [min_eq_left (mul_le_mul_of_nonneg_right hlt.le (not_lt.mp hn))]; rfl
    have hmax : some (max (lo * f) (hi * f)) = (if f < 0 then some lo else some hi).map (· * f) := by
      split
      · next hn => rw [max_eq_left (mul_le_mul_of_nonpos_right hlt.le hn.le)]; rfl
      · next hn => rw [max_eq_right (mul_le_mul_of_nonneg_right hlt.le (not_lt.mp hn))]; rfl
    rcases hb.kind with hk | ⟨hk, hm⟩
    · simp only [toStats, hb.unc, hk, hb.min, hb.max, getKey_some, ebind_ok] at hd
      cases hd
      have hmid := huni u lo hi hb.unc hk hb.min hb.max
      have hall : ¬ allclose (o.amount * f) ((lo * f + hi * f) / 2) = false := by
        have : o.amount * f - (lo * f + hi * f) / 2 = 0 := by rw [hmid]; ring
        simp only [allclose, this, abs_zero, decide_eq_false_iff_not, not_not]
        positivity
      apply Exists.intro
      apply Exists.intro
      refine ⟨?_, ?_, ?_⟩
      · simp only [NumObj.scale, h1, if_false, hb.unc, hk, uniformRescale, hb.min, hb.max, getKey_some, ebind_ok]
        rw [uniformRepair_eq rfl rfl, if_neg hlt', if_neg hin, if_neg hall]
      · simp only [toStats, hk, getKey_some, ebind_ok]; rfl
      · exact ⟨rfl, rfl, rfl, hmin, hmax⟩
    · simp only [toStats, hb.unc, hk, hm, hb.min, hb.max, getKey_some, ebind_ok] at hd
      cases hd
      apply Exists.intro
      apply Exists.intro
      refine ⟨?_, ?_, ?_⟩
      · simp only [NumObj.scale, h1, if_false, hb.unc, hk, triangularRescale, hm, hb.min, hb.max, getKey_some, ebind_ok]
        rw [triangularRepair_eq rfl rfl, if_neg hlt', if_neg hin]
      · simp only [toStats, hk, getKey_some, ebind_ok]; rfl
      · exact ⟨rfl, rfl, rfl, hmin, hmax⟩
  | lognormal u hl =>
    simp only [toStats, hl.unc, hl.kind, hl.mu, getKey_some, ebind_ok] at hd
    obtain ⟨v, hv, hd⟩ := bind_eq_ok.mp hd
    obtain ⟨s, hs, hd⟩ := bind_eq_ok.mp hd
    cases hd
    apply Exists.intro
    apply Exists.intro
    refine ⟨scale_logConsistent o f u hf hl, ?_, ?_⟩
    · simp only [toStats, hl.kind, getKey_some, ebind_ok, hv, hs]; rfl
    refine ⟨rfl, rfl, ?_, rfl, ?_⟩
    · simp only [Option.map_some, Option.some.injEq]
      rw [abs_mul, hlog _ _ (abs_pos.mpr hl.nonzero) (abs_pos.mpr hf)]
    · simp only [Option.map_some, Option.some.injEq]
      rcases lt_or_gt_of_ne hl.nonzero with ha | ha <;> rcases lt_or_gt_of_ne hf with hb | hb
      · simp [ha, hb, not_lt.mpr (mul_pos_of_neg_of_neg ha hb).le]
      · simp [ha, not_lt.mpr hb.le, mul_neg_of_neg_of_pos ha hb]
      · simp [hb, not_lt.mpr ha.le, mul_neg_of_pos_of_neg ha hb]
      · simp [not_lt.mpr ha.le, not_lt.mpr hb.le, not_lt.mpr (mul_pos ha hb).le]

/-- **C117** is false for normal distributions: neither the mean nor the standard deviation of the description follows the amount, since `rescale` changes neither
the stored mean nor the variance with pedigree uncertainty; so the description is that of the exchange before scaling, with another amount. -/
theorem C117_normal_stale (M : MathEnv) (o : NumObj) (u : Unc) (f v0 : ℚ) (hf : f ≠ 0) (hf1 : f ≠ 1) (hu : o.uncertainty = some u) (hk : u.kind = some .normal)
    (hm : u.mean = some o.amount) (ha : o.amount ≠ 0) (hv0 : u.variance = some v0) (d : StatsDict) (hd : toStats o = .ok d) :
    ∃ o', o.scale M f = .ok o' ∧ toStats o' = .ok { d with amount := o.amount * f } ∧ ¬ ScaledStats M f d { d with amount := o.amount * f } ∧
      ¬ Fits M (o.amount * f) { d with amount := o.amount * f } := by
  have e : o.amount * f / o.amount = f := by field_simp
  have hne : o.amount ≠ o.amount * f := fun h => hf1 (mul_left_cancel₀ ha (by rw [mul_one]; exact h.symm))
  simp only [toStats, hu, hk, hm, getKey_some, ebind_ok] at hd
  obtain ⟨v, hv, hd⟩ := bind_eq_ok.mp hd
  obtain ⟨s, hs, hd⟩ := bind_eq_ok.mp hd
  cases hd
  refine ⟨{ o with amount := o.amount * f, uncertainty := some { u with variance := some (f ^ 2 * v0) } }, ?_, ?_, ?_, ?_⟩
  · simp [NumObj.scale, hf1, hu, hk, normalRescale, hf, ha, hv0]
  · simp only [toStats, hk, hm, hv, hs, getKey_some, ebind_ok]; rfl
  · rintro ⟨_, _, h, _⟩
    exact hne (Option.some.inj h)
  · rintro ⟨_, h, _⟩
    exact hne (Option.some.inj h)

/-! ### Examples -/

/-- A logarithm with rational values, for the hypothesis of `C117_scaled_partial`: it counts factors of two. -/
def twosLog : MathEnv := ⟨fun x => padicValRat 2 x, 3⟩

example : ∀ x y, 0 < x → 0 < y → twosLog.log (x * y) = twosLog.log x + twosLog.log y := by
  intro x y hx hy
  simp only [twosLog]
  rw [padicValRat.mul hx.ne' hy.ne', Int.cast_add]

example : ∃ d, toStats { amount := 3, uncertainty := some { kind := some .normal, mean := some 3, variance := some 4, variancePed := some 4 } } = .ok d ∧
    d.loc = some 3 ∧ d.scale = some 2 := by
  refine ⟨_, by simp only [toStats, getKey_some, ebind_ok, mathSqrt_nonneg (show (0 : ℚ) ≤ 4 by norm_num)]; rfl, rfl, ?_⟩
  simp only [Option.some.injEq]
  rw [show (((4 : ℚ) : ℝ)) = 2 ^ 2 by norm_num]
  exact Real.sqrt_sq (by norm_num)

/-- The hypotheses of `C117_scaled_partial` hold for a triangular distribution and a lognormal one. -/
example : Repaired sampleM { amount := 3, uncertainty := some { kind := some .triangular, minimum := some 1, mode := some 3, maximum := some 4 } } :=
  .bounded _ 1 4 ⟨rfl, Or.inr ⟨rfl, rfl⟩, rfl, rfl, by norm_num, by norm_num⟩ (by norm_num)

example : Repaired sampleM { amount := -3, uncertainty := some { kind := some .lognormal, mean := some 3, mu := some 2, variancePed := some 1, negative := some true } } :=
  .lognormal _ ⟨rfl, rfl, by norm_num, by simp [abs_of_neg], by simp [sampleM]; norm_num, by simp⟩

end Ocelot
