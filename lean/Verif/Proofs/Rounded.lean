import Verif.Model.Rounded
import Verif.Proofs.Rounding
import Verif.Proofs.Utils

/-!
# Scaling, normalisation and sums with rounded arithmetic
-/

namespace Ocelot
open Spec

/-! ## Scaling -/

theorem uniformRepairR_eq {R : Rounding} {o : NumObj} {u : Unc} {mn mx : ℚ}
    (h1 : u.minimum = some mn) (h2 : u.maximum = some mx) :
    uniformRepairR R o u =
      if mn = mx ∧ mx = o.amount then .ok o.removeUncertainty
      else if o.amount < min mn mx ∨ o.amount > max mn mx then .error .valueError
      else if allcloseR R o.amount (R.fl (R.fl (mn + mx) / 2)) = false then
        triangularRepair o { u with kind := some .triangular, minimum := some (min mn mx), maximum := some (max mn mx) }
      else .ok { o with uncertainty := some { u with minimum := some (min mn mx), maximum := some (max mn mx) } } := by
  have hs : min mn mx + max mn mx = mn + mx := min_add_max mn mx
  unfold uniformRepairR
  simp only [h1, h2, getKey_some, ebind_ok, epure, ethrow, ebind_error, swap_lo, swap_hi, hs,
    Bool.not_eq_true']

theorem uniformRepairR_frame {R : Rounding} {o : NumObj} {u : Unc} {o' : NumObj}
    (h : uniformRepairR R o u = .ok o') : o' = { o with uncertainty := o'.uncertainty } := by
  rcases hmn : u.minimum with _ | mn
  · simp [uniformRepairR, hmn] at h
  rcases hmx : u.maximum with _ | mx
  · simp [uniformRepairR, hmn, hmx] at h
  rw [uniformRepairR_eq hmn hmx] at h
  repeat' split at h
  all_goals first | exact triangularRepair_frame h | (cases h; rfl) | cases h

theorem lognormalRescalePosR_frame {R : Rounding} {M : MathEnv} {o : NumObj} {u : Unc} {f : ℚ} {o' : NumObj}
    (h : lognormalRescalePosR R M o u f = .ok o') :
    o' = { o with amount := R.fl (o.amount * f), uncertainty := o'.uncertainty } := by
  unfold lognormalRescalePosR at h
  simp only at h
  split at h
  · cases h
  · cases h; rfl

/-- Scaling multiplies the amount, rounds once, and leaves everything else but the uncertainty. -/
theorem scaleR_frame {R : Rounding} {M : MathEnv} {o o' : NumObj} {f : ℚ} (hf1 : f ≠ 1) (h : o.scaleR R M f = .ok o') :
    o' = { o with amount := R.fl (o.amount * f), uncertainty := o'.uncertainty } := by
  unfold NumObj.scaleR at h
  rw [if_neg hf1] at h
  split at h
  · cases h; simp_all
  · next u hu =>
    split at h
    · cases h; simp_all
    · unfold undefinedRescaleR at h
      rcases hmn : u.minimum with _ | mn <;> rcases hmx : u.maximum with _ | mx <;>
        simp [hmn, hmx] at h
      cases h; rfl
    · unfold lognormalRescaleR at h
      split at h
      · next hneg =>
        have h' := lognormalRescalePosR_frame h
        rw [h', abs_of_neg hneg]
        simp
      · split at h
        · next h0 => cases h; simp [h0, R.zero]
        · exact lognormalRescalePosR_frame h
    · unfold normalRescaleR at h
      split at h
      · next h0 => cases h; simp [h0, R.zero]
      · split at h
        · cases h
        · rcases hv : u.variance with _ | v <;> simp [hv] at h
          cases h; rfl
    · unfold triangularRescaleR at h
      rcases hmn : u.minimum with _ | mn <;> rcases hmd : u.mode with _ | md <;>
        rcases hmx : u.maximum with _ | mx <;> simp [hmn, hmx, hmd] at h
      have h' := triangularRepair_frame h
      rw [h']
    · unfold uniformRescaleR at h
      rcases hmn : u.minimum with _ | mn <;>
        rcases hmx : u.maximum with _ | mx <;> simp [hmn, hmx] at h
      have h' := uniformRepairR_frame h
      rw [h']
    · cases h

theorem scaleExchangeR_frame {R : Rounding} {M : MathEnv} {e e' : Exchange} {f : ℚ} (hf1 : f ≠ 1) (h : scaleExchangeR R M e f = .ok e') :
    e' = { e with amount := R.fl (e.amount * f), uncertainty := e'.uncertainty } := by
  obtain ⟨o, ho, h2⟩ := bind_eq_ok.mp h
  cases h2
  have h1 := scaleR_frame hf1 ho
  rw [h1]

theorem scaleExchangeR_one {R : Rounding} {M : MathEnv} {e : Exchange} : scaleExchangeR R M e 1 = .ok e := by
  simp [scaleExchangeR, NumObj.scaleR]

/-! ## Normalisation -/

theorem normalizeR_inv {R : Rounding} {M : MathEnv} {ds ds' : Dataset} (h : normalizeR R M ds = .ok ds') :
    ∃ rp, refs ds = [rp] ∧ rp.amount ≠ 0 ∧
      ((|R.fl (R.fl (1 / |rp.amount|) - 1)| ≤ 1 / 10 ^ 14 ∧ ds' = ds) ∨
       (¬ |R.fl (R.fl (1 / |rp.amount|) - 1)| ≤ 1 / 10 ^ 14 ∧
        ∃ ex, mapE (fun e => scaleExchangeR R M e (R.fl (1 / |rp.amount|))) ds.exchanges = .ok ex ∧
          ds' = { ds with exchanges := ex })) := by
  unfold normalizeR at h
  obtain ⟨rp, hrp, h⟩ := bind_eq_ok.mp h
  refine ⟨rp, getSingle_ok.mp hrp, ?_⟩
  by_cases h0 : rp.amount = 0
  · simp [h0] at h
  refine ⟨h0, ?_⟩
  simp only [h0, if_false, normEpsilon, epure, gt_iff_lt] at h
  by_cases hf : |R.fl (R.fl (1 / |rp.amount|) - 1)| ≤ 1 / 10 ^ 14
  · left
    rw [if_neg (not_lt.mpr hf)] at h
    exact ⟨hf, (Except.ok.inj h).symm⟩
  · right
    rw [if_pos (not_le.mp hf)] at h
    obtain ⟨ex, h1, h2⟩ := bind_eq_ok.mp h
    exact ⟨hf, ex, h1, (Except.ok.inj h2).symm⟩

theorem normalizeR_of_close {R : Rounding} {M : MathEnv} {ds : Dataset} {rp : Exchange} (h : refs ds = [rp])
    (h0 : rp.amount ≠ 0) (hc : |R.fl (R.fl (1 / |rp.amount|) - 1)| ≤ 1 / 10 ^ 14) : normalizeR R M ds = .ok ds := by
  unfold normalizeR
  rw [getSingle_ok.mpr h]
  simp only [ebind_ok, h0, if_false, normEpsilon, epure, gt_iff_lt]
  rw [if_neg (not_lt.mpr hc)]

/-- The rounded reciprocal of an amount near one, tested against the tolerance. -/
theorem close_test (R : Rounding) {x : ℚ} (hx : |x - 1| ≤ 3 * R.u) : |R.fl (R.fl (1 / x) - 1)| ≤ 1 / 10 ^ 14 := by
  have hu := R.small
  have h0 := R.nonneg
  have hxa := abs_le.1 hx
  have hxp : 0 < x := by
    have : 3 * R.u ≤ 3 / 2 ^ 53 := by linarith
    have : (3 : ℚ) / 2 ^ 53 < 1 := by norm_num
    linarith
  have hu' : R.u ≤ 1 / 10 ^ 15 := le_trans hu (by norm_num)
  have hinv : |1 / x - 1| ≤ 4 * R.u := by
    have e : 1 / x - 1 = (1 - x) / x := by field_simp
    rw [e, abs_div, abs_of_pos hxp, div_le_iff₀ hxp, abs_sub_comm]
    refine le_trans hx ?_
    have : 3 / 4 ≤ x := by linarith
    nlinarith
  have hip : 0 < 1 / x := by positivity
  have h1 : |R.fl (1 / x) - 1| ≤ 6 * R.u := by
    have a := R.close (1 / x)
    rw [abs_of_pos hip] at a
    have hi := abs_le.1 hinv
    have : 1 / x ≤ 2 := by linarith
    have t := abs_add_le (R.fl (1 / x) - 1 / x) (1 / x - 1)
    have e : R.fl (1 / x) - 1 / x + (1 / x - 1) = R.fl (1 / x) - 1 := by ring
    rw [e] at t
    nlinarith
  have h2 := R.abs_fl_le (R.fl (1 / x) - 1)
  calc |R.fl (R.fl (1 / x) - 1)| ≤ (1 + R.u) * |R.fl (1 / x) - 1| := h2
    _ ≤ 2 * (6 * R.u) := mul_le_mul (by linarith) h1 (abs_nonneg _) (by norm_num)
    _ ≤ 1 / 10 ^ 14 := by
      have : R.u ≤ 1 / 2 ^ 53 := hu
      have e : (12 : ℚ) * (1 / 2 ^ 53) ≤ 1 / 10 ^ 14 := by norm_num
      linarith

/-- An amount times its rounded reciprocal, rounded. -/
theorem scaled_near_one (R : Rounding) {a : ℚ} (ha : a ≠ 0) : |(|R.fl (a * R.fl (1 / |a|))| - 1)| ≤ 3 * R.u := by
  have hp : 0 < |a| := abs_pos.mpr ha
  have hip : 0 < 1 / |a| := by positivity
  have h0 := R.nonneg
  have hu' : R.u ≤ 1 / 10 ^ 15 := le_trans R.small (by norm_num)
  have e : |a * R.fl (1 / |a|)| = |a| * R.fl (1 / |a|) := by
    rw [abs_mul, abs_of_nonneg (R.fl_nonneg hip.le)]
  have h1 := abs_le.1 (R.close (1 / |a|))
  rw [abs_of_pos hip] at h1
  have hm : |a| * (1 / |a|) = 1 := by field_simp
  have l1 : |a| * R.fl (1 / |a|) ≤ 1 + R.u := by
    have : R.fl (1 / |a|) ≤ (1 + R.u) * (1 / |a|) := by linarith [h1.2]
    calc |a| * R.fl (1 / |a|) ≤ |a| * ((1 + R.u) * (1 / |a|)) := mul_le_mul_of_nonneg_left this hp.le
      _ = (1 + R.u) * (|a| * (1 / |a|)) := by ring
      _ = 1 + R.u := by rw [hm, mul_one]
  have l2 : 1 - R.u ≤ |a| * R.fl (1 / |a|) := by
    have : (1 - R.u) * (1 / |a|) ≤ R.fl (1 / |a|) := by linarith [h1.1]
    calc 1 - R.u = (1 - R.u) * (|a| * (1 / |a|)) := by rw [hm, mul_one]
      _ = |a| * ((1 - R.u) * (1 / |a|)) := by ring
      _ ≤ |a| * R.fl (1 / |a|) := mul_le_mul_of_nonneg_left this hp.le
  have u1 := R.abs_fl_le (a * R.fl (1 / |a|))
  have u2 := R.le_abs_fl (a * R.fl (1 / |a|))
  rw [e] at u1 u2
  rw [abs_le]
  constructor
  · have : (1 - R.u) * (1 - R.u) ≤ (1 - R.u) * (|a| * R.fl (1 / |a|)) := mul_le_mul_of_nonneg_left l2 (by linarith)
    nlinarith
  · have : (1 + R.u) * (|a| * R.fl (1 / |a|)) ≤ (1 + R.u) * (1 + R.u) := mul_le_mul_of_nonneg_left l1 (by linarith)
    nlinarith

/-- An amount whose rounded reciprocal passes the test. -/
theorem kept_near_one (R : Rounding) {a : ℚ} (ha : a ≠ 0) (h : |R.fl (R.fl (1 / |a|) - 1)| ≤ 1 / 10 ^ 14) :
    |(|a| - 1)| ≤ 11 / 10 ^ 15 := by
  have hp : 0 < |a| := abs_pos.mpr ha
  have hip : 0 < 1 / |a| := by positivity
  have h0 := R.nonneg
  have hu : R.u ≤ 1 / 10 ^ 15 * (1 / 8) := le_trans R.small (by norm_num)
  generalize hg : R.fl (1 / |a|) = g at h
  have h1 := abs_le.1 (R.close (1 / |a|))
  rw [abs_of_pos hip, hg] at h1
  have hm : |a| * (1 / |a|) = 1 := by field_simp
  have h2 := R.le_abs_fl (g - 1)
  have h3 : |g - 1| ≤ 101 / 10 ^ 16 := by
    by_contra hc
    push Not at hc
    have : (1 - R.u) * (101 / 10 ^ 16) < (1 - R.u) * |g - 1| := mul_lt_mul_of_pos_left hc (by linarith)
    have k : (1 : ℚ) / 10 ^ 14 < (1 - 1 / 10 ^ 15) * (101 / 10 ^ 16) := by norm_num
    have k' : (1 - 1 / 10 ^ 15) * (101 / 10 ^ 16) ≤ (1 - R.u) * (101 / 10 ^ 16 : ℚ) :=
      mul_le_mul_of_nonneg_right (by linarith) (by norm_num)
    linarith
  have h4 := abs_le.1 h3
  have m1 : |a| * g ≤ 1 + R.u := by
    have : g ≤ (1 + R.u) * (1 / |a|) := by linarith [h1.2]
    calc |a| * g ≤ |a| * ((1 + R.u) * (1 / |a|)) := mul_le_mul_of_nonneg_left this hp.le
      _ = (1 + R.u) * (|a| * (1 / |a|)) := by ring
      _ = 1 + R.u := by rw [hm, mul_one]
  have m2 : 1 - R.u ≤ |a| * g := by
    have : (1 - R.u) * (1 / |a|) ≤ g := by linarith [h1.1]
    calc 1 - R.u = (1 - R.u) * (|a| * (1 / |a|)) := by rw [hm, mul_one]
      _ = |a| * ((1 - R.u) * (1 / |a|)) := by ring
      _ ≤ |a| * g := mul_le_mul_of_nonneg_left this hp.le
  have ga : |a| * (1 - 101 / 10 ^ 16) ≤ |a| * g := mul_le_mul_of_nonneg_left (by linarith) hp.le
  have gb : |a| * g ≤ |a| * (1 + 101 / 10 ^ 16) := mul_le_mul_of_nonneg_left (by linarith) hp.le
  rw [abs_le]
  constructor <;> linarith

/-! ## Sums -/

theorem foldl_sumsTo {R : Rounding} (l : List ℚ) {p : List ℚ} {k : ℕ} {s : ℚ} (h : SumsTo R p k s) :
    SumsTo R (p ++ l) (k + l.length) (l.foldl (fun s x => R.fl (s + x)) s) := by
  induction l generalizing p k s with
  | nil => simpa using h
  | cons x l ih =>
    have := ih (SumsTo.add h (SumsTo.one x))
    simp only [List.append_assoc, List.singleton_append, List.foldl_cons, List.length_cons] at this ⊢
    have e : k + 0 + 1 + l.length = k + (l.length + 1) := by omega
    rwa [e] at this

/-- Python's `sum` is one of the ways of adding up, with as many additions as there are numbers. -/
theorem pySum_sumsTo (R : Rounding) (l : List ℚ) : SumsTo R l l.length (pySum R l) := by
  have := foldl_sumsTo l (SumsTo.nil (R := R))
  simpa [pySum] using this

end Ocelot
