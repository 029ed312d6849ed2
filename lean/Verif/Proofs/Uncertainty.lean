import Verif.Model.Uncertainty
import Verif.Proofs.ExceptLemmas
import Mathlib.Algebra.Order.Field.Basic
import Mathlib.Tactic.FieldSimp
import Mathlib.Tactic.Linarith
import Mathlib.Tactic.Ring
import Mathlib.Tactic.NormNum

namespace Ocelot

theorem swap_lo (a b : ℚ) : (if a > b then b else a) = min a b := by
  rcases le_total a b with h | h
  · rw [min_eq_left h, if_neg (not_lt.mpr h)]
  · rw [min_eq_right h]; split
    · rfl
    · exact le_antisymm (not_lt.mp ‹_›) h

theorem swap_hi (a b : ℚ) : (if a > b then a else b) = max a b := by
  rcases le_total a b with h | h
  · rw [max_eq_right h, if_neg (not_lt.mpr h)]
  · rw [max_eq_left h]; split
    · rfl
    · exact le_antisymm h (not_lt.mp ‹_›)

theorem triangularRepair_eq {o : NumObj} {u : Unc} {mn mx : ℚ}
    (h1 : u.minimum = some mn) (h2 : u.maximum = some mx) :
    triangularRepair o u =
      if mn = mx ∧ mx = o.amount then .ok o.removeUncertainty
      else if o.amount < min mn mx ∨ o.amount > max mn mx then .ok o.removeUncertainty
      else .ok { o with uncertainty := some { u with mode := some o.amount, minimum := some (min mn mx), maximum := some (max mn mx) } } := by
  unfold triangularRepair
  simp only [h1, h2, getKey_some, ebind_ok, epure, swap_lo, swap_hi]

theorem uniformRepair_eq {o : NumObj} {u : Unc} {mn mx : ℚ}
    (h1 : u.minimum = some mn) (h2 : u.maximum = some mx) :
    uniformRepair o u =
      if mn = mx ∧ mx = o.amount then .ok o.removeUncertainty
      else if o.amount < min mn mx ∨ o.amount > max mn mx then .error .valueError
      else if allclose o.amount ((mn + mx) / 2) = false then
        triangularRepair o { u with kind := some .triangular, minimum := some (min mn mx), maximum := some (max mn mx) }
      else .ok { o with uncertainty := some { u with minimum := some (min mn mx), maximum := some (max mn mx) } } := by
  have hs : min mn mx + max mn mx = mn + mx := min_add_max mn mx
  unfold uniformRepair
  simp only [h1, h2, getKey_some, ebind_ok, epure, ethrow, ebind_error, swap_lo, swap_hi, hs,
    Bool.not_eq_true']

/-- Repairing a triangular distribution changes at most the uncertainty. -/
theorem triangularRepair_frame {o : NumObj} {u : Unc} {o' : NumObj}
    (h : triangularRepair o u = .ok o') : o' = { o with uncertainty := o'.uncertainty } := by
  rcases hmn : u.minimum with _ | mn
  · simp [triangularRepair, hmn] at h
  rcases hmx : u.maximum with _ | mx
  · simp [triangularRepair, hmn, hmx] at h
  rw [triangularRepair_eq hmn hmx] at h
  repeat' split at h
  all_goals (cases h; rfl)

theorem uniformRepair_frame {o : NumObj} {u : Unc} {o' : NumObj}
    (h : uniformRepair o u = .ok o') : o' = { o with uncertainty := o'.uncertainty } := by
  rcases hmn : u.minimum with _ | mn
  · simp [uniformRepair, hmn] at h
  rcases hmx : u.maximum with _ | mx
  · simp [uniformRepair, hmn, hmx] at h
  rw [uniformRepair_eq hmn hmx] at h
  repeat' split at h
  all_goals first | exact triangularRepair_frame h | (cases h; rfl) | cases h

theorem normalRepair_frame {o : NumObj} {u : Unc} {o' : NumObj}
    (h : normalRepair o u = .ok o') : o' = { o with uncertainty := o'.uncertainty } := by
  unfold normalRepair at h
  rcases hv : u.variancePed with _ | v <;> simp [hv] at h
  split at h <;> (cases h; rfl)

theorem lognormalRepair_frame {M : MathEnv} {o : NumObj} {u : Unc} {o' : NumObj}
    (h : lognormalRepair M o u = .ok o') : o' = { o with uncertainty := o'.uncertainty } := by
  unfold lognormalRepair at h
  split at h
  · cases h; rfl
  rcases hv : u.variancePed with _ | v <;> simp [hv] at h
  split at h
  · cases h; rfl
  rcases hp : objPedigreeVariance o with e | p <;> simp [hp] at h
  repeat' split at h
  all_goals (cases h; rfl)

theorem repair_frame {M : MathEnv} {o o' : NumObj} (h : repair M o = .ok o') :
    o' = { o with uncertainty := o'.uncertainty } := by
  unfold repair at h
  split at h
  · cases h; rfl
  · split at h
    · cases h; rfl
    · cases h; rfl
    · exact lognormalRepair_frame h
    · exact normalRepair_frame h
    · exact triangularRepair_frame h
    · exact uniformRepair_frame h
    · cases h

theorem lognormalRescalePos_frame {M : MathEnv} {o : NumObj} {u : Unc} {f : ℚ} {o' : NumObj}
    (h : lognormalRescalePos M o u f = .ok o') :
    o' = { o with amount := o.amount * f, uncertainty := o'.uncertainty } := by
  unfold lognormalRescalePos at h
  simp only at h
  split at h
  · cases h
  · cases h; rfl

theorem scale_frame {M : MathEnv} {o o' : NumObj} {f : ℚ} (h : o.scale M f = .ok o') :
    o' = { o with amount := o.amount * f, uncertainty := o'.uncertainty } := by
  unfold NumObj.scale at h
  split at h
  · next hf => subst hf; cases h; simp
  split at h
  · cases h; simp_all
  · next u hu =>
    split at h
    · cases h; simp_all
    · unfold undefinedRescale at h
      rcases hmn : u.minimum with _ | mn <;> rcases hmx : u.maximum with _ | mx <;>
        simp [hmn, hmx] at h
      cases h; rfl
    · unfold lognormalRescale at h
      split at h
      · next hneg =>
        have h' := lognormalRescalePos_frame h
        rw [h', abs_of_neg hneg]
        simp
      · split at h
        · next h0 => cases h; simp [h0]
        · exact lognormalRescalePos_frame h
    · unfold normalRescale at h
      split at h
      · next h0 => cases h; simp [h0]
      · split at h
        · cases h
        · rcases hv : u.variance with _ | v <;> simp [hv] at h
          cases h; rfl
    · unfold triangularRescale at h
      rcases hmn : u.minimum with _ | mn <;> rcases hmd : u.mode with _ | md <;>
        rcases hmx : u.maximum with _ | mx <;> simp [hmn, hmx, hmd] at h
      have h' := triangularRepair_frame h
      rw [h']
    · unfold uniformRescale at h
      rcases hmn : u.minimum with _ | mn <;>
        rcases hmx : u.maximum with _ | mx <;> simp [hmn, hmx] at h
      have h' := uniformRepair_frame h
      rw [h']
    · cases h

end Ocelot
