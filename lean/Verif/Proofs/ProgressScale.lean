import Verif.Model.Cutoff
import Verif.Spec.Database
import Verif.Proofs.Utils
import Verif.Proofs.Uncertainty

/-! # Numbers that can be multiplied by any factor without an exception -/

namespace Ocelot

open Spec

theorem steady_certain {o : NumObj} (h : o.uncertainty = none) : Steady o := by
  unfold Steady; rw [h]; trivial

theorem not_uniform_removed (o : NumObj) : ¬ IsUniform o.removeUncertainty := by
  rintro ⟨u, h, -⟩
  cases h

theorem triangularRepair_steady {o : NumObj} {u : Unc} {a b : ℚ} (hu : u.kind = some .triangular) (ha : u.minimum = some a) (hb : u.maximum = some b) :
    ∃ o', triangularRepair o u = .ok o' ∧ Steady o' ∧ ¬ IsUniform o' := by
  unfold triangularRepair
  rw [ha, hb]
  simp only [getKey_some, ebind_ok, epure, swap_lo, swap_hi]
  split
  · exact ⟨o.removeUncertainty, rfl, steady_certain rfl, not_uniform_removed o⟩
  split
  · exact ⟨o.removeUncertainty, rfl, steady_certain rfl, not_uniform_removed o⟩
  · refine ⟨_, rfl, ?_, ?_⟩
    · unfold Steady
      simp only [hu]
      simp
    · rintro ⟨u', h, h'⟩
      cases h
      rw [hu] at h'
      cases h'

theorem uniformRepair_steady {o : NumObj} {u : Unc} {a b : ℚ} (hu : u.kind = some .uniform) (ha : u.minimum = some a) (hb : u.maximum = some b)
    (hlo : min a b ≤ o.amount) (hhi : o.amount ≤ max a b) : ∃ o', uniformRepair o u = .ok o' ∧ Steady o' := by
  unfold uniformRepair
  rw [ha, hb]
  simp only [getKey_some, ebind_ok, epure, swap_lo, swap_hi]
  split
  · exact ⟨_, rfl, steady_certain rfl⟩
  rw [if_neg (by push Not; exact ⟨hlo, hhi⟩)]
  split
  · obtain ⟨o', h1, h2, -⟩ := triangularRepair_steady (o := o) (u := { u with minimum := some (min a b), maximum := some (max a b), kind := some .triangular }) rfl rfl rfl
    exact ⟨o', h1, h2⟩
  · refine ⟨_, rfl, ?_⟩
    unfold Steady
    simp only [hu]
    exact ⟨_, _, rfl, rfl, hlo, hhi⟩

/-- A steady number can be multiplied by any factor, and the result is steady. -/
theorem scale_steady (M : MathEnv) {o : NumObj} (h : Steady o) (f : ℚ) : ∃ o', o.scale M f = .ok o' ∧ Steady o' := by
  unfold NumObj.scale
  by_cases hf : f = 1
  · rw [if_pos hf]; exact ⟨o, rfl, h⟩
  rw [if_neg hf]
  have h0 := h
  unfold Steady at h
  rcases hu : o.uncertainty with _ | u
  · exact ⟨_, rfl, steady_certain rfl⟩
  rw [hu] at h
  simp only at h ⊢
  rcases hk : u.kind with _ | k
  · refine ⟨_, rfl, ?_⟩
    unfold Steady
    simp only
    rw [hk]
    trivial
  rw [hk] at h
  rcases k with _ | _ | _ | _ | _ | s
  · -- lognormal
    simp only at h ⊢
    unfold lognormalRescale
    split
    · unfold lognormalRescalePos
      have : abs ((-1 * o.amount) * abs f) ≠ 0 := by
        rw [abs_ne_zero]
        have : f ≠ 0 := by rintro rfl; simp at *
        simp [h, this]
      rw [if_neg (not_le.mpr (lt_of_le_of_ne (abs_nonneg _) (Ne.symm this)))]
      refine ⟨_, rfl, ?_⟩
      unfold Steady
      simp only [hk]
      intro h'
      rw [h'] at this
      simp at this
    · split
      · exact ⟨_, rfl, steady_certain rfl⟩
      · next hf0 =>
        unfold lognormalRescalePos
        have : |o.amount * f| ≠ 0 := by
          rw [abs_ne_zero]
          exact mul_ne_zero h hf0
        rw [if_neg (not_le.mpr (lt_of_le_of_ne (abs_nonneg _) (Ne.symm this)))]
        refine ⟨_, rfl, ?_⟩
        unfold Steady
        simp only [hk]
        exact mul_ne_zero h hf0
  · -- normal
    simp only at h ⊢
    unfold normalRescale
    split
    · exact ⟨_, rfl, steady_certain rfl⟩
    · next hf0 =>
      rw [if_neg h.1]
      obtain ⟨v, hv⟩ := Option.isSome_iff_exists.mp h.2
      rw [hv]
      refine ⟨_, rfl, ?_⟩
      unfold Steady
      simp only [hk]
      exact ⟨mul_ne_zero h.1 hf0, rfl⟩
  · -- triangular
    simp only at h ⊢
    unfold triangularRescale
    obtain ⟨a, ha⟩ := Option.isSome_iff_exists.mp h.1
    obtain ⟨m, hm⟩ := Option.isSome_iff_exists.mp h.2.1
    obtain ⟨b, hb⟩ := Option.isSome_iff_exists.mp h.2.2
    rw [ha, hm, hb]
    simp only [getKey_some, ebind_ok]
    obtain ⟨o', h1, h2, -⟩ := triangularRepair_steady (o := { o with amount := o.amount * f, uncertainty := some { u with minimum := some (a * f), mode := some (m * f), maximum := some (b * f) } }) (u := { u with minimum := some (a * f), mode := some (m * f), maximum := some (b * f) }) hk rfl rfl
    exact ⟨o', h1, h2⟩
  · -- undefined
    simp only at h ⊢
    unfold undefinedRescale
    obtain ⟨a, ha⟩ := Option.isSome_iff_exists.mp h.1
    obtain ⟨b, hb⟩ := Option.isSome_iff_exists.mp h.2
    rw [ha, hb]
    refine ⟨_, rfl, ?_⟩
    unfold Steady
    simp only [hk]
    simp
  · -- uniform
    simp only at h ⊢
    unfold uniformRescale
    obtain ⟨a, b, ha, hb, hlo, hhi⟩ := h
    rw [ha, hb]
    simp only [getKey_some, ebind_ok]
    refine uniformRepair_steady (o := { o with amount := o.amount * f, uncertainty := some { u with minimum := some (a * f), maximum := some (b * f) } }) (u := { u with minimum := some (a * f), maximum := some (b * f) }) hk rfl rfl ?_ ?_
    · show min (a * f) (b * f) ≤ o.amount * f
      rcases le_total 0 f with h0 | h0
      · exact (min_le_left _ _).trans (mul_le_mul_of_nonneg_right hlo h0)
      · exact (min_le_right _ _).trans (mul_le_mul_of_nonpos_right hhi h0)
    · show o.amount * f ≤ max (a * f) (b * f)
      rcases le_total 0 f with h0 | h0
      · exact (mul_le_mul_of_nonneg_right hhi h0).trans (le_max_right _ _)
      · exact (mul_le_mul_of_nonpos_right hlo h0).trans (le_max_left _ _)
  · exact absurd h (by simp)

theorem scaleExchange_steady (M : MathEnv) {e : Exchange} (h : Steady e.toNumObj) (f : ℚ) :
    ∃ e', scaleExchange M e f = .ok e' ∧ Steady e'.toNumObj := by
  obtain ⟨o, h1, h2⟩ := scale_steady M h f
  unfold scaleExchange
  rw [h1]
  exact ⟨_, rfl, h2⟩

/-- Changing the sign keeps a number steady unless its distribution is uniform. -/
theorem steady_neg {o : NumObj} (h : Steady o) (hu : ¬ IsUniform o) (g : Option String) : Steady { o with amount := -1 * o.amount, formula := g } := by
  unfold Steady at h ⊢
  simp only
  rcases ho : o.uncertainty with _ | u
  · trivial
  rw [ho] at h
  simp only at h ⊢
  rcases hk : u.kind with _ | k
  · trivial
  rw [hk] at h
  rcases k with _ | _ | _ | _ | _ | s <;> simp_all [IsUniform]

end Ocelot
