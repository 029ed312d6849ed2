import Verif.Proofs.Utils
import Verif.Model.Cutoff

/-! # The lazy tests of `choose_allocation_method` -/

namespace Ocelot
open Spec

theorem anyProduction_value {p : Exchange → Bool} {l : List Exchange} {b : Bool} (h : anyProduction p l = .ok b) :
    b = (l.filter isProduction).any p := by
  induction l generalizing b with
  | nil => cases h; rfl
  | cons e l ih =>
    simp only [anyProduction] at h
    obtain ⟨a, ha, h⟩ := bind_eq_ok.mp h
    obtain ⟨-, rfl⟩ := isAllocatable_ok' ha
    rw [List.filter_cons]
    split at h
    · rename_i hp
      cases h
      simp only [Bool.and_eq_true] at hp
      simp [hp.1, hp.2]
    · rename_i hp
      rw [ih h]
      cases hq : isProduction e
      · simp
      · simp [hq] at hp
        simp [hp]

theorem anyProduction_error {p : Exchange → Bool} {l : List Exchange} {x : Err} (h : anyProduction p l = .error x) : x = .keyError := by
  induction l with
  | nil => cases h
  | cons e l ih =>
    simp only [anyProduction] at h
    rcases ha : isAllocatable e with y | b
    · rw [ha] at h
      unfold isAllocatable at ha
      split at ha
      · cases ha
      · split at ha <;> cases ha
        cases h; rfl
      · cases ha
    · rw [ha, ebind_ok] at h
      split at h
      · cases h
      · exact ih h

/-- The lazy test succeeds exactly if every unclassified byproduct comes after a hit. -/
theorem anyProduction_succeeds {p : Exchange → Bool} {l : List Exchange} :
    (∃ b, anyProduction p l = .ok b) ↔
      ∀ pre e post, l = pre ++ e :: post → e.type = .byproduct → e.cls = none → ∃ x ∈ pre, isProduction x = true ∧ p x = true := by
  induction l with
  | nil => exact ⟨fun _ pre e post h => by simp at h, fun _ => ⟨false, rfl⟩⟩
  | cons a l ih =>
    constructor
    · rintro ⟨b, h⟩ pre e post hl ht hc
      simp only [anyProduction] at h
      obtain ⟨q, hq, h⟩ := bind_eq_ok.mp h
      obtain ⟨hcl, rfl⟩ := isAllocatable_ok' hq
      rcases pre with _ | ⟨y, pre⟩
      · simp at hl
        obtain ⟨rfl, -⟩ := hl
        exact absurd hc (hcl ht)
      simp only [List.cons_append, List.cons.injEq] at hl
      obtain ⟨rfl, hl⟩ := hl
      split at h
      · rename_i hp
        simp only [Bool.and_eq_true] at hp
        exact ⟨a, by simp, hp.1, hp.2⟩
      · obtain ⟨x, hx, h'⟩ := ih.mp ⟨b, h⟩ pre e post hl ht hc
        exact ⟨x, by simp [hx], h'⟩
    · intro h
      have hcl : a.type = .byproduct → a.cls ≠ none := by
        intro ht hc
        obtain ⟨x, hx, -⟩ := h [] a l rfl ht hc
        cases hx
      simp only [anyProduction, isAllocatable_ok hcl, ebind_ok]
      by_cases hp : (isProduction a && p a) = true
      · exact ⟨true, by rw [if_pos hp]; rfl⟩
      · rw [if_neg hp]
        apply ih.mpr
        intro pre e post hl ht hc
        obtain ⟨x, hx, h1, h2⟩ := h (a :: pre) e post (by rw [hl]; rfl) ht hc
        rcases List.mem_cons.mp hx with rfl | hx
        · exact absurd (by simp [h1, h2]) hp
        · exact ⟨x, hx, h1, h2⟩

theorem anyProduction_classified {p : Exchange → Bool} {ds : Dataset} (hc : Classified ds) :
    anyProduction p ds.exchanges = .ok ((production ds).any p) := by
  obtain ⟨b, hb⟩ := (anyProduction_succeeds (p := p) (l := ds.exchanges)).mpr fun pre e post hl ht hn =>
    absurd hn (hc e (by rw [hl]; simp) ht)
  rw [hb, anyProduction_value hb]
  rfl

end Ocelot
