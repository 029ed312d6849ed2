import Verif.Model.Intersections
import Verif.Props.Topology

/-! # Property C118: intersections of places -/

namespace Ocelot

/-- The two places have a face in common. -/
def Spec.Meet (T : Topology) (s t : String) : Prop := ∃ f g i, HasFaces T s f ∧ HasFaces T t g ∧ i ∈ f ∧ i ∈ g

open Spec

theorem Spec.Meet.symm {T : Topology} {s t : String} : Meet T s t → Meet T t s
  | ⟨f, g, i, h1, h2, h3, h4⟩ => ⟨g, f, i, h2, h1, h4, h3⟩

/-- **C118**, for a named place other than the whole world: `intersected` lists exactly the places that have a face in common with it, each once, without the
place itself if that is asked for. -/
theorem C118_listed_partial (T : Topology) (hT : WellFormed T) (p : String) (hg : p ≠ "GLO") (f : Finset ℕ) (hp : HasFaces T p f) (ex : Bool) :
    ∃ l, T.intersected p ex = .ok l ∧ l.Nodup ∧ ∀ c, c ∈ l ↔ Meet T p c ∧ ¬ (c = p ∧ ex = true) := by
  refine ⟨(T.data.filter fun kv => decide ((kv.2 ∩ f).Nonempty) && !(decide (kv.1 = p) && ex)).map (·.1), ?_, hT.1.sublist (List.filter_sublist.map _), fun c => ?_⟩
  · unfold Topology.intersected
    rw [if_neg (by rintro (h | h); exacts [hg h, hp.ne hT h]), hp.call hT]
    rfl
  · simp only [List.mem_map, List.mem_filter, Bool.and_eq_true, decide_eq_true_eq, Bool.not_eq_true', Bool.and_eq_false_iff, decide_eq_false_iff_not, Prod.exists]
    constructor
    · rintro ⟨c', g, ⟨hm, ⟨i, hi⟩, hx⟩, rfl⟩
      rw [Finset.mem_inter] at hi
      refine ⟨⟨f, g, i, hp, hm, hi.2, hi.1⟩, ?_⟩
      rintro ⟨h1, h2⟩
      rcases hx with hx | hx
      · exact hx h1
      · rw [h2] at hx; cases hx
    · rintro ⟨⟨f', g, i, hf', hg', hi, hi'⟩, hx⟩
      rw [HasFaces.unique hT hf' hp] at hi
      refine ⟨c, g, ⟨hg', ⟨i, Finset.mem_inter.mpr ⟨hi', hi⟩⟩, ?_⟩, rfl⟩
      by_cases hc : c = p
      · exact Or.inr (by cases ex <;> simp_all)
      · exact Or.inl hc

/-- **C118**: `intersects` answers whether two places have a face in common. -/
theorem C118_exact_partial (T : Topology) (hT : WellFormed T) (p c : String) (hg : p ≠ "GLO") (f : Finset ℕ) (hp : HasFaces T p f) :
    ∃ b, T.intersects p c = .ok b ∧ (b = true ↔ Meet T p c) := by
  obtain ⟨l, hl, _, hmem⟩ := C118_listed_partial T hT p hg f hp false
  refine ⟨decide (c ∈ l), by rw [Topology.intersects, hl]; rfl, ?_⟩
  rw [decide_eq_true_iff, hmem]
  simp

/-- **C118**: the relation is symmetric between places other than the whole world. -/
theorem C118_symmetric_partial (T : Topology) (hT : WellFormed T) (p c : String) (hp : p ≠ "GLO") (hc : c ≠ "GLO") (f g : Finset ℕ) (hf : HasFaces T p f)
    (hg : HasFaces T c g) : T.intersects p c = T.intersects c p := by
  obtain ⟨b, hb, h1⟩ := C118_exact_partial T hT p c hp f hf
  obtain ⟨b', hb', h2⟩ := C118_exact_partial T hT c p hc g hg
  rw [hb, hb', Bool.eq_iff_iff.mpr (h1.trans ((⟨Meet.symm, Meet.symm⟩ : Meet T p c ↔ Meet T c p).trans h2.symm))]

/-- **C118**: a place that contains another one that exists somewhere also intersects it. -/
theorem C118_contains (T : Topology) (hT : WellFormed T) (p c : String) (hp : p ≠ "GLO") (f g : Finset ℕ) (hf : HasFaces T p f) (hg : HasFaces T c g) (hne : g ≠ ∅)
    (h : T.contains (.name p) (.name c) none none = .ok true) : T.intersects p c = .ok true := by
  obtain ⟨b, hb, h1⟩ := C118_exact_partial T hT p c hp f hf
  rw [hb, h1.mpr ?_]
  have h2 := C32_named T hT p c f g hf hg none (by simp) none
  obtain ⟨b', hb', h3⟩ := h2
  rw [h] at hb'
  cases hb'
  obtain ⟨i, hi⟩ := Finset.nonempty_iff_ne_empty.mpr hne
  exact ⟨f, g, i, hf, hg, (h3.mp rfl i hi).1, hi⟩

/-- **C118** is false for the whole world: it intersects nothing, although every place with faces intersects it. -/
theorem C118_global (T : Topology) (hT : WellFormed T) (c : String) (f g : Finset ℕ) (hc : c ≠ "GLO") (hf : HasFaces T c f) (hne : f ≠ ∅) (hg : HasFaces T "GLO" g) (hsub : f ⊆ g) :
    T.intersects "GLO" c = .ok false ∧ T.intersects c "GLO" = .ok true := by
  refine ⟨rfl, ?_⟩
  obtain ⟨b, hb, h1⟩ := C118_exact_partial T hT c "GLO" hc f hf
  rw [hb, h1.mpr ?_]
  obtain ⟨i, hi⟩ := Finset.nonempty_iff_ne_empty.mpr hne
  exact ⟨f, g, i, hf, hg, hi, hsub hi⟩

example : exampleTopology.intersects "CH" "RER" = .ok true ∧ exampleTopology.intersects "RER" "CH" = .ok true ∧ exampleTopology.intersects "CH" "US" = .ok false ∧
    exampleTopology.intersects "GLO" "CH" = .ok false ∧ exampleTopology.intersects "CH" "GLO" = .ok true := by decide +kernel

end Ocelot
