import Verif.Props.Schema
import Verif.Props.Allocation

/-! # C111: the labels of allocation methods and the internal schema -/

namespace Ocelot
open Spec

/-- A dictionary with the key `allocation method` added satisfies the internal schema exactly if it does without it and the label is one of
the eight that the schema knows. -/
theorem accepts_label {d : List (String × PyVal)} (hno : ∀ p ∈ d, p.1 ≠ "allocation method") (l : String) :
    datasetSchema.accepts (.dict (d ++ [("allocation method", .str l)])) = true ↔ datasetSchema.accepts (.dict d) = true ∧
      l ∈ ["combined production with byproduct", "combined production without byproduct", "constrained market", "economic allocation", "no allocation",
        "recycling activity", "true value allocation", "waste treatment"] := by
  have hnone : d.lookup "allocation method" = none := by
    rw [List.lookup_eq_none_iff]
    intro p hp
    simpa using fun h => hno p hp h.symm
  have hlook : (d ++ [("allocation method", PyVal.str l)]).lookup "allocation method" = some (.str l) := by
    rw [List.lookup_append, hnone]
    simp
  have hother : ∀ k, k ≠ "allocation method" → (d ++ [("allocation method", PyVal.str l)]).lookup k = d.lookup k := by
    intro k hk
    rw [List.lookup_append]
    have : (k == "allocation method") = false := by simpa using hk
    simp [List.lookup_cons, this]
  rw [datasetSchema, accepts_record, accepts_record]
  have hacc : validAllocationMethod.accepts (.str l) = true ↔ l ∈ ["combined production with byproduct", "combined production without byproduct", "constrained market", "economic allocation", "no allocation",
        "recycling activity", "true value allocation", "waste treatment"] := by
    rw [validAllocationMethod, accepts_oneOf, List.contains_iff_mem]
  have hfield : ∀ f : String × Bool × Sch, f.1 ≠ "allocation method" → (FieldOk (d ++ [("allocation method", PyVal.str l)]) f ↔ FieldOk d f) := by
    intro f hf
    unfold FieldOk
    rw [hother _ hf]
  constructor
  · rintro ⟨hk, hf⟩
    refine ⟨⟨fun p hp => hk p (by simp [hp]), fun f hfm => ?_⟩, ?_⟩
    · by_cases hfa : f.1 = "allocation method"
      · have : f = opt "allocation method" validAllocationMethod := by
          simp only [need, opt, List.mem_cons, List.not_mem_nil, or_false] at hfm
          rcases hfm with rfl | rfl | rfl | rfl | rfl | rfl | rfl | rfl | rfl | rfl | rfl | rfl | rfl | rfl | rfl | rfl | rfl | rfl | rfl | rfl <;> first | rfl | (exact absurd hfa (by decide))
        rw [this]
        refine ⟨fun x hx => ?_, by simp [opt]⟩
        have hx : d.lookup "allocation method" = some x := hx
        rw [hnone] at hx
        cases hx
      · exact (hfield f hfa).mp (hf f hfm)
    · rw [← hacc]
      exact (hf (opt "allocation method" validAllocationMethod) (by simp)).1 _ hlook
  · rintro ⟨⟨hk, hf⟩, hl⟩
    refine ⟨fun p hp => ?_, fun f hfm => ?_⟩
    · rcases List.mem_append.mp hp with hp | hp
      · exact hk p hp
      · rw [List.mem_singleton.mp hp]
        simp [need, opt]
    · by_cases hfa : f.1 = "allocation method"
      · have : f = opt "allocation method" validAllocationMethod := by
          simp only [need, opt, List.mem_cons, List.not_mem_nil, or_false] at hfm
          rcases hfm with rfl | rfl | rfl | rfl | rfl | rfl | rfl | rfl | rfl | rfl | rfl | rfl | rfl | rfl | rfl | rfl | rfl | rfl | rfl | rfl <;> first | rfl | (exact absurd hfa (by decide))
        rw [this]
        refine ⟨fun x hx => ?_, by simp [opt]⟩
        have hx : (d ++ [("allocation method", PyVal.str l)]).lookup "allocation method" = some x := hx
        rw [hlook] at hx
        cases hx
        exact hacc.mpr hl
      · exact (hfield f hfa).mpr (hf f hfm)

/-- **C111**, as far as it holds: the dictionary of a dataset that satisfies the internal schema still satisfies it with the label given by
`choose_allocation_method` exactly if the dataset is a constrained market or a treatment of waste with byproducts. -/
theorem C111_labels_partial (d : List (String × PyVal)) (hno : ∀ p ∈ d, p.1 ≠ "allocation method") (hd : datasetSchema.accepts (.dict d) = true)
    (ds : Dataset) (l : String) (h : chooseAllocationMethod ds = .ok l) :
    datasetSchema.accepts (.dict (d ++ [("allocation method", .str l)])) = true ↔
      (¬ OneProduct ds ∧ ds.type = .market ∧ HasConditional ds) ∨
      (¬ OneProduct ds ∧ ds.type ≠ .marketGroup ∧ ds.type ≠ .market ∧ ∃ e, liveRefs ds = [e] ∧ e.amount < 0 ∧ e.cls = some .waste) := by
  rw [accepts_label hno]
  obtain ⟨hc, hm⟩ := (C13_choose_exact ds l).mp h
  constructor
  · rintro ⟨-, hl⟩
    cases hm with
    | constrained h1 h2 h3 => exact Or.inl ⟨h1, h2, h3⟩
    | waste e h1 h2 h3 h4 h5 h6 => exact Or.inr ⟨h1, h2, h3, e, h4, h5, h6⟩
    | _ => exact absurd hl (by decide)
  · intro hcase
    refine ⟨hd, ?_⟩
    have : Method ds "constrained market" ∨ Method ds "waste treatment" := by
      rcases hcase with ⟨h1, h2, h3⟩ | ⟨h1, h2, h3, e, h4, h5, h6⟩
      · exact Or.inl (.constrained h1 h2 h3)
      · exact Or.inr (.waste e h1 h2 h3 h4 h5 h6)
    rcases this with h' | h'
    · rw [hm.unique h']; decide
    · rw [hm.unique h']; decide

/-- **C111** fails for every dataset with one product only, and for every dataset with economic allocation: their labels are not among those
that the schema knows. -/
theorem C111_rejected (d : List (String × PyVal)) (hno : ∀ p ∈ d, p.1 ≠ "allocation method") (ds : Dataset) (l : String) (h : chooseAllocationMethod ds = .ok l)
    (hl : l ≠ "constrained market") (hl' : l ≠ "waste treatment") : datasetSchema.accepts (.dict (d ++ [("allocation method", .str l)])) = false := by
  rw [Bool.eq_false_iff]
  intro ha
  obtain ⟨-, hm⟩ := (accepts_label hno l).mp ha
  have := C13_choose_label ds l h
  simp only [List.mem_cons, List.not_mem_nil, or_false] at this
  rcases this with rfl | rfl | rfl | rfl | rfl | rfl | rfl | rfl | rfl | rfl <;> first | exact absurd rfl hl | exact absurd rfl hl' | exact absurd hm (by decide)

/-- Whether the example dataset of C103 satisfies the schema with the given label. -/
def labelVerdict (l : String) : Option Bool :=
  match datasetVal SchemaExample.X "f" (SchemaExample.dataset "0") with
  | .ok (.dict d) => some (datasetSchema.accepts (.dict (d ++ [("allocation method", .str l)])))
  | _ => none

example : labelVerdict "waste treatment" = some true ∧ labelVerdict "single product" = some false ∧ labelVerdict "economic" = some false := by
  decide +kernel

/-- A market for two products with a conditional exchange. -/
example : ∃ l, chooseAllocationMethod { name := "m", type := .market, exchanges := [{ name := "w", type := .referenceProduct, amount := 1 }, { name := "heat", type := .byproduct, cls := some .allocatable, amount := 3, conditional := some true }] } = .ok l ∧ labelVerdict l = some true :=
  ⟨"constrained market", by decide +kernel, by decide +kernel⟩

end Ocelot
