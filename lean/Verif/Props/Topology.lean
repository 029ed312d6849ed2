import Verif.Proofs.Topology
import Verif.Model.Lru
import Mathlib.Algebra.Order.BigOperators.Group.Finset
import Mathlib.Data.Finset.Disjoint

/-! # Properties C32–C37: the topology -/

set_option linter.unusedSimpArgs false

namespace Ocelot

/-! ## Specification -/

namespace Spec

/-- The topology is a dictionary (one entry per name) without an entry for `RoW`. -/
def WellFormed (T : Topology) : Prop := (T.data.map (·.1)).Nodup ∧ "RoW" ∉ T.data.map (·.1)

/-- `s` is a named location with the faces `f`. -/
def HasFaces (T : Topology) (s : String) (f : Finset ℕ) : Prop := (s, f) ∈ T.data

/-- The face `i` belongs to one of the places. -/
def InSome (T : Topology) (places : List String) (i : ℕ) : Prop := ∃ s ∈ places, ∃ f, HasFaces T s f ∧ i ∈ f

/-- The location is known or is `RoW`. -/
def Known (T : Topology) (s : String) : Prop := s = "RoW" ∨ ∃ f, HasFaces T s f

end Spec

open Spec

theorem Spec.HasFaces.ne {T : Topology} (hT : WellFormed T) {s : String} {f : Finset ℕ} (h : HasFaces T s f) : s ≠ "RoW" := by
  rintro rfl; exact hT.2 (List.mem_map.mpr ⟨_, h, rfl⟩)

theorem Spec.HasFaces.call {T : Topology} (hT : WellFormed T) {s : String} {f : Finset ℕ} (h : HasFaces T s f) :
    T.call s = .ok f :=
  call_ok.mpr (Or.inr ⟨h.ne hT, (lookup_iff_mem hT.1).mpr h⟩)

theorem Spec.HasFaces.unique {T : Topology} (hT : WellFormed T) {s : String} {f g : Finset ℕ} (h : HasFaces T s f)
    (h' : HasFaces T s g) : f = g := by
  have := (lookup_iff_mem hT.1).mpr h
  rw [(lookup_iff_mem hT.1).mpr h'] at this
  cases this; rfl

theorem call_known {T : Topology} (hT : WellFormed T) {s : String} (h : Known T s) : ∃ f, T.call s = .ok f := by
  rcases h with rfl | ⟨f, h⟩
  · exact ⟨∅, rfl⟩
  · exact ⟨f, h.call hT⟩

theorem known_of_call {T : Topology} {s : String} {f : Finset ℕ} (h : T.call s = .ok f) : Known T s := by
  rcases call_ok.mp h with ⟨rfl, -⟩ | ⟨-, h⟩
  · exact Or.inl rfl
  · exact Or.inr ⟨f, mem_of_lookup h⟩

theorem mem_call {T : Topology} (hT : WellFormed T) {s : String} {f : Finset ℕ} (h : T.call s = .ok f) (i : ℕ) :
    i ∈ f ↔ ∃ g, HasFaces T s g ∧ i ∈ g := by
  rcases call_ok.mp h with ⟨rfl, rfl⟩ | ⟨-, h⟩
  · constructor
    · simp
    · rintro ⟨g, hg, -⟩; exact absurd rfl (hg.ne hT)
  · have hf := mem_of_lookup h
    constructor
    · intro hi; exact ⟨f, hf, hi⟩
    · rintro ⟨g, hg, hi⟩
      rw [HasFaces.unique hT hf hg]; exact hi

theorem mem_unionAll_call {T : Topology} (hT : WellFormed T) {places : List String} {l : List (Finset ℕ)}
    (h : mapE T.call places = .ok l) (i : ℕ) : i ∈ unionAll l ↔ InSome T places i := by
  rw [mem_unionAll]
  have hF := mapE_ok_iff.mp h
  clear h
  induction hF with
  | nil => simp [InSome]
  | @cons s f ss fs hab _ ih =>
    have h1 := mem_call hT hab i
    constructor
    · rintro ⟨g, hg, hi⟩
      rcases List.mem_cons.mp hg with rfl | hg
      · obtain ⟨g, h2⟩ := h1.mp hi
        exact ⟨s, by simp, g, h2⟩
      · obtain ⟨s', hs', h2⟩ := ih.mp ⟨g, hg, hi⟩
        exact ⟨s', by simp [hs'], h2⟩
    · rintro ⟨s', hs', h2⟩
      rcases List.mem_cons.mp hs' with rfl | hs'
      · exact ⟨f, by simp, h1.mpr h2⟩
      · obtain ⟨g, hg, hi⟩ := ih.mpr ⟨s', hs', h2⟩
        exact ⟨g, by simp [hg], hi⟩

theorem mapE_call_known {T : Topology} (hT : WellFormed T) {places : List String} (h : ∀ s ∈ places, Known T s) :
    ∃ l, mapE T.call places = .ok l := mapE_ok_of_forall fun s hs => call_known hT (h s hs)

theorem subtractFaces_spec {T : Topology} (hT : WellFormed T) {sub : Option (List String)}
    (hs : ∀ s ∈ sub.getD [], Known T s) (f : Finset ℕ) :
    ∃ g, T.subtractFaces sub f = .ok g ∧ ∀ i, i ∈ g ↔ i ∈ f ∧ ¬ InSome T (sub.getD []) i := by
  obtain ⟨l, hl⟩ := mapE_call_known hT hs
  refine ⟨f \ unionAll l, subtractFaces_ok.mpr ⟨l, hl, rfl⟩, fun i => ?_⟩
  rw [Finset.mem_sdiff, mem_unionAll_call hT hl]

/-! ## C32 -/

/-- The constructor: every location lies within `GLO`, and the topology is well formed, provided that this
holds for the packaged data. -/
theorem C32_build (cg : List (String × Finset ℕ)) (allFaces : Finset ℕ) (size : Option (ℕ → ℚ)) (T : Topology)
    (hn : (cg.map (·.1)).Nodup) (hr : "RoW" ∉ cg.map (·.1)) (hf : ∀ p ∈ cg, p.2 ⊆ allFaces)
    (h : Topology.build cg allFaces size = .ok T) :
    WellFormed T ∧ HasFaces T "GLO" allFaces ∧ (∀ s f, HasFaces T s f → f ⊆ allFaces) ∧
    (∀ s f, s ≠ "GLO" → (∀ p ∈ compatibility, p.1 ≠ s) → (HasFaces T s f ↔ (s, f) ∈ cg)) := by
  unfold Topology.build at h
  obtain ⟨data, hd, h⟩ := bind_eq_ok.mp h
  cases h
  have hcompat : ∀ p ∈ compatibility, p.1 ≠ "RoW" ∧ p.1 ≠ "GLO" := by decide
  generalize compatibility = comp at hd hcompat
  have main : ∀ (comp : List (String × String)) (d0 : List (String × Finset ℕ)), (∀ p ∈ comp, p.1 ≠ "RoW" ∧ p.1 ≠ "GLO") →
      (d0.map (·.1)).Nodup → "RoW" ∉ d0.map (·.1) → (∀ p ∈ d0, p.2 ⊆ allFaces) → ("GLO", allFaces) ∈ d0 →
      addCompatibilities comp d0 = .ok data →
      (data.map (·.1)).Nodup ∧ "RoW" ∉ data.map (·.1) ∧ (∀ p ∈ data, p.2 ⊆ allFaces) ∧ ("GLO", allFaces) ∈ data ∧
      ∀ s f, (∀ p ∈ comp, p.1 ≠ s) → ((s, f) ∈ data ↔ (s, f) ∈ d0) := by
    intro comp
    induction comp with
    | nil => intro d0 _ h1 h2 h3 h4 h5; cases h5; exact ⟨h1, h2, h3, h4, fun _ _ _ => Iff.rfl⟩
    | cons p comp ih =>
      intro d0 hc h1 h2 h3 h4 h5
      unfold addCompatibilities at h5
      obtain ⟨d1, hd1, h5⟩ := bind_eq_ok.mp h5
      unfold addCompatibility at hd1
      obtain ⟨f, hf, hd1⟩ := bind_eq_ok.mp hd1
      cases hd1
      have hfm := mem_of_lookup (getKey_eq_ok.mp hf)
      have hp := hc p (by simp)
      obtain ⟨a1, a2, a3, a4, a5⟩ := ih (dictSet p.1 f d0) (fun q hq => hc q (by simp [hq])) (dictSet_nodup _ _ _ h1)
        (by
          rw [dictSet_keys_mem]
          rintro (h | h)
          · exact hp.1 h.symm
          · exact h2 h)
        (by
          rintro ⟨x, y⟩ hxy
          rcases (dictSet_mem h1 x y).mp hxy with ⟨-, rfl⟩ | ⟨-, h⟩
          · exact h3 (p.2, _) hfm
          · exact h3 _ h)
        ((dictSet_mem h1 _ _).mpr (Or.inr ⟨fun h => hp.2 h.symm, h4⟩)) h5
      refine ⟨a1, a2, a3, a4, fun s g hs => ?_⟩
      rw [a5 s g (fun q hq => hs q (by simp [hq])), dictSet_mem h1]
      constructor
      · rintro (⟨h, -⟩ | ⟨-, h⟩)
        · exact absurd h.symm (hs p (by simp))
        · exact h
      · intro h; exact Or.inr ⟨fun h' => hs p (by simp) h'.symm, h⟩
  obtain ⟨a1, a2, a3, a4, a5⟩ := main comp (dictSet "GLO" allFaces cg) hcompat (dictSet_nodup _ _ _ hn)
    (by
      rw [dictSet_keys_mem]
      rintro (h | h)
      · exact absurd h (by decide)
      · exact hr h)
    (by
      rintro ⟨x, y⟩ hxy
      rcases (dictSet_mem hn x y).mp hxy with ⟨-, rfl⟩ | ⟨-, h⟩
      · exact Finset.Subset.refl _
      · exact hf _ h)
    ((dictSet_mem hn _ _).mpr (Or.inl ⟨rfl, rfl⟩)) hd
  refine ⟨⟨a1, a2⟩, a4, fun s f h => a3 _ h, fun s f hs hc => ?_⟩
  unfold HasFaces
  rw [a5 s f hc, dictSet_mem hn]
  constructor
  · rintro (⟨h, -⟩ | ⟨-, h⟩)
    · exact absurd h hs
    · exact h
  · intro h; exact Or.inr ⟨hs, h⟩

/-- C32: containment of named locations is inclusion of faces, none of them in a subtracted place. -/
theorem C32_named (T : Topology) (hT : WellFormed T) (p c : String) (fp fc : Finset ℕ) (hp : HasFaces T p fp)
    (hc : HasFaces T c fc) (sub : Option (List String)) (hs : ∀ s ∈ sub.getD [], Known T s) (row : Option (Finset ℕ)) :
    ∃ b, T.contains (.name p) (.name c) sub row = .ok b ∧
      (b = true ↔ ∀ i ∈ fc, i ∈ fp ∧ ¬ InSome T (sub.getD []) i) := by
  obtain ⟨g, hg, hgi⟩ := subtractFaces_spec hT hs fp
  refine ⟨decide (fc ⊆ g), ?_, ?_⟩
  · unfold Topology.contains
    have h1 : ¬ c = "RoW" := hc.ne hT
    have h2 : ¬ p = "RoW" := hp.ne hT
    simp only [h1, false_and, and_false, if_false, Loc.name.injEq, h2, or_self]
    simp only [Topology.parentFaces, h2, if_false, hp.call hT, ebind_ok, hg, hc.call hT]
    rfl
  · rw [decide_eq_true_eq]
    constructor
    · intro h i hi; exact (hgi i).mp (h hi)
    · intro h i hi; exact (hgi i).mpr (h i hi)

/-- C32: a set of faces (a resolved rest-of-world) inside a named location. -/
theorem C32_set_child (T : Topology) (hT : WellFormed T) (p : String) (fp c : Finset ℕ) (hp : HasFaces T p fp)
    (sub : Option (List String)) (hs : ∀ s ∈ sub.getD [], Known T s) (row : Option (Finset ℕ)) :
    ∃ b, T.contains (.name p) (.faces c) sub row = .ok b ∧
      (b = true ↔ c ≠ ∅ ∧ ∀ i ∈ c, i ∈ fp ∧ ¬ InSome T (sub.getD []) i) := by
  obtain ⟨g, hg, hgi⟩ := subtractFaces_spec hT hs fp
  by_cases h0 : c = ∅
  · exact ⟨false, by simp [Topology.contains, h0], by simp [h0]⟩
  · refine ⟨decide (c ⊆ g), ?_, ?_⟩
    · unfold Topology.contains
      have h2 : ¬ p = "RoW" := hp.ne hT
      simp only [h0, if_false, Topology.parentFaces, h2, hp.call hT, ebind_ok, hg]
      rfl
    · rw [decide_eq_true_eq]
      constructor
      · intro h; exact ⟨h0, fun i hi => (hgi i).mp (h hi)⟩
      · intro h i hi; exact (hgi i).mpr (h.2 i hi)

/-- C32: containment in a resolved rest-of-world, whether passed as a set or as `RoW` with `resolved_row`. -/
theorem C32_row_parent (T : Topology) (hT : WellFormed T) (r : Finset ℕ) (hr : r ≠ ∅) (c : String) (fc : Finset ℕ)
    (hc : HasFaces T c fc) (sub : Option (List String)) (hs : ∀ s ∈ sub.getD [], Known T s) :
    T.contains (.name "RoW") (.name c) sub (some r) = T.contains (.faces r) (.name c) sub none ∧
    ∃ b, T.contains (.faces r) (.name c) sub none = .ok b ∧
      (b = true ↔ ∀ i ∈ fc, i ∈ r ∧ ¬ InSome T (sub.getD []) i) := by
  obtain ⟨g, hg, hgi⟩ := subtractFaces_spec hT hs r
  have h1 : ¬ c = "RoW" := hc.ne hT
  have e1 : T.contains (.name "RoW") (.name c) sub (some r) = .ok (decide (fc ⊆ g)) := by
    unfold Topology.contains
    simp only [h1, false_and, and_false, if_false, Option.getD_some, hr, or_self]
    simp only [Topology.parentFaces, if_true, Option.getD_some, ebind_ok, hg, hc.call hT]
    rfl
  have e2 : T.contains (.faces r) (.name c) sub none = .ok (decide (fc ⊆ g)) := by
    unfold Topology.contains
    simp only [h1, false_and, and_false, if_false, reduceCtorEq, or_self]
    simp only [Topology.parentFaces, ebind_ok, hg, hc.call hT]
    rfl
  refine ⟨by rw [e1, e2], _, e2, ?_⟩
  rw [decide_eq_true_eq]
  constructor
  · intro h i hi; exact (hgi i).mp (h hi)
  · intro h i hi; exact (hgi i).mpr (h i hi)

/-- C32: every location contains itself. -/
theorem C32_refl (T : Topology) (hT : WellFormed T) (p : String) (fp : Finset ℕ) (hp : HasFaces T p fp)
    (row : Option (Finset ℕ)) : T.contains (.name p) (.name p) none row = .ok true := by
  obtain ⟨b, h, hb⟩ := C32_named T hT p p fp fp hp hp none (by simp) row
  rw [h, hb.mpr (fun i hi => ⟨hi, by simp [InSome]⟩)]

/-- C32: containment without `subtract` is transitive. -/
theorem C32_trans (T : Topology) (hT : WellFormed T) (a b c : String) (fa fb fc : Finset ℕ) (ha : HasFaces T a fa)
    (hb : HasFaces T b fb) (hc : HasFaces T c fc) (row : Option (Finset ℕ))
    (h1 : T.contains (.name a) (.name b) none row = .ok true) (h2 : T.contains (.name b) (.name c) none row = .ok true) :
    T.contains (.name a) (.name c) none row = .ok true := by
  obtain ⟨x, hx, hx'⟩ := C32_named T hT a b fa fb ha hb none (by simp) row
  obtain ⟨y, hy, hy'⟩ := C32_named T hT b c fb fc hb hc none (by simp) row
  obtain ⟨z, hz, hz'⟩ := C32_named T hT a c fa fc ha hc none (by simp) row
  rw [hx] at h1; rw [hy] at h2
  cases h1; cases h2
  rw [hz, hz'.mpr]
  intro i hi
  refine ⟨(hx'.mp rfl i (hy'.mp rfl i hi).1).1, by simp [InSome]⟩

/-- C32: `GLO` contains every location (when it has all faces, see `C32_build`). -/
theorem C32_glo (T : Topology) (hT : WellFormed T) (g : Finset ℕ) (hg : HasFaces T "GLO" g)
    (hall : ∀ s f, HasFaces T s f → f ⊆ g) (c : String) (fc : Finset ℕ) (hc : HasFaces T c fc) (row : Option (Finset ℕ)) :
    T.contains (.name "GLO") (.name c) none row = .ok true := by
  obtain ⟨b, h, hb⟩ := C32_named T hT "GLO" c g fc hg hc none (by simp) row
  rw [h, hb.mpr (fun i hi => ⟨hall c fc hc hi, by simp [InSome]⟩)]

/-- C32: the documented rules for `RoW`: the unresolved `RoW` is contained in `GLO` only, and only without
`subtract`; an unresolved (or empty) `RoW` contains no named location and no set; an empty set is in nothing. -/
theorem C32_row_rules (T : Topology) (sub : Option (List String)) (row : Option (Finset ℕ)) :
    (∀ p : Loc, T.contains p (.name "RoW") sub row = .ok (decide (p = .name "GLO" ∧ sub.getD [] = []))) ∧
    (∀ c : String, row.getD ∅ = ∅ → T.contains (.name "RoW") (.name c) sub row = .ok false) ∧
    (∀ p : Loc, T.contains p (.faces ∅) sub row = .ok false) ∧
    (∀ c : Finset ℕ, row.getD ∅ = ∅ → ∀ b, T.contains (.name "RoW") (.faces c) sub row = .ok b → b = false) := by
  refine ⟨?_, ?_, ?_, ?_⟩
  · intro p
    unfold Topology.contains
    by_cases h1 : p = .name "GLO"
    · by_cases h2 : given sub = false
      · have := given_eq_false.mp h2
        simp [h1, h2, this]
      · have : ¬ sub.getD [] = [] := fun h => h2 (given_eq_false.mpr h)
        simp [h1, h2, this]
    · simp [h1]
  · intro c hr
    unfold Topology.contains
    simp [hr]
  · intro p
    simp [Topology.contains]
  · intro c hr b h
    unfold Topology.contains at h
    simp only [Topology.parentFaces, hr, if_true, ebind_ok] at h
    split at h
    · cases h; rfl
    · next h0 =>
      obtain ⟨g', hg', h⟩ := bind_eq_ok.mp h
      cases h
      obtain ⟨l, -, rfl⟩ := subtractFaces_ok.mp hg'
      rw [decide_eq_false_iff_not]
      intro hsub
      apply h0
      rw [Finset.empty_sdiff] at hsub
      exact Finset.subset_empty.mp hsub

/-- A small topology: a world of four faces. -/
def exampleTopology : Topology :=
  { data := [("GLO", {1, 2, 3, 4}), ("RER", {1, 2}), ("CH", {1}), ("FR", {2}), ("US", {3})] }

example : WellFormed exampleTopology ∧ HasFaces exampleTopology "GLO" {1, 2, 3, 4} ∧ HasFaces exampleTopology "RER" {1, 2} ∧ HasFaces exampleTopology "CH" {1} := by
  unfold WellFormed HasFaces; decide
example : exampleTopology.contains (.name "RER") (.name "CH") none none = .ok true ∧
    exampleTopology.contains (.name "RER") (.name "CH") (some ["CH"]) none = .ok false ∧
    exampleTopology.contains (.name "CH") (.name "RER") none none = .ok false := by decide +kernel

/-! ## C33 -/

/-- C33: membership of a named location with faces in `contained` is `contains`. -/
theorem C33_agree (T : Topology) (hT : WellFormed T) (loc : Loc) (sub : Option (List String)) (row : Option (Finset ℕ))
    (S : List String) (h : T.contained loc false sub row = .ok S) (c : String) (fc : Finset ℕ) (hc : HasFaces T c fc)
    (h0 : fc ≠ ∅) : c ∈ S ↔ T.contains loc (.name c) sub row = .ok true := by
  have h1 : ¬ c = "RoW" := hc.ne hT
  have key : ∀ f g, T.subtractFaces sub f = .ok g → (c ∈ T.keysWithin loc false g ↔ fc ⊆ g) := by
    intro f g _
    unfold Topology.keysWithin
    simp only [Bool.and_false, Bool.not_false, Bool.and_true, List.mem_map, List.mem_filter, decide_eq_true_eq]
    constructor
    · rintro ⟨⟨k, v⟩, ⟨h2, h3⟩, rfl⟩
      rw [HasFaces.unique hT hc h2]; exact h3
    · intro h; exact ⟨(c, fc), ⟨hc, h⟩, rfl⟩
  have final : ∀ f g, T.subtractFaces sub f = .ok g → (if g = ∅ then (Except.ok [] : Except Err (List String)) else
      .ok (T.keysWithin loc false g ++ (if addsRow loc false sub row g then ["RoW"] else []))) = .ok S → (c ∈ S ↔ fc ⊆ g) := by
    intro f g hg hS
    by_cases hge : g = ∅
    · rw [if_pos hge] at hS
      cases hS
      simp [hge, h0]
    · rw [if_neg hge] at hS
      cases hS
      rw [List.mem_append, key f g hg]
      have : c ∉ (if addsRow loc false sub row g then ["RoW"] else []) := by
        split <;> simp [h1]
      simp [this]
  unfold Topology.contained at h
  obtain ⟨o, ho, h⟩ := bind_eq_ok.mp h
  have tail : ∀ f, o = some f → ∃ g, T.subtractFaces sub f = .ok g ∧ (c ∈ S ↔ fc ⊆ g) := by
    rintro f rfl
    obtain ⟨g, hg, h⟩ := bind_eq_ok.mp h
    refine ⟨g, hg, final f g hg ?_⟩
    rw [← h]
    by_cases hge : g = ∅
    · simp only [if_pos hge]; rfl
    · simp only [if_neg hge]; rfl
  have result : ∀ f g, T.subtractFaces sub f = .ok g → T.parentFaces loc row = .ok f →
      ¬ (loc = .name "RoW" ∧ row.getD ∅ = ∅) → (T.contains loc (.name c) sub row = .ok true ↔ fc ⊆ g) := by
    intro f g hg hp hn
    unfold Topology.contains
    simp only [h1, false_and, and_false, if_false, false_or, if_neg hn, hp, ebind_ok, hg, hc.call hT]
    change Except.ok _ = Except.ok _ ↔ _
    simp
  rcases loc with s | f
  · by_cases hs : s = "RoW"
    · subst hs
      simp only [Topology.containedFaces, if_true] at ho
      cases ho
      by_cases hr : row.getD ∅ = ∅
      · rw [(C32_row_rules T sub row).2.1 c hr]
        simp only [Except.ok.injEq, Bool.false_eq_true, iff_false]
        rcases row with _ | r
        · cases h; simp
        · obtain ⟨g, hg, hiff⟩ := tail r rfl
          simp only [Option.getD_some] at hr
          subst hr
          obtain ⟨l, -, rfl⟩ := subtractFaces_ok.mp hg
          rw [hiff, Finset.empty_sdiff]
          intro h; exact h0 (Finset.subset_empty.mp h)
      · rcases row with _ | r
        · exact absurd rfl hr
        · obtain ⟨g, hg, hiff⟩ := tail r rfl
          rw [hiff, result r g hg (by simp [Topology.parentFaces]) (fun h => hr h.2)]
    · simp only [Topology.containedFaces, if_neg hs] at ho
      obtain ⟨f, hf, ho⟩ := bind_eq_ok.mp ho
      cases ho
      obtain ⟨g, hg, hiff⟩ := tail f rfl
      rw [hiff, result f g hg (by simp [Topology.parentFaces, hs, hf]) (fun h => hs (by simpa using h.1))]
  · cases ho
    obtain ⟨g, hg, hiff⟩ := tail f rfl
    rw [hiff, result f g hg rfl (by simp)]

/-- C33: `exclude_self` removes exactly the location itself. -/
theorem C33_exclude_self (T : Topology) (loc : Loc) (sub : Option (List String)) (row : Option (Finset ℕ))
    (S : List String) (h : T.contained loc false sub row = .ok S) :
    ∃ S', T.contained loc true sub row = .ok S' ∧ ∀ c, c ∈ S' ↔ c ∈ S ∧ Loc.name c ≠ loc := by
  unfold Topology.contained at h ⊢
  obtain ⟨o, ho, h⟩ := bind_eq_ok.mp h
  rw [ho]
  simp only [ebind_ok]
  rcases o with _ | f
  · cases h
    exact ⟨[], rfl, by simp⟩
  · obtain ⟨g, hg, h⟩ := bind_eq_ok.mp h
    simp only [hg, ebind_ok]
    by_cases hge : g = ∅
    · rw [if_pos hge] at h ⊢
      cases h
      exact ⟨[], rfl, by simp⟩
    · rw [if_neg hge] at h ⊢
      cases h
      refine ⟨_, rfl, fun c => ?_⟩
      have hk : c ∈ T.keysWithin loc true g ↔ c ∈ T.keysWithin loc false g ∧ Loc.name c ≠ loc := by
        unfold Topology.keysWithin
        simp only [List.mem_map, List.mem_filter, Bool.and_true, Bool.and_false, Bool.not_false, Bool.and_eq_true,
          decide_eq_true_eq, Bool.not_eq_true', decide_eq_false_iff_not]
        constructor
        · rintro ⟨p, ⟨h1, h2, h3⟩, rfl⟩; exact ⟨⟨p, ⟨h1, h2⟩, rfl⟩, h3⟩
        · rintro ⟨⟨p, ⟨h1, h2⟩, rfl⟩, h3⟩; exact ⟨p, ⟨h1, h2, h3⟩, rfl⟩
      have hr : c ∈ (if addsRow loc true sub row g then ["RoW"] else []) ↔
          c ∈ (if addsRow loc false sub row g then ["RoW"] else []) ∧ Loc.name c ≠ loc := by
        have haux : addsRow loc true sub row g = true ↔ addsRow loc false sub row g = true ∧ loc ≠ .name "RoW" := by
          unfold addsRow
          rcases row with _ | r
          · simp only [Bool.and_eq_true, decide_eq_true_eq, Bool.not_eq_true']
            constructor
            · rintro ⟨rfl, h2⟩; exact ⟨⟨rfl, h2⟩, by simp⟩
            · rintro ⟨h, -⟩; exact h
          · simp [and_assoc]
        by_cases h1 : addsRow loc false sub row g = true
        · by_cases h2 : loc = .name "RoW"
          · rw [if_pos h1, if_neg (by rw [haux]; simp [h2])]
            simp [h2]
          · rw [if_pos h1, if_pos (by rw [haux]; exact ⟨h1, h2⟩)]
            simp only [List.mem_singleton]
            constructor
            · rintro rfl; exact ⟨rfl, fun h => h2 h.symm⟩
            · rintro ⟨h, -⟩; exact h
        · rw [if_neg h1, if_neg (by rw [haux]; exact fun h => h1 h.1)]
          simp
      rw [List.mem_append, List.mem_append, hk, hr]
      tauto

/-- C33: when `RoW` is in the result. -/
theorem C33_row (T : Topology) (hT : WellFormed T) (s : String) (fs : Finset ℕ) (hs : HasFaces T s fs) (ex : Bool)
    (sub : Option (List String)) (row : Option (Finset ℕ)) (S : List String) (h : T.contained (.name s) ex sub row = .ok S) :
    "RoW" ∈ S ↔ match row with
      | some r => r ≠ ∅ ∧ ∀ i ∈ r, i ∈ fs ∧ ¬ InSome T (sub.getD []) i
      | none => s = "GLO" ∧ sub.getD [] = [] ∧ fs ≠ ∅ := by
  have hsr : ¬ s = "RoW" := hs.ne hT
  unfold Topology.contained at h
  have h00 : T.containedFaces (.name s) row = .ok (some fs) := by
    simp only [Topology.containedFaces, hsr, if_false, hs.call hT, ebind_ok]; rfl
  rw [h00] at h
  simp only [ebind_ok] at h
  obtain ⟨g, hg, h⟩ := bind_eq_ok.mp h
  obtain ⟨l, hl, hgl⟩ := subtractFaces_ok.mp hg
  have hgi : ∀ i, i ∈ g ↔ i ∈ fs ∧ ¬ InSome T (sub.getD []) i := by
    intro i; rw [hgl, Finset.mem_sdiff, mem_unionAll_call hT hl]
  have hk : ∀ ex, "RoW" ∉ T.keysWithin (.name s) ex g := by
    intro ex hm
    unfold Topology.keysWithin at hm
    obtain ⟨p, hp, hpr⟩ := List.mem_map.mp hm
    exact hT.2 (List.mem_map.mpr ⟨p, (List.mem_filter.mp hp).1, hpr⟩)
  by_cases hge : g = ∅
  · rw [if_pos hge] at h
    cases h
    simp only [List.not_mem_nil, false_iff]
    rcases row with _ | r
    · rintro ⟨-, h2, h3⟩
      apply h3
      have : fs = g := by
        ext i; rw [hgi i, h2]; simp [InSome]
      rw [this, hge]
    · rintro ⟨h1, h2⟩
      obtain ⟨i, hi⟩ := Finset.nonempty_iff_ne_empty.mpr h1
      have := (hgi i).mpr (h2 i hi)
      rw [hge] at this
      simp at this
  · rw [if_neg hge] at h
    cases h
    rw [List.mem_append]
    have haux : ("RoW" ∈ (if addsRow (.name s) ex sub row g then ["RoW"] else [])) ↔ addsRow (.name s) ex sub row g = true := by
      split <;> simp_all
    rw [haux]
    simp only [hk, false_or]
    unfold addsRow
    rcases row with _ | r
    · simp only [Loc.name.injEq, Bool.and_eq_true, decide_eq_true_eq, Bool.not_eq_true', given_eq_false]
      constructor
      · rintro ⟨h1, h2⟩
        refine ⟨h1, h2, fun h3 => hge ?_⟩
        ext i; rw [hgi i, h3]; simp
      · rintro ⟨h1, h2, -⟩; exact ⟨h1, h2⟩
    · simp only [Loc.name.injEq, hsr, decide_false, Bool.false_and, Bool.not_false, Bool.and_true, Bool.and_eq_true, decide_eq_true_eq]
      refine and_congr_right fun _ => ?_
      constructor
      · intro h i hi; exact (hgi i).mp (h hi)
      · intro h i hi; exact (hgi i).mpr (h i hi)

example : exampleTopology.contained (.name "RER") false none none = .ok ["RER", "CH", "FR"] ∧
    exampleTopology.contained (.name "RER") true (some ["FR"]) (some {1}) = .ok ["CH", "RoW"] := by decide +kernel

/-! ## C34 -/

/-- C34: the rest of the world is the set of faces of `GLO` that are in none of the others. -/
theorem C34_complement (T : Topology) (hT : WellFormed T) (others : List String) (r : Finset ℕ)
    (h : T.resolveRow others = .ok r) :
    ∃ g, HasFaces T "GLO" g ∧ ∀ i, i ∈ r ↔ i ∈ g ∧ ¬ InSome T others i := by
  unfold Topology.resolveRow at h
  obtain ⟨g, hg, h⟩ := bind_eq_ok.mp h
  obtain ⟨l, hl, h⟩ := bind_eq_ok.mp h
  rcases call_ok.mp hg with ⟨h1, -⟩ | ⟨-, hg'⟩
  · exact absurd h1 (by decide)
  · refine ⟨g, mem_of_lookup hg', fun i => ?_⟩
    by_cases hl0 : l = []
    · rw [if_pos hl0] at h; cases h
    · rw [if_neg hl0] at h
      cases h
      rw [Finset.mem_sdiff, mem_unionAll_call hT hl]

/-- C34: the result is disjoint from each of the others and together they cover `GLO`. -/
theorem C34_partition (T : Topology) (hT : WellFormed T) (others : List String) (r : Finset ℕ)
    (h : T.resolveRow others = .ok r) :
    (∀ s ∈ others, ∀ f, HasFaces T s f → Disjoint r f) ∧
    (∀ g, HasFaces T "GLO" g → ∀ i ∈ g, i ∈ r ∨ ∃ s ∈ others, ∃ f, HasFaces T s f ∧ i ∈ f) := by
  obtain ⟨g, hg, hr⟩ := C34_complement T hT others r h
  constructor
  · intro s hs f hf
    rw [Finset.disjoint_left]
    intro i hi hif
    exact ((hr i).mp hi).2 ⟨s, hs, f, hf, hif⟩
  · intro g' hg' i hi
    rw [HasFaces.unique hT hg' hg] at hi
    by_cases h2 : InSome T others i
    · exact Or.inr h2
    · exact Or.inl ((hr i).mpr ⟨hi, h2⟩)

/-- C34: more locations leave a smaller rest, so order and duplicates are irrelevant, and `RoW` itself is
ignored. -/
theorem C34_antitone (T : Topology) (hT : WellFormed T) (others others' : List String) (r r' : Finset ℕ)
    (h : T.resolveRow others = .ok r) (h' : T.resolveRow others' = .ok r')
    (hsub : ∀ s ∈ others, s ≠ "RoW" → s ∈ others') : r' ⊆ r := by
  obtain ⟨g, hg, hr⟩ := C34_complement T hT others r h
  obtain ⟨g', hg', hr'⟩ := C34_complement T hT others' r' h'
  rw [HasFaces.unique hT hg' hg] at hr'
  intro i hi
  obtain ⟨h1, h2⟩ := (hr' i).mp hi
  refine (hr i).mpr ⟨h1, ?_⟩
  rintro ⟨s, hs, f, hf, hif⟩
  exact h2 ⟨s, hsub s hs (hf.ne hT), f, hf, hif⟩

/-- C34: the same named locations give the same rest of the world. -/
theorem C34_order_irrelevant (T : Topology) (hT : WellFormed T) (others others' : List String) (r r' : Finset ℕ)
    (h : T.resolveRow others = .ok r) (h' : T.resolveRow others' = .ok r')
    (heq : ∀ s, s ≠ "RoW" → (s ∈ others ↔ s ∈ others')) : r = r' :=
  Finset.Subset.antisymm (C34_antitone T hT others' others r' r h' h fun s hs hne => (heq s hne).mpr hs)
    (C34_antitone T hT others others' r r' h h' fun s hs hne => (heq s hne).mp hs)

/-- C34: it is defined for every nonempty list of known locations and fails on the empty list. -/
theorem C34_total (T : Topology) (hT : WellFormed T) (others : List String) (hg : ∃ g, HasFaces T "GLO" g) :
    (others ≠ [] → (∀ s ∈ others, Known T s) → ∃ r, T.resolveRow others = .ok r) ∧
    (T.resolveRow [] = .error .typeError) := by
  obtain ⟨g, hg⟩ := hg
  constructor
  · intro hne hk
    obtain ⟨l, hl⟩ := mapE_call_known hT hk
    unfold Topology.resolveRow
    rw [hg.call hT, hl]
    have : l ≠ [] := by
      intro h0
      have := mapE_length hl
      rw [h0] at this
      exact hne (List.length_eq_zero_iff.mp this.symm)
    exact ⟨g \ unionAll l, by simp [this]⟩
  · unfold Topology.resolveRow
    rw [hg.call hT]
    rfl

example : exampleTopology.resolveRow ["RER", "US", "RoW"] = .ok {4} ∧ exampleTopology.resolveRow ["CH"] = .ok {2, 3, 4} := by
  decide +kernel

/-! ## C35 -/

theorem card_unionAll (l : List (Finset ℕ)) : (unionAll l).card ≤ (l.map Finset.card).sum ∧
    ((l.map Finset.card).sum = (unionAll l).card ↔ l.Pairwise Disjoint) := by
  induction l with
  | nil => simp [unionAll]
  | cons a l ih =>
    obtain ⟨ih1, ih2⟩ := ih
    have hu : unionAll (a :: l) = a ∪ unionAll l := rfl
    have hcard := Finset.card_union_add_card_inter a (unionAll l)
    have hle := Finset.card_union_le a (unionAll l)
    have hd : Disjoint a (unionAll l) ↔ ∀ b ∈ l, Disjoint a b := by
      simp only [Finset.disjoint_left, mem_unionAll, not_exists, not_and]
      constructor
      · intro h b hb i hi; exact h hi b hb
      · intro h i hi b hb; exact h b hb hi
    rw [hu]
    refine ⟨by simp; omega, ?_⟩
    rw [List.pairwise_cons, ← ih2, ← hd]
    simp only [List.map_cons, List.sum_cons]
    constructor
    · intro h
      have h1 : (a ∩ unionAll l).card = 0 := by omega
      refine ⟨Finset.disjoint_iff_inter_eq_empty.mpr (Finset.card_eq_zero.mp h1), by omega⟩
    · rintro ⟨h1, h2⟩
      rw [Finset.card_union_of_disjoint h1, h2]

/-- C35: the overlap test is exact: for a nonempty group of known locations it answers whether two entries
(with multiplicity) share a face. -/
theorem C35_overlaps (T : Topology) (hT : WellFormed T) (group : List String) (hne : group ≠ []) (hk : ∀ s ∈ group, Known T s) :
    ∃ b, T.overlaps group = .ok (some b) ∧
      (b = false ↔ group.Pairwise fun s t => ∀ f g, HasFaces T s f → HasFaces T t g → Disjoint f g) := by
  obtain ⟨l, hl⟩ := mapE_call_known hT hk
  refine ⟨decide ((l.map Finset.card).sum ≠ (unionAll l).card), ?_, ?_⟩
  · unfold Topology.overlaps
    rw [if_neg hne, hl]
    rfl
  · rw [decide_eq_false_iff_not, not_not, (card_unionAll l).2]
    have hF := mapE_ok_iff.mp hl
    clear hl hne hk
    induction hF with
    | nil => simp
    | @cons s f ss fs hab hrest ih =>
      rw [List.pairwise_cons, List.pairwise_cons]
      refine and_congr ?_ ih
      constructor
      · intro h t ht f' g hf' hg
        obtain ⟨gt, hgt, hcall⟩ := forall₂_mem_left hrest ht
        have h1 := h gt hgt
        rw [Finset.disjoint_left] at h1 ⊢
        intro i hi hig
        exact h1 ((mem_call hT hab i).mpr ⟨f', hf', hi⟩) ((mem_call hT hcall i).mpr ⟨g, hg, hig⟩)
      · intro h gt hgt
        obtain ⟨t, ht, hcall⟩ := forall₂_mem_right hrest hgt
        rw [Finset.disjoint_left]
        intro i hi hig
        obtain ⟨f', hf', hi⟩ := (mem_call hT hab i).mp hi
        obtain ⟨g, hg, hig⟩ := (mem_call hT hcall i).mp hig
        exact (Finset.disjoint_left.mp (h t ht f' g hf' hg)) hi hig

/-- C35: `no_overlaps` accepts exactly the groups without common faces in which `GLO` is alone; otherwise it
raises `OverlappingActivities`. -/
theorem C35_no_overlaps (T : Topology) (hT : WellFormed T) (data : List Dataset) (hk : ∀ ds ∈ data, Known T ds.location) :
    (noOverlaps T data = .ok true ∨ noOverlaps T data = .error .overlappingActivities) ∧
    (noOverlaps T data = .ok true ↔
      (data.Pairwise fun a b => ∀ f g, HasFaces T a.location f → HasFaces T b.location g → Disjoint f g) ∧
      ((∃ ds ∈ data, ds.location = "GLO") → data.length = 1)) := by
  by_cases hd : data = []
  · subst hd
    have : noOverlaps T [] = .ok true := by rfl
    simp [this]
  · have hk' : ∀ s ∈ data.map (·.location), Known T s := by
      intro s hs
      obtain ⟨ds, h1, rfl⟩ := List.mem_map.mp hs
      exact hk ds h1
    obtain ⟨b, hb, hb2⟩ := C35_overlaps T hT (data.map (·.location)) (by simpa using hd) hk'
    rw [List.pairwise_map] at hb2
    unfold noOverlaps
    rw [hb]
    simp only [ebind_ok]
    have hlen : 0 < data.length := List.length_pos_iff.mpr hd
    rcases b with _ | _
    · simp only [Option.some.injEq, Bool.false_eq_true, if_false]
      by_cases hg : "GLO" ∈ data.map (·.location) ∧ 1 < data.length
      · rw [if_pos hg]
        refine ⟨Or.inr rfl, ?_⟩
        constructor
        · intro h; cases h
        · rintro ⟨-, h2⟩
          obtain ⟨ds, h3, h4⟩ := List.mem_map.mp hg.1
          have := h2 ⟨ds, h3, h4⟩
          omega
      · rw [if_neg hg]
        refine ⟨Or.inl rfl, ?_⟩
        constructor
        · intro _
          refine ⟨hb2.mp rfl, ?_⟩
          rintro ⟨ds, h3, h4⟩
          by_contra hne
          exact hg ⟨List.mem_map.mpr ⟨ds, h3, h4⟩, by omega⟩
        · intro _; rfl
    · simp only [if_true]
      refine ⟨Or.inr rfl, ?_⟩
      constructor
      · intro h; cases h
      · rintro ⟨h1, -⟩
        have := hb2.mpr h1
        cases this

example : exampleTopology.overlaps ["CH", "FR", "US", "RoW"] = .ok (some false) ∧
    exampleTopology.overlaps ["CH", "RER"] = .ok (some true) ∧ exampleTopology.overlaps [] = .ok none := by decide +kernel

/-! ## C36 -/

namespace Spec

/-- The faces of a location for sorting: `RoW` has the resolved faces (none if unresolved). -/
def SortFaces (T : Topology) (row : Option (Finset ℕ)) (s : String) (f : Finset ℕ) : Prop :=
  if s = "RoW" then f = row.getD ∅ else HasFaces T s f

/-- `a` comes before `b`: larger size, or equal size and larger name. -/
def Before (T : Topology) (row : Option (Finset ℕ)) (a b : String) : Prop :=
  ∀ fa fb, SortFaces T row a fa → SortFaces T row b fb →
    ∑ i ∈ fb, T.size i < ∑ i ∈ fa, T.size i ∨ (∑ i ∈ fb, T.size i = ∑ i ∈ fa, T.size i ∧ b < a)

end Spec

theorem sizeKey_ok {T : Topology} (hT : WellFormed T) {row : Option (Finset ℕ)} {s : String} {k : ℚ × String}
    (h : T.sizeKey row s = .ok k) : ∃ f, SortFaces T row s f ∧ k = (∑ i ∈ f, T.size i, s) ∧ ∀ f', SortFaces T row s f' → f' = f := by
  unfold Topology.sizeKey at h
  obtain ⟨f, hf, h⟩ := bind_eq_ok.mp h
  cases h
  refine ⟨f, ?_, rfl, ?_⟩
  · unfold Topology.orderFaces at hf
    unfold SortFaces
    by_cases hs : s = "RoW"
    · subst hs
      rw [if_pos rfl]
      by_cases hr : row.getD ∅ = ∅
      · simp only [hr, ne_eq, not_true_eq_false, and_false, if_false] at hf
        cases hf; exact hr.symm
      · simp only [hr, ne_eq, not_false_eq_true, and_self, if_true] at hf
        cases hf; rfl
    · rw [if_neg hs]
      simp only [hs, false_and, if_false] at hf
      rcases call_ok.mp hf with ⟨h, -⟩ | ⟨-, h⟩
      · exact absurd h hs
      · exact mem_of_lookup h
  · intro f' hf'
    unfold Topology.orderFaces at hf
    unfold SortFaces at hf'
    by_cases hs : s = "RoW"
    · subst hs
      rw [if_pos rfl] at hf'
      by_cases hr : row.getD ∅ = ∅
      · simp only [hr, ne_eq, not_true_eq_false, and_false, if_false] at hf
        cases hf; rw [hf', hr]
      · simp only [hr, ne_eq, not_false_eq_true, and_self, if_true] at hf
        cases hf; exact hf'
    · rw [if_neg hs] at hf'
      simp only [hs, false_and, if_false] at hf
      have := hf'.call hT
      rw [hf] at this
      cases this; rfl

/-- C36: every distinct location once, larger sizes first, ties by decreasing name. -/
theorem C36_order (T : Topology) (hT : WellFormed T) (locations : List String) (row : Option (Finset ℕ)) (out : List String)
    (h : T.orderedDependencies locations row = .ok out) :
    out.Nodup ∧ (∀ s, s ∈ out ↔ s ∈ locations) ∧ out.Pairwise (Before T row) := by
  unfold Topology.orderedDependencies at h
  obtain ⟨keys, hk, h⟩ := bind_eq_ok.mp h
  cases h
  have hF := mapE_ok_iff.mp hk
  have hnames : keys.map (·.2) = sortNames locations.dedup := by
    have := mapE_map_eq hk (p := fun s : String => s) (q := (·.2)) (by
      intro s _ k hs
      obtain ⟨f, -, rfl, -⟩ := sizeKey_ok hT hs; rfl)
    simpa using this
  have hperm := List.perm_insertionSort keyGe keys
  have hperm2 : ((keys.insertionSort keyGe).map (·.2)).Perm locations.dedup :=
    (hperm.map _).trans (by rw [hnames]; exact sortNames_perm _)
  have hnd : ((keys.insertionSort keyGe).map (·.2)).Nodup := hperm2.nodup_iff.mpr locations.nodup_dedup
  refine ⟨hnd, fun s => by rw [hperm2.mem_iff, List.mem_dedup], ?_⟩
  have hsorted := List.pairwise_insertionSort keyGe keys
  have hnd' : (keys.insertionSort keyGe).Pairwise (fun a b => a.2 ≠ b.2) := List.pairwise_map.mp hnd
  rw [List.pairwise_map]
  have hboth := hsorted.and hnd'
  refine hboth.imp_of_mem ?_
  rintro a b ha hb ⟨h1, h2⟩ fa fb hfa hfb
  obtain ⟨sa, hsa, hka⟩ := forall₂_mem_right hF (hperm.mem_iff.mp ha)
  obtain ⟨sb, hsb, hkb⟩ := forall₂_mem_right hF (hperm.mem_iff.mp hb)
  obtain ⟨fa', -, rfl, hua⟩ := sizeKey_ok hT hka
  obtain ⟨fb', -, rfl, hub⟩ := sizeKey_ok hT hkb
  rw [hua fa hfa, hub fb hfb]
  rcases h1 with h1 | ⟨h1, h3⟩
  · exact Or.inl h1
  · exact Or.inr ⟨h1, lt_of_le_of_ne h3 (Ne.symm h2)⟩

/-- C36: the result depends only on which locations occur. -/
theorem C36_independent (T : Topology) (locations locations' : List String) (row : Option (Finset ℕ))
    (h : ∀ s, s ∈ locations ↔ s ∈ locations') : T.orderedDependencies locations row = T.orderedDependencies locations' row := by
  unfold Topology.orderedDependencies
  rw [sortNames_dedup_congr h]

/-- C36: with a positive size proxy, a location strictly inside another comes after it. -/
theorem C36_inside_after (T : Topology) (hT : WellFormed T) (hpos : ∀ i, 0 < T.size i) (locations : List String)
    (row : Option (Finset ℕ)) (out : List String) (h : T.orderedDependencies locations row = .ok out) (a b : String)
    (ha : a ∈ locations) (hb : b ∈ locations) (fa fb : Finset ℕ) (hfa : SortFaces T row a fa) (hfb : SortFaces T row b fb)
    (hsub : fb ⊂ fa) : ∃ l₁ l₂ l₃, out = l₁ ++ a :: l₂ ++ b :: l₃ := by
  obtain ⟨hnd, hm, hpw⟩ := C36_order T hT locations row out h
  have hlt : ∑ i ∈ fb, T.size i < ∑ i ∈ fa, T.size i := by
    obtain ⟨i, hi, hni⟩ := Finset.exists_of_ssubset hsub
    exact Finset.sum_lt_sum_of_subset hsub.1 hi hni (hpos i) (fun j _ _ => (hpos j).le)
  have hab : a ≠ b := by
    rintro rfl
    have : fa = fb := by
      unfold SortFaces at hfa hfb
      by_cases hr : a = "RoW"
      · rw [if_pos hr] at hfa hfb
        rw [hfa, hfb]
      · rw [if_neg hr] at hfa hfb
        exact HasFaces.unique hT hfa hfb
    exact hsub.2 (this ▸ Finset.Subset.refl _)
  obtain ⟨l₁, r, rfl⟩ := List.append_of_mem ((hm a).mpr ha)
  have hb' := (hm b).mpr hb
  rcases List.mem_append.mp hb' with hb' | hb'
  · exfalso
    have := (List.pairwise_append.mp hpw).2.2 b hb' a (by simp) fb fa hfb hfa
    rcases this with h1 | ⟨h1, -⟩
    · exact absurd h1 (not_lt.mpr hlt.le)
    · exact absurd h1 hlt.ne'
  · rcases List.mem_cons.mp hb' with rfl | hb'
    · exact absurd rfl hab
    · obtain ⟨l₂, l₃, rfl⟩ := List.append_of_mem hb'
      exact ⟨l₁, l₂, l₃, by simp⟩

/-- C36: it is defined whenever all locations are known. -/
theorem C36_total (T : Topology) (hT : WellFormed T) (locations : List String) (row : Option (Finset ℕ))
    (hk : ∀ s ∈ locations, Known T s) : ∃ out, T.orderedDependencies locations row = .ok out := by
  unfold Topology.orderedDependencies
  obtain ⟨keys, hkeys⟩ : ∃ keys, mapE (T.sizeKey row) (sortNames locations.dedup) = .ok keys := by
    apply mapE_ok_of_forall
    intro s hs
    have hs' : s ∈ locations := by
      have := (sortNames_perm locations.dedup).mem_iff.mp hs
      simpa using this
    obtain ⟨f, hf⟩ := call_known hT (hk s hs')
    unfold Topology.sizeKey Topology.orderFaces
    split
    · exact ⟨_, rfl⟩
    · rw [hf]; exact ⟨_, rfl⟩
  rw [hkeys]
  exact ⟨_, rfl⟩

example : exampleTopology.orderedDependencies ["CH", "RoW", "FR", "RER", "CH", "GLO"] (some {3, 4}) =
    .ok ["GLO", "RoW", "RER", "FR", "CH"] := by decide +kernel

/-! ## C37 -/

section lru
variable {κ ν : Type} [DecidableEq κ]

namespace Spec

/-- What a cache may hold: true results, one per key, at most `maxsize` of them. -/
def ValidCache (maxsize : ℕ) (f : κ → Except Err ν) (cache : List (κ × ν)) : Prop :=
  (∀ p ∈ cache, f p.1 = .ok p.2) ∧ (cache.map (·.1)).Nodup ∧ cache.length ≤ maxsize

end Spec

theorem cache_lookup_mem {d : List (κ × ν)} {k : κ} {v : ν} (h : d.lookup k = some v) : (k, v) ∈ d := by
  induction d with
  | nil => cases h
  | cons p d ih =>
    obtain ⟨k', v'⟩ := p
    rw [List.lookup_cons] at h
    by_cases hk : k = k'
    · subst hk; simp at h; subst h; simp
    · have : (k == k') = false := by simp [hk]
      rw [this] at h
      exact List.mem_cons_of_mem _ (ih h)

theorem lookup_none {d : List (κ × ν)} {k : κ} (h : d.lookup k = none) : k ∉ d.map (·.1) := by
  induction d with
  | nil => simp
  | cons p d ih =>
    obtain ⟨k', v'⟩ := p
    rw [List.lookup_cons] at h
    by_cases hk : k = k'
    · subst hk; simp at h
    · have : (k == k') = false := by simp [hk]
      rw [this] at h
      simp only [List.map_cons, List.mem_cons, not_or]
      exact ⟨hk, ih h⟩

theorem lruCall_spec {maxsize : ℕ} {f : κ → Except Err ν} {cache : List (κ × ν)} (hv : ValidCache maxsize f cache) (k : κ) :
    (lruCall maxsize f cache k).1 = f k ∧ ValidCache maxsize f (lruCall maxsize f cache k).2 := by
  obtain ⟨h1, h2, h3⟩ := hv
  unfold lruCall
  rcases hl : cache.lookup k with _ | v
  · rcases hf : f k with e | v
    · exact ⟨by simp, h1, h2, h3⟩
    · refine ⟨by simp, ?_, ?_, ?_⟩
      · intro p hp
        rcases List.mem_cons.mp (List.mem_of_mem_take hp) with rfl | hp
        · exact hf
        · exact h1 p hp
      · rw [List.map_take]
        apply List.Nodup.sublist (List.take_sublist _ _)
        simp only [List.map_cons, List.nodup_cons]
        exact ⟨lookup_none hl, h2⟩
      · exact List.length_take_le _ _
  · have hm := cache_lookup_mem hl
    refine ⟨(h1 _ hm).symm, ?_, ?_, ?_⟩
    · intro p hp
      rcases List.mem_cons.mp hp with rfl | hp
      · exact h1 _ hm
      · exact h1 p (List.mem_filter.mp hp).1
    · simp only [List.map_cons, List.nodup_cons]
      refine ⟨?_, h2.sublist (List.Sublist.map _ List.filter_sublist)⟩
      intro hk
      obtain ⟨p, hp, hpk⟩ := List.mem_map.mp hk
      have := (List.mem_filter.mp hp).2
      simp [hpk] at this
    · have hlt : (cache.filter fun p => decide (p.1 ≠ k)).length < cache.length := by
        rw [List.length_filter_lt_length_iff_exists]
        exact ⟨(k, v), hm, by simp⟩
      simp only [List.length_cons]
      omega

/-- C37: for every history of calls, starting from an empty cache, every answer is the answer of the uncached
function (exceptions included), whatever was evicted, and the cache never exceeds its maximum size. -/
theorem C37_invisible (maxsize : ℕ) (f : κ → Except Err ν) (history : List κ) :
    (lruRun maxsize f history []).1 = history.map f ∧ (lruRun maxsize f history []).2.length ≤ maxsize := by
  have main : ∀ (history : List κ) (cache : List (κ × ν)), ValidCache maxsize f cache →
      (lruRun maxsize f history cache).1 = history.map f ∧ ValidCache maxsize f (lruRun maxsize f history cache).2 := by
    intro history
    induction history with
    | nil => intro cache hv; exact ⟨rfl, hv⟩
    | cons k ks ih =>
      intro cache hv
      obtain ⟨h1, h2⟩ := lruCall_spec hv k
      obtain ⟨h3, h4⟩ := ih _ h2
      constructor
      · rw [List.map_cons, ← h1, ← h3]; rfl
      · exact h4
  obtain ⟨h1, -, -, h2⟩ := main history [] ⟨by simp, by simp, by simp⟩
  exact ⟨h1, h2⟩

/-- C37: nothing is lost before the cache is full: a result stays cached while fewer than `maxsize` other
keys have been used since. -/
theorem C37_recent_kept (maxsize : ℕ) (f : κ → Except Err ν) (k : κ) (v : ν) (hk : f k = .ok v) (after : List κ)
    (cache : List (κ × ν)) (hv : ValidCache maxsize f cache) (hfew : (after.filter fun x => decide (x ≠ k)).length < maxsize) :
    (k, v) ∈ (lruRun maxsize f after (lruCall maxsize f cache k).2).2 := by
  have main : ∀ (after : List κ) (cache : List (κ × ν)) (pre post : List (κ × ν)), ValidCache maxsize f cache →
      cache = pre ++ (k, v) :: post → pre.length + (after.filter fun x => decide (x ≠ k)).length < maxsize →
      (k, v) ∈ (lruRun maxsize f after cache).2 := by
    intro after
    induction after with
    | nil => rintro cache pre post _ rfl _; simp [lruRun]
    | cons x after ih =>
      rintro cache pre post hv rfl hlen
      have hstep := (lruCall_spec hv x).2
      by_cases hx : x = k
      · subst hx
        refine ih _ [] ((pre ++ (x, v) :: post).filter fun p => decide (p.1 ≠ x)) hstep ?_ ?_
        · have : (pre ++ (x, v) :: post).lookup x = some v := by
            rcases hl : (pre ++ (x, v) :: post).lookup x with _ | w
            · exact absurd (by simp) (lookup_none hl)
            · have := hv.1 _ (cache_lookup_mem hl)
              simp only at this
              rw [hk] at this
              cases this; rfl
          rw [this]; rfl
        · simp only [List.filter_cons, ne_eq, not_true_eq_false, decide_false, Bool.false_eq_true, if_false] at hlen
          simp only [List.length_nil]
          simp only [ne_eq] at hlen ⊢
          omega
      · have hfl : ((x :: after).filter fun y => decide (y ≠ k)).length = (after.filter fun y => decide (y ≠ k)).length + 1 := by
          rw [List.filter_cons_of_pos (by simpa using hx)]; rfl
        rw [hfl] at hlen
        unfold lruCall at hstep
        change (k, v) ∈ (lruRun maxsize f after (lruCall maxsize f _ x).2).2
        unfold lruCall
        rcases hl : (pre ++ (k, v) :: post).lookup x with _ | w
        · rcases hf : f x with e | w
          · rw [hl, hf] at hstep
            exact ih _ pre post hv rfl (by omega)
          · rw [hl, hf] at hstep
            simp only at hstep ⊢
            refine ih _ ((x, w) :: pre) (post.take (maxsize - (pre.length + 2))) hstep ?_ ?_
            · have e1 : maxsize = pre.length + 2 + (maxsize - (pre.length + 2)) := by omega
              conv_lhs => rw [e1]
              rw [show (x, w) :: (pre ++ (k, v) :: post) = ((x, w) :: pre ++ [(k, v)]) ++ post by simp]
              rw [List.take_append, List.take_of_length_le (by simp)]
              simp
            · simp only [List.length_cons]; omega
        · rw [hl] at hstep
          simp only at hstep ⊢
          refine ih _ ((x, w) :: pre.filter fun p => decide (p.1 ≠ x)) (post.filter fun p => decide (p.1 ≠ x)) hstep ?_ ?_
          · rw [List.filter_append, List.filter_cons_of_pos (by simpa using fun h => hx h.symm)]
            rfl
          · have := List.length_filter_le (fun p : κ × ν => decide (p.1 ≠ x)) pre
            simp only [List.length_cons]
            omega
  have hstep := lruCall_spec hv k
  obtain ⟨post, hpost⟩ : ∃ post, (lruCall maxsize f cache k).2 = (k, v) :: post := by
    unfold lruCall
    rcases hl : cache.lookup k with _ | w
    · rw [hk]
      obtain ⟨n, rfl⟩ : ∃ n, maxsize = n + 1 := ⟨maxsize - 1, by omega⟩
      exact ⟨_, rfl⟩
    · have := hv.1 _ (cache_lookup_mem hl)
      simp only at this
      rw [hk] at this
      cases this
      exact ⟨_, rfl⟩
  exact main after _ [] post hstep.2 hpost (by simpa using hfew)

end lru

/-- The topology methods behind their caches. -/
theorem C37_topology (T : Topology) (history : List (Loc × Loc × Option (List String) × Option (Finset ℕ))) :
    (lruRun 512 (fun a => T.contains a.1 a.2.1 a.2.2.1 a.2.2.2) history []).1 =
      history.map fun a => T.contains a.1 a.2.1 a.2.2.1 a.2.2.2 := (C37_invisible 512 _ history).1

example : (lruRun 2 (fun n : ℕ => if n = 0 then .error .keyError else .ok (n * n)) [1, 2, 3, 1, 0, 3] []).1 =
    [.ok 1, .ok 4, .ok 9, .ok 1, .error .keyError, .ok 9] := by decide +kernel

end Ocelot
