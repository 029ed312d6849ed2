import Verif.Model.Topology
import Verif.Proofs.ListLemmas
import Verif.Proofs.Dict
import Mathlib.Data.Finset.Lattice.Basic
import Mathlib.Data.String.Basic

set_option linter.unusedSimpArgs false

namespace Ocelot

theorem mem_unionAll {l : List (Finset ℕ)} {x : ℕ} : x ∈ unionAll l ↔ ∃ s ∈ l, x ∈ s := by
  unfold unionAll
  induction l with
  | nil => simp
  | cons a l ih => simp [ih]

theorem given_eq_false {s : Option (List String)} : given s = false ↔ s.getD [] = [] := by
  unfold given
  split <;> simp

theorem given_eq_true {s : Option (List String)} : given s = true ↔ s.getD [] ≠ [] := by
  unfold given
  split <;> simp

/-- The result of subtracting. -/
theorem subtractFaces_ok {T : Topology} {s : Option (List String)} {f g : Finset ℕ} :
    T.subtractFaces s f = .ok g ↔ ∃ l, mapE T.call (s.getD []) = .ok l ∧ g = f \ unionAll l := by
  unfold Topology.subtractFaces
  by_cases hg : given s = true
  · rw [if_pos hg, bind_eq_ok]
    refine exists_congr fun l => and_congr_right fun _ => ?_
    change Except.ok _ = Except.ok _ ↔ _
    simp [eq_comm]
  · rw [if_neg hg]
    have := given_eq_false.mp (by simpa using hg)
    rw [this]
    simp only [mapE, Except.ok.injEq]
    constructor
    · rintro rfl; exact ⟨[], rfl, by simp [unionAll]⟩
    · rintro ⟨l, rfl, h⟩; simpa [unionAll] using h.symm

theorem lookup_of_mem {β : Type} {d : List (String × β)} (hd : (d.map (·.1)).Nodup) {k : String} {v : β}
    (h : (k, v) ∈ d) : d.lookup k = some v := by
  induction d with
  | nil => cases h
  | cons p d ih =>
    obtain ⟨k', v'⟩ := p
    simp only [List.map_cons, List.nodup_cons] at hd
    rcases List.mem_cons.mp h with h | h
    · cases h; simp [List.lookup]
    · have hne : k ≠ k' := by
        intro hk; exact hd.1 (hk ▸ List.mem_map.mpr ⟨(k, v), h, rfl⟩)
      rw [List.lookup_cons]
      have : (k == k') = false := by simp [hne]
      rw [this]
      exact ih hd.2 h

theorem mem_of_lookup {β : Type} {d : List (String × β)} {k : String} {v : β} (h : d.lookup k = some v) :
    (k, v) ∈ d := by
  induction d with
  | nil => cases h
  | cons p d ih =>
    obtain ⟨k', v'⟩ := p
    rw [List.lookup_cons] at h
    by_cases hk : k = k'
    · subst hk; simp at h; subst h; simp
    · have : (k == k') = false := by simp [hk]
      rw [this] at h
      exact List.mem_cons_of_mem _ (ih h)

theorem lookup_iff_mem {β : Type} {d : List (String × β)} (hd : (d.map (·.1)).Nodup) {k : String} {v : β} :
    d.lookup k = some v ↔ (k, v) ∈ d := ⟨mem_of_lookup, lookup_of_mem hd⟩

theorem call_ok {T : Topology} {s : String} {f : Finset ℕ} :
    T.call s = .ok f ↔ (s = "RoW" ∧ f = ∅) ∨ (s ≠ "RoW" ∧ T.data.lookup s = some f) := by
  unfold Topology.call
  by_cases h : s = "RoW"
  · simp [h, eq_comm]
  · simp [h, getKey_eq_ok]

/-! ### Sorting -/

theorem keyGe_total (a b : ℚ × String) : keyGe a b ∨ keyGe b a := by
  unfold keyGe
  rcases lt_trichotomy a.1 b.1 with h | h | h
  · exact Or.inr (Or.inl h)
  · rcases le_total a.2 b.2 with h2 | h2
    · exact Or.inr (Or.inr ⟨h, h2⟩)
    · exact Or.inl (Or.inr ⟨h.symm, h2⟩)
  · exact Or.inl (Or.inl h)

theorem keyGe_trans (a b c : ℚ × String) (h1 : keyGe a b) (h2 : keyGe b c) : keyGe a c := by
  unfold keyGe at *
  rcases h1 with h1 | ⟨h1, h1'⟩ <;> rcases h2 with h2 | ⟨h2, h2'⟩
  · exact Or.inl (h2.trans h1)
  · exact Or.inl (h2 ▸ h1)
  · exact Or.inl (h1 ▸ h2)
  · exact Or.inr ⟨h2.trans h1, h2'.trans h1'⟩

theorem keyGe_antisymm (a b : ℚ × String) (h1 : keyGe a b) (h2 : keyGe b a) : a = b := by
  unfold keyGe at *
  rcases h1 with h1 | ⟨h1, h1'⟩ <;> rcases h2 with h2 | ⟨h2, h2'⟩
  · exact absurd h1 (not_lt.mpr h2.le)
  · exact absurd h1 (by rw [h2]; exact lt_irrefl _)
  · exact absurd h2 (by rw [h1]; exact lt_irrefl _)
  · exact Prod.ext h2 (le_antisymm h2' h1')

instance : Std.Total keyGe := ⟨keyGe_total⟩
instance : IsTrans (ℚ × String) keyGe := ⟨keyGe_trans⟩

theorem sortNames_perm (l : List String) : (sortNames l).Perm l := List.perm_insertionSort _ _

theorem sortNames_sorted (l : List String) : (sortNames l).Pairwise (· ≤ ·) := List.pairwise_insertionSort _ _

/-- Sorting does not depend on the original order. -/
theorem sortNames_congr {l l' : List String} (h : l.Perm l') : sortNames l = sortNames l' := by
  apply List.Perm.eq_of_pairwise (le := (· ≤ ·)) (fun a b _ _ h1 h2 => le_antisymm h1 h2) (sortNames_sorted l) (sortNames_sorted l')
  exact (sortNames_perm l).trans (h.trans (sortNames_perm l').symm)

theorem sortNames_dedup_congr {l l' : List String} (h : ∀ x, x ∈ l ↔ x ∈ l') :
    sortNames l.dedup = sortNames l'.dedup := by
  apply sortNames_congr
  rw [List.perm_ext_iff_of_nodup l.nodup_dedup l'.nodup_dedup]
  intro a; simp [h a]

end Ocelot
