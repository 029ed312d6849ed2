import Verif.Model.Combined
import Verif.Props.Params
import Verif.Props.Utils
import Verif.Proofs.Dict

/-! # Lemmas for combined production and merging -/

set_option linter.unusedSimpArgs false

namespace Ocelot
open Spec

theorem anyAllocatableByproduct_false {l : List Exchange} :
    anyAllocatableByproduct l = .ok false ↔
      ∀ e ∈ l, e.type = .byproduct → e.cls ≠ none ∧ e.cls ≠ some .allocatable := by
  induction l with
  | nil => simp [anyAllocatableByproduct]
  | cons e l ih =>
    unfold anyAllocatableByproduct
    by_cases ht : e.type = .byproduct
    · rw [if_pos ht]
      rcases hc : e.cls with _ | c
      · simp [ht, hc]
      · cases c <;> simp [ht, hc, ih]
    · rw [if_neg ht, ih]
      simp [ht]

theorem anyAllocatableByproduct_true {l : List Exchange} (h : anyAllocatableByproduct l = .ok true) :
    ∃ e ∈ l, e.type = .byproduct ∧ e.cls = some .allocatable := by
  induction l with
  | nil => cases h
  | cons e l ih =>
    unfold anyAllocatableByproduct at h
    by_cases ht : e.type = .byproduct
    · rw [if_pos ht] at h
      rcases hc : e.cls with _ | c
      · simp [hc] at h
      · cases c
        · exact ⟨e, by simp, ht, hc⟩
        · simp only [hc] at h
          obtain ⟨x, hx, h⟩ := ih h
          exact ⟨x, by simp [hx], h⟩
        · simp only [hc] at h
          obtain ⟨x, hx, h⟩ := ih h
          exact ⟨x, by simp [hx], h⟩
    · rw [if_neg ht] at h
      obtain ⟨x, hx, h⟩ := ih h
      exact ⟨x, by simp [hx], h⟩

theorem anyAllocatableByproduct_ok {l : List Exchange} (h : ∀ e ∈ l, e.type = .byproduct → e.cls ≠ none) :
    ∃ b, anyAllocatableByproduct l = .ok b := by
  induction l with
  | nil => exact ⟨false, rfl⟩
  | cons e l ih =>
    unfold anyAllocatableByproduct
    have ih := ih fun x hx => h x (by simp [hx])
    by_cases ht : e.type = .byproduct
    · rw [if_pos ht]
      rcases hc : e.cls with _ | c
      · exact absurd hc (h e (by simp) ht)
      · cases c
        · exact ⟨true, rfl⟩
        · exact ih
        · exact ih
    · rw [if_neg ht]; exact ih

/-! ## Variables after subdivision -/

/-- Variable names of one exchange. -/
def excVars (e : Exchange) : List String := e.numObjs.filterMap (·.var)

theorem numObjs_vars (ds : Dataset) :
    ds.numObjs.filterMap (·.var) = ds.exchanges.flatMap excVars ++ ds.parameters.filterMap (·.var) := by
  unfold Dataset.numObjs excVars
  rw [List.filterMap_append, List.filterMap_flatMap, List.filterMap_map]
  rfl

theorem excVars_eq (e : Exchange) : excVars e =
    e.var.toList ++ (e.pv.toList.filterMap (fun p => p.var) ++ e.properties.filterMap (fun p => p.var)) := by
  unfold excVars Exchange.numObjs
  rw [List.filterMap_cons, List.filterMap_append, List.filterMap_map, List.filterMap_map]
  rcases e.var <;> rfl

theorem excVars_nonref (e : Exchange) : (excVars (nonreferenceProduct e)).Sublist (excVars e) := by
  rw [excVars_eq, excVars_eq]
  refine List.Sublist.append (List.Sublist.refl _) ?_
  refine List.Sublist.append ?_ (List.Sublist.refl _)
  exact List.nil_sublist _

theorem excVars_selected (e : Exchange) : excVars (selectedProduct e) = excVars e := by
  rw [excVars_eq, excVars_eq]; rfl

theorem flatMap_sublist_of {α β : Type} {f g : α → List β} (l : List α) (h : ∀ a ∈ l, (f a).Sublist (g a)) :
    (l.flatMap f).Sublist (l.flatMap g) := by
  induction l with
  | nil => exact List.Sublist.refl _
  | cons a l ih =>
    simp only [List.flatMap_cons]
    exact List.Sublist.append (h a (by simp)) (ih fun b hb => h b (by simp [hb]))

theorem sublist_flatMap {α β : Type} (f : α → List β) {l r : List α} (h : l.Sublist r) :
    (l.flatMap f).Sublist (r.flatMap f) := by
  induction h with
  | slnil => exact List.Sublist.refl _
  | cons a _ ih => exact ih.trans (by simp only [List.flatMap_cons]; exact List.sublist_append_right _ _)
  | cons_cons a _ ih => simp only [List.flatMap_cons]; exact List.Sublist.append (List.Sublist.refl _) ih

theorem subperm_append {α : Type} {a b c d : List α} (h : a.Subperm b) (h' : c.Subperm d) :
    (a ++ c).Subperm (b ++ d) := by
  obtain ⟨m, hm, hs⟩ := h
  obtain ⟨m', hm', hs'⟩ := h'
  exact ⟨m ++ m', hm.append hm', hs.append hs'⟩

theorem subperm_flatMap {α β : Type} (f : α → List β) {l r : List α} (h : l.Subperm r) :
    (l.flatMap f).Subperm (r.flatMap f) := by
  obtain ⟨m, hm, hs⟩ := h
  exact ⟨m.flatMap f, List.Perm.flatMap_right f hm, sublist_flatMap f hs⟩

theorem nodup_of_subperm {α : Type} {l r : List α} (h : l.Subperm r) (hr : r.Nodup) : l.Nodup := by
  obtain ⟨m, hm, hs⟩ := h
  exact hm.nodup_iff.mp (hs.nodup hr)

/-- Every exchange appears in the subdivided dataset at most as often as in the original. -/
theorem subdivide_subperm {ds : Dataset} {e : Exchange} (he : e ∈ refs ds) :
    (e :: (ds.exchanges.filter fun o => o.type == .referenceProduct && o != e)
      ++ ds.exchanges.filter fun o => o.type != .referenceProduct).Subperm ds.exchanges := by
  have h1 : (refs ds ++ ds.exchanges.filter fun o => o.type != .referenceProduct).Perm ds.exchanges := by
    unfold refs
    exact List.filter_append_perm (fun o : Exchange => o.type == .referenceProduct) ds.exchanges
  have h2 : (e :: (ds.exchanges.filter fun o => o.type == .referenceProduct && o != e)).Subperm (refs ds) := by
    have h3 : (ds.exchanges.filter fun o => o.type == .referenceProduct && o != e) = (refs ds).filter fun o => o != e := by
      unfold refs
      rw [List.filter_filter]
      congr 1; funext o; exact Bool.and_comm _ _
    rw [h3]
    have h4 := List.filter_append_perm (fun o : Exchange => o == e) (refs ds)
    have h5 : [e].Sublist ((refs ds).filter fun o => o == e) :=
      List.singleton_sublist.mpr (List.mem_filter.mpr ⟨he, by simp⟩)
    exact (h5.append (List.Sublist.refl ((refs ds).filter fun o => o != e))).subperm.trans h4.subperm
  exact (subperm_append h2 (List.Subperm.refl _)).trans h1.subperm

theorem uniqueVars_subdivided {ds : Dataset} {e : Exchange} (he : e ∈ refs ds) (hu : UniqueVars ds) :
    UniqueVars (subdivided ds e) := by
  unfold UniqueVars at *
  rw [numObjs_vars] at hu ⊢
  refine nodup_of_subperm ?_ hu
  refine subperm_append ?_ (List.Subperm.refl _)
  refine List.Subperm.trans ?_ (subperm_flatMap excVars (subdivide_subperm he))
  refine List.Sublist.subperm ?_
  unfold subdivided
  simp only [List.flatMap_append, List.flatMap_cons, List.flatMap_nil, List.append_nil, List.flatMap_map, excVars_selected, List.cons_append, List.append_assoc, List.nil_append]
  refine List.Sublist.append (List.Sublist.refl _) (List.Sublist.append ?_ (List.Sublist.refl _))
  exact flatMap_sublist_of _ fun a _ => excVars_nonref a

end Ocelot
