import Verif.Model.Lists
import Verif.Proofs.ListLemmas
import Mathlib.Data.List.Nodup
import Mathlib.Data.List.Induction

/-! Lemmas about insertion-ordered dictionaries and `groupby`. -/

namespace Ocelot

section dict
variable {α κ β : Type} [DecidableEq κ]

theorem dictSet_keys_mem (k : κ) (v : β) (d : List (κ × β)) (x : κ) :
    x ∈ (dictSet k v d).map (·.1) ↔ x = k ∨ x ∈ d.map (·.1) := by
  induction d with
  | nil => simp [dictSet]
  | cons p r ih =>
    obtain ⟨k', v'⟩ := p
    unfold dictSet
    split
    · next h => subst h; simp
    · simp only [List.map_cons, List.mem_cons, ih]
      tauto

theorem dictSet_nodup (k : κ) (v : β) (d : List (κ × β)) (h : (d.map (·.1)).Nodup) :
    ((dictSet k v d).map (·.1)).Nodup := by
  induction d with
  | nil => simp [dictSet]
  | cons p r ih =>
    obtain ⟨k', v'⟩ := p
    unfold dictSet
    split
    · exact h
    · next hne =>
      simp only [List.map_cons, List.nodup_cons] at h ⊢
      refine ⟨?_, ih h.2⟩
      rw [dictSet_keys_mem]
      rintro (h' | h')
      · exact hne h'
      · exact h.1 h'

theorem dictSet_mem {k : κ} {v : β} {d : List (κ × β)} (h : (d.map (·.1)).Nodup) (x : κ) (y : β) :
    (x, y) ∈ dictSet k v d ↔ (x = k ∧ y = v) ∨ (x ≠ k ∧ (x, y) ∈ d) := by
  induction d with
  | nil => simp [dictSet]
  | cons p r ih =>
    obtain ⟨k', v'⟩ := p
    simp only [List.map_cons, List.nodup_cons] at h
    unfold dictSet
    split
    · next hk =>
      subst hk
      simp only [List.mem_cons, Prod.mk.injEq]
      constructor
      · rintro (h1 | h1)
        · exact Or.inl h1
        · right
          have : x ∈ r.map (·.1) := List.mem_map.mpr ⟨_, h1, rfl⟩
          exact ⟨fun hx => h.1 (hx ▸ this), Or.inr h1⟩
      · rintro (h1 | ⟨h1, h2 | h2⟩)
        · exact Or.inl h1
        · exact absurd h2.1 h1
        · exact Or.inr h2
    · next hk =>
      simp only [List.mem_cons, Prod.mk.injEq, ih h.2]
      constructor
      · rintro (⟨h1, h2⟩ | h1 | h1)
        · exact Or.inr ⟨by rw [h1]; exact hk, Or.inl ⟨h1, h2⟩⟩
        · exact Or.inl h1
        · exact Or.inr ⟨h1.1, Or.inr h1.2⟩
      · rintro (h1 | ⟨h1, h2 | h2⟩)
        · exact Or.inr (Or.inl h1)
        · exact Or.inl h2
        · exact Or.inr (Or.inr ⟨h1, h2⟩)

theorem dictOf_append_one (key : α → κ) (val : α → β) (l : List α) (a : α) :
    dictOf key val (l ++ [a]) = dictSet (key a) (val a) (dictOf key val l) := by
  simp [dictOf]

theorem dictOf_nodup (key : α → κ) (val : α → β) (l : List α) :
    ((dictOf key val l).map (·.1)).Nodup := by
  induction l using List.reverseRecOn with
  | nil => simp [dictOf]
  | append_singleton l a ih => rw [dictOf_append_one]; exact dictSet_nodup _ _ _ ih

theorem dictOf_keys_mem (key : α → κ) (val : α → β) (l : List α) (k : κ) :
    k ∈ (dictOf key val l).map (·.1) ↔ ∃ a ∈ l, key a = k := by
  induction l using List.reverseRecOn with
  | nil => simp [dictOf]
  | append_singleton l a ih =>
    rw [dictOf_append_one, dictSet_keys_mem, ih]
    simp only [List.mem_append, List.mem_singleton]
    constructor
    · rintro (rfl | ⟨b, hb, rfl⟩)
      · exact ⟨a, Or.inr rfl, rfl⟩
      · exact ⟨b, Or.inl hb, rfl⟩
    · rintro ⟨b, hb | rfl, rfl⟩
      · exact Or.inr ⟨b, hb, rfl⟩
      · exact Or.inl rfl

/-- An entry of the dictionary is the last element with its key. -/
theorem dictOf_mem (key : α → κ) (val : α → β) (l : List α) (k : κ) (v : β) :
    (k, v) ∈ dictOf key val l ↔
      ∃ l₁ a l₂, l = l₁ ++ a :: l₂ ∧ key a = k ∧ val a = v ∧ ∀ b ∈ l₂, key b ≠ k := by
  induction l using List.reverseRecOn with
  | nil => simp [dictOf]
  | append_singleton l a ih =>
    rw [dictOf_append_one, dictSet_mem (dictOf_nodup _ _ _), ih]
    constructor
    · rintro (⟨rfl, rfl⟩ | ⟨hne, l₁, b, l₂, rfl, hk, hv, hlast⟩)
      · exact ⟨l, a, [], by simp, rfl, rfl, by simp⟩
      · refine ⟨l₁, b, l₂ ++ [a], by simp, hk, hv, ?_⟩
        intro c hc
        rcases List.mem_append.mp hc with hc | hc
        · exact hlast c hc
        · rw [List.mem_singleton.mp hc]; exact fun h => hne h.symm
    · rintro ⟨l₁, b, l₂, heq, hk, hv, hlast⟩
      rcases List.eq_nil_or_concat l₂ with rfl | ⟨l₂', c, rfl⟩
      · obtain ⟨rfl, hb⟩ := List.append_inj' heq (by simp)
        have hb : a = b := by simpa using hb
        subst hb
        exact Or.inl ⟨hk.symm, hv.symm⟩
      · right
        have heq' : l ++ [a] = (l₁ ++ b :: l₂') ++ [c] := by rw [heq]; simp
        obtain ⟨rfl, hb⟩ := List.append_inj' heq' (by simp)
        have hb : a = c := by simpa using hb
        subst hb
        refine ⟨fun h => hlast a (by simp) h.symm, l₁, b, l₂', rfl, hk, hv, ?_⟩
        intro d hd
        exact hlast d (by simp [hd])

theorem dictOf_mem_src {key : α → κ} {val : α → β} {l : List α} {k : κ} {v : β}
    (h : (k, v) ∈ dictOf key val l) : ∃ a ∈ l, key a = k ∧ val a = v := by
  obtain ⟨l₁, a, l₂, rfl, hk, hv, -⟩ := (dictOf_mem key val l k v).mp h
  exact ⟨a, by simp, hk, hv⟩

end dict

section group
variable {α κ : Type} [DecidableEq κ]

theorem groupInsert_keys_mem (k : κ) (a : α) (d : List (κ × List α)) (x : κ) :
    x ∈ (groupInsert k a d).map (·.1) ↔ x = k ∨ x ∈ d.map (·.1) := by
  induction d with
  | nil => simp [groupInsert]
  | cons p r ih =>
    obtain ⟨k', v'⟩ := p
    unfold groupInsert
    split
    · next h => subst h; simp
    · simp only [List.map_cons, List.mem_cons, ih]
      tauto

theorem groupInsert_nodup (k : κ) (a : α) (d : List (κ × List α)) (h : (d.map (·.1)).Nodup) :
    ((groupInsert k a d).map (·.1)).Nodup := by
  induction d with
  | nil => simp [groupInsert]
  | cons p r ih =>
    obtain ⟨k', v'⟩ := p
    unfold groupInsert
    split
    · exact h
    · next hne =>
      simp only [List.map_cons, List.nodup_cons] at h ⊢
      refine ⟨?_, ih h.2⟩
      rw [groupInsert_keys_mem]
      rintro (h' | h')
      · exact hne h'
      · exact h.1 h'

theorem groupBy_append_one (key : α → κ) (l : List α) (a : α) :
    groupBy key (l ++ [a]) = groupInsert (key a) a (groupBy key l) := by
  simp [groupBy]

theorem groupBy_nodup (key : α → κ) (l : List α) : ((groupBy key l).map (·.1)).Nodup := by
  induction l using List.reverseRecOn with
  | nil => simp [groupBy]
  | append_singleton l a ih => rw [groupBy_append_one]; exact groupInsert_nodup _ _ _ ih

theorem groupBy_keys_mem (key : α → κ) (l : List α) (k : κ) :
    k ∈ (groupBy key l).map (·.1) ↔ ∃ a ∈ l, key a = k := by
  induction l using List.reverseRecOn with
  | nil => simp [groupBy]
  | append_singleton l a ih =>
    rw [groupBy_append_one, groupInsert_keys_mem, ih]
    simp only [List.mem_append, List.mem_singleton]
    constructor
    · rintro (rfl | ⟨b, hb, rfl⟩)
      · exact ⟨a, Or.inr rfl, rfl⟩
      · exact ⟨b, Or.inl hb, rfl⟩
    · rintro ⟨b, hb | rfl, rfl⟩
      · exact Or.inr ⟨b, hb, rfl⟩
      · exact Or.inl rfl

theorem groupInsert_mem {k : κ} {a : α} {d : List (κ × List α)} {x : κ} {g : List α}
    (hd : (d.map (·.1)).Nodup) (h : (x, g) ∈ groupInsert k a d) :
    (x ≠ k ∧ (x, g) ∈ d) ∨ (x = k ∧ ((∃ g', (x, g') ∈ d ∧ g = g' ++ [a]) ∨ (x ∉ d.map (·.1) ∧ g = [a]))) := by
  induction d with
  | nil => simp [groupInsert] at h; simp [h]
  | cons p r ih =>
    obtain ⟨k', v'⟩ := p
    simp only [List.map_cons, List.nodup_cons] at hd
    unfold groupInsert at h
    split at h
    · next hk =>
      subst hk
      rcases List.mem_cons.mp h with h | h
      · cases h
        exact Or.inr ⟨rfl, Or.inl ⟨v', by simp, rfl⟩⟩
      · left
        have : x ∈ r.map (·.1) := List.mem_map.mpr ⟨_, h, rfl⟩
        exact ⟨fun hx => hd.1 (hx ▸ this), by simp [h]⟩
    · next hk =>
      rcases List.mem_cons.mp h with h | h
      · cases h
        exact Or.inl ⟨hk, by simp⟩
      · rcases ih hd.2 h with ⟨h1, h2⟩ | ⟨h1, ⟨g', h2, h3⟩ | ⟨h2, h3⟩⟩
        · exact Or.inl ⟨h1, by simp [h2]⟩
        · exact Or.inr ⟨h1, Or.inl ⟨g', by simp [h2], h3⟩⟩
        · refine Or.inr ⟨h1, Or.inr ⟨?_, h3⟩⟩
          simp only [List.map_cons, List.mem_cons, not_or]
          exact ⟨fun hx => hk (by rw [← hx, h1]), h2⟩

/-- Each group is exactly the sublist of the elements with its key. -/
theorem groupBy_mem {key : α → κ} {l : List α} {k : κ} {g : List α} (h : (k, g) ∈ groupBy key l) :
    g = l.filter (fun a => key a = k) := by
  induction l using List.reverseRecOn generalizing k g with
  | nil => simp [groupBy] at h
  | append_singleton l a ih =>
    rw [groupBy_append_one] at h
    rw [List.filter_append]
    rcases groupInsert_mem (groupBy_nodup key l) h with ⟨h1, h2⟩ | ⟨h1, ⟨g', h2, h3⟩ | ⟨h2, h3⟩⟩
    · rw [ih h2]
      have : ¬ key a = k := fun h => h1 h.symm
      simp [this]
    · rw [h3, ih h2, h1]; simp
    · rw [h3]
      have : l.filter (fun a => decide (key a = k)) = [] := by
        rw [List.filter_eq_nil_iff]
        intro b hb hbk
        exact h2 ((groupBy_keys_mem key l k).mpr ⟨b, hb, by simpa using hbk⟩)
      rw [this, h1]; simp

theorem groupBy_ne_nil {key : α → κ} {l : List α} {k : κ} {g : List α} (h : (k, g) ∈ groupBy key l) :
    g ≠ [] := by
  rw [groupBy_mem h]
  obtain ⟨a, ha, hk⟩ := (groupBy_keys_mem key l k).mp (List.mem_map.mpr ⟨_, h, rfl⟩)
  intro h0
  have := List.filter_eq_nil_iff.mp h0 a ha
  simp [hk] at this

theorem groupInsert_perm (k : κ) (a : α) (d : List (κ × List α)) :
    ((groupInsert k a d).flatMap (·.2)).Perm (d.flatMap (·.2) ++ [a]) := by
  induction d with
  | nil => simp [groupInsert]
  | cons p r ih =>
    obtain ⟨k', v'⟩ := p
    unfold groupInsert
    split
    · simp only [List.flatMap_cons, List.append_assoc]
      exact List.Perm.append_left _ List.perm_append_comm
    · simp only [List.flatMap_cons, List.append_assoc]
      exact List.Perm.append_left _ ih

/-- Grouping loses and duplicates nothing. -/
theorem groupBy_perm (key : α → κ) (l : List α) : ((groupBy key l).flatMap (·.2)).Perm l := by
  induction l using List.reverseRecOn with
  | nil => simp [groupBy]
  | append_singleton l a ih =>
    rw [groupBy_append_one]
    exact (groupInsert_perm _ _ _).trans (List.Perm.append_right _ ih)

end group

end Ocelot
