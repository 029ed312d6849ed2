import Verif.Model.Schema
import Verif.Proofs.Dict
import Verif.Proofs.Topology

/-! Lemmas about schemas and about the dictionaries made by extraction. -/

namespace Ocelot

theorem Fields.keys_of (l : List (String × Bool × Sch)) : (Fields.of l).keys = l.map (·.1) := by
  induction l with
  | nil => rfl
  | cons p l ih => obtain ⟨k, r, s⟩ := p; simp [Fields.of, Fields.keys, ih]

theorem Schs.accepts_of (l : List Sch) (v : PyVal) : (Schs.of l).accepts v = l.any fun s => s.accepts v := by
  induction l with
  | nil => simp [Schs.of, Schs.accepts]
  | cons s l ih => simp [Schs.of, Schs.accepts, ih]

/-- What a key of a record asks for. -/
def FieldOk (d : List (String × PyVal)) (f : String × Bool × Sch) : Prop :=
  (∀ x, d.lookup f.1 = some x → f.2.2.accepts x = true) ∧ (f.2.1 = true → d.lookup f.1 ≠ none)

theorem Fields.accepts_of (l : List (String × Bool × Sch)) (d : List (String × PyVal)) : (Fields.of l).accepts d = true ↔ ∀ f ∈ l, FieldOk d f := by
  induction l with
  | nil => simp [Fields.of, Fields.accepts]
  | cons p l ih =>
    obtain ⟨k, r, s⟩ := p
    rw [Fields.of, Fields.accepts, Bool.and_eq_true, ih, List.forall_mem_cons]
    apply and_congr_left'
    unfold FieldOk
    rcases h : d.lookup k with _ | x <;> simp

theorem accepts_record (l : List (String × Bool × Sch)) (d : List (String × PyVal)) :
    (Sch.record l).accepts (.dict d) = true ↔ (∀ p ∈ d, p.1 ∈ l.map (·.1)) ∧ ∀ f ∈ l, FieldOk d f := by
  rw [Sch.record, Sch.accepts, Bool.and_eq_true, Fields.accepts_of, Fields.keys_of]
  simp [List.all_eq_true]

theorem accepts_anyOf (l : List Sch) (v : PyVal) : (Sch.anyOf l).accepts v = l.any fun s => s.accepts v := by
  rw [Sch.anyOf, Sch.accepts, Schs.accepts_of]

theorem accepts_oneOf (l : List String) (s : String) : (oneOf l).accepts (.str s) = l.contains s := by
  rw [oneOf, Sch.accepts, Schs.accepts_of]
  induction l with
  | nil => rfl
  | cons t l ih =>
    rw [List.map_cons, List.any_cons, ih, List.contains_cons]
    simp [Sch.accepts, Bool.beq_comm]

theorem accepts_listOf (s : Sch) (l : List PyVal) : (Sch.listOf s).accepts (.list l) = true ↔ ∀ x ∈ l, s.accepts x = true := by
  simp [Sch.accepts]

@[simp] theorem accepts_str_ofText (s : String) : Sch.str.accepts (.ofText s) = true ↔ s ≠ "" := by
  unfold PyVal.ofText
  split <;> simp_all [Sch.accepts]

@[simp] theorem accepts_str_ofAttr (o : Option String) : Sch.str.accepts (.ofAttr o) = true ↔ o.isSome = true := by
  unfold PyVal.ofAttr
  split <;> simp [Sch.accepts]

theorem lookup_append' {d₁ d₂ : List (String × PyVal)} {k : String} : (d₁ ++ d₂).lookup k = (d₁.lookup k).or (d₂.lookup k) := by
  induction d₁ with
  | nil => simp
  | cons p d ih =>
    obtain ⟨k', v⟩ := p
    rw [List.cons_append, List.lookup_cons, List.lookup_cons]
    split
    · rfl
    · exact ih

theorem lookup_cons_if (k k' : String) (v : PyVal) (d : List (String × PyVal)) : List.lookup k' ((k, v) :: d) = if k' = k then some v else d.lookup k' := by
  by_cases h : k' = k
  · simp [h]
  · have : (k' == k) = false := by simpa using h
    rw [List.lookup_cons, this, if_neg h]

theorem lookup_optEntry (k k' : String) (o : Option PyVal) : (optEntry k o).lookup k' = if k' = k then o else none := by
  cases o with
  | none => simp [optEntry]
  | some v => rw [optEntry, lookup_cons_if]; rfl

theorem mem_optEntry {k : String} {o : Option PyVal} {p : String × PyVal} : p ∈ optEntry k o ↔ ∃ v, o = some v ∧ p = (k, v) := by
  cases o <;> simp [optEntry]

/-! ## Uncertainty -/

/-- The names under which the values of a distribution are stored. -/
def valueName (a : String) : String := (uncertaintyNames.lookup a).getD a

theorem pedigree_accepted {l : List (String × Int)} (h : ∀ p ∈ l, p.1 ∈ pedigreeLabelTable.map (·.2)) : validPedigree.accepts (pedigreeVal l) = true := by
  rw [validPedigree, accepts_anyOf, List.any_cons, Bool.or_eq_true]
  left
  rw [pedigreeVal, accepts_record]
  constructor
  · intro p hp
    obtain ⟨q, hq, rfl⟩ := List.mem_map.mp hp
    simpa [opt] using h q hq
  · intro f hf
    obtain ⟨q, _, rfl⟩ := List.mem_map.mp hf
    refine ⟨?_, by simp [opt]⟩
    intro x hx
    have hx' := mem_of_lookup hx
    obtain ⟨r, _, hr⟩ := List.mem_map.mp hx'
    simp only [Prod.mk.injEq] at hr
    rw [← hr.2]
    rfl

theorem extractPedigree_keys {X : XmlEnv} {u : Elem} {l : List (String × Int)} (h : extractPedigree X u = .ok l) : ∀ p ∈ l, p.1 ∈ pedigreeLabelTable.map (·.2) := by
  unfold extractPedigree at h
  split at h
  · cases h; simp
  · intro p hp
    obtain ⟨q, hq, he⟩ := mapE_mem h hp
    obtain ⟨i, _, hr⟩ := bind_eq_ok.mp he
    cases hr
    exact List.mem_map.mpr ⟨q, hq, rfl⟩

/-- The dictionary of a distribution: a type, a pedigree matrix and numbers under the given names. -/
structure IsDistribution (tag : String) (names : List String) (d : List (String × PyVal)) : Prop where
  type : d.lookup "type" = some (.str tag)
  pedigree : ∃ v, d.lookup "pedigree matrix" = some v ∧ validPedigree.accepts v = true
  number : ∀ k ∈ names, k ≠ "type" → k ≠ "pedigree matrix" → ∃ q, d.lookup k = some (.float q)
  other : ∀ k, k ∉ names → k ≠ "type" → k ≠ "pedigree matrix" → d.lookup k = none
  keys : ∀ k, k ∈ d.map (·.1) ↔ k ∈ names ∨ k = "type" ∨ k = "pedigree matrix"

theorem accepts_distribution {tag t : String} {names req opts : List String} {d : List (String × PyVal)} (hd : IsDistribution tag names d) {l : List (String × Bool × Sch)}
    (hl : ∀ f, f ∈ l ↔ f = need "pedigree matrix" validPedigree ∨ f = need "type" (.lit t) ∨ (∃ k ∈ req, f = need k .float) ∨ ∃ k ∈ opts, f = opt k .float)
    (hreq : "type" ∉ req ∧ "pedigree matrix" ∉ req) (hopts : "type" ∉ opts ∧ "pedigree matrix" ∉ opts) :
    (Sch.record l).accepts (.dict d) = true ↔ tag = t ∧ (∀ k ∈ req, k ∈ names) ∧ ∀ k ∈ names, k ∈ req ∨ k ∈ opts ∨ k = "type" ∨ k = "pedigree matrix" := by
  rw [accepts_record]
  have hmem : ∀ k, k ∈ l.map (·.1) ↔ k = "pedigree matrix" ∨ k = "type" ∨ k ∈ req ∨ k ∈ opts := by
    intro k
    rw [List.mem_map]
    constructor
    · rintro ⟨f, hf, rfl⟩
      rcases (hl f).mp hf with rfl | rfl | ⟨k, hk, rfl⟩ | ⟨k, hk, rfl⟩
      · exact .inl rfl
      · exact .inr (.inl rfl)
      · exact .inr (.inr (.inl hk))
      · exact .inr (.inr (.inr hk))
    · rintro (rfl | rfl | h | h)
      · exact ⟨_, (hl _).mpr (.inl rfl), rfl⟩
      · exact ⟨_, (hl _).mpr (.inr (.inl rfl)), rfl⟩
      · exact ⟨_, (hl _).mpr (.inr (.inr (.inl ⟨k, h, rfl⟩))), rfl⟩
      · exact ⟨_, (hl _).mpr (.inr (.inr (.inr ⟨k, h, rfl⟩))), rfl⟩
  have hfloat : ∀ k x, k ≠ "type" → k ≠ "pedigree matrix" → d.lookup k = some x → Sch.float.accepts x = true := by
    intro k x h1 h2 hx
    by_cases hk : k ∈ names
    · obtain ⟨q, hq⟩ := hd.number k hk h1 h2
      rw [hq] at hx
      cases hx
      rfl
    · rw [hd.other k hk h1 h2] at hx
      cases hx
  constructor
  · rintro ⟨h1, h2⟩
    refine ⟨?_, ?_, ?_⟩
    · have := (h2 _ ((hl _).mpr (.inr (.inl rfl)))).1 _ hd.type
      simp [need, Sch.accepts] at this
      exact this.symm
    · intro k hk
      by_contra hn
      have h3 : k ≠ "type" := fun h => hreq.1 (h ▸ hk)
      have h4 : k ≠ "pedigree matrix" := fun h => hreq.2 (h ▸ hk)
      exact (h2 _ ((hl _).mpr (.inr (.inr (.inl ⟨k, hk, rfl⟩))))).2 rfl (hd.other k hn h3 h4)
    · intro k hk
      obtain ⟨p, hp, rfl⟩ := List.mem_map.mp ((hd.keys k).mpr (.inl hk))
      rcases (hmem p.1).mp (h1 p hp) with h | h | h | h <;> simp [h]
  · rintro ⟨rfl, h2, h3⟩
    constructor
    · intro p hp
      rw [hmem]
      rcases (hd.keys p.1).mp (List.mem_map.mpr ⟨p, hp, rfl⟩) with h | h | h
      · rcases h3 _ h with h | h | h | h <;> simp [h]
      · simp [h]
      · simp [h]
    · intro f hf
      rcases (hl f).mp hf with rfl | rfl | ⟨k, hk, rfl⟩ | ⟨k, hk, rfl⟩
      · obtain ⟨v, hv, ha⟩ := hd.pedigree
        constructor
        · intro x hx
          simp only [need] at hx
          rw [hv] at hx
          cases hx
          exact ha
        · intro _
          simp [need, hv]
      · constructor
        · intro x hx
          simp only [need] at hx
          rw [hd.type] at hx
          cases hx
          simp [need, Sch.accepts]
        · intro _
          simp [need, hd.type]
      · have h5 : k ≠ "type" := fun h => hreq.1 (h ▸ hk)
        have h6 : k ≠ "pedigree matrix" := fun h => hreq.2 (h ▸ hk)
        obtain ⟨q, hq⟩ := hd.number k (h2 k hk) h5 h6
        constructor
        · intro x hx
          exact hfloat k x h5 h6 hx
        · intro _
          simp [need, hq]
      · have h5 : k ≠ "type" := fun h => hopts.1 (h ▸ hk)
        have h6 : k ≠ "pedigree matrix" := fun h => hopts.2 (h ▸ hk)
        exact ⟨fun x hx => hfloat k x h5 h6 hx, by simp [opt]⟩

theorem lookup_dictSet (k k' : String) (v : PyVal) (d : List (String × PyVal)) : (dictSet k v d).lookup k' = if k' = k then some v else d.lookup k' := by
  induction d with
  | nil => rw [dictSet, lookup_cons_if]
  | cons p d ih =>
    obtain ⟨k₁, v₁⟩ := p
    rw [dictSet]
    split
    · next h =>
      subst h
      rw [lookup_cons_if, lookup_cons_if]
      split <;> rfl
    · next h =>
      rw [lookup_cons_if, lookup_cons_if, ih]
      by_cases h1 : k' = k₁
      · rw [if_pos h1, if_pos h1, if_neg (fun h2 => h (h1 ▸ h2))]
      · rw [if_neg h1, if_neg h1]

theorem uncertaintyVal_isDistribution {X : XmlEnv} {u : Elem} {v : PyVal} (h : uncertaintyVal X u = .ok v) :
    ∃ dist d, findDistribution u = .ok dist ∧ v = .dict d ∧ IsDistribution dist.tag (dist.attrs.map fun p => valueName p.1) d := by
  unfold uncertaintyVal at h
  obtain ⟨dist, hdist, h⟩ := bind_eq_ok.mp h
  obtain ⟨values, hvalues, h⟩ := bind_eq_ok.mp h
  obtain ⟨pedigree, hped, h⟩ := bind_eq_ok.mp h
  cases h
  refine ⟨dist, _, hdist, rfl, ?_⟩
  have hnames : values.map (·.1) = dist.attrs.map fun p => valueName p.1 := by
    apply mapE_map_eq hvalues
    intro a _ b hb
    obtain ⟨q, _, hq⟩ := bind_eq_ok.mp hb
    cases hq
    rfl
  have hfl : ∀ p ∈ values, ∃ q, p.2 = PyVal.float q := by
    intro p hp
    obtain ⟨a, _, ha⟩ := mapE_mem hvalues hp
    obtain ⟨q, _, hq⟩ := bind_eq_ok.mp ha
    cases hq
    exact ⟨q, rfl⟩
  have hkeys : ∀ k, k ∈ (dictOf (·.1) (·.2) values).map (·.1) ↔ k ∈ dist.attrs.map fun p => valueName p.1 := by
    intro k
    rw [dictOf_keys_mem, ← hnames, List.mem_map]
  constructor
  · rw [lookup_dictSet, if_neg (by decide), lookup_dictSet, if_pos rfl]
  · refine ⟨_, by rw [lookup_dictSet, if_pos rfl], pedigree_accepted ?_⟩
    split
    · intro p hp
      obtain ⟨q, hq, rfl⟩ := List.mem_map.mp hp
      exact List.mem_map.mpr ⟨q, hq, rfl⟩
    · exact extractPedigree_keys hped
  · intro k hk h1 h2
    rw [lookup_dictSet, if_neg h2, lookup_dictSet, if_neg h1]
    obtain ⟨p, hp, rfl⟩ := List.mem_map.mp ((hkeys k).mpr hk)
    obtain ⟨a, ha, -, hav⟩ := dictOf_mem_src hp
    obtain ⟨q, hq⟩ := hfl a ha
    refine ⟨q, lookup_of_mem (dictOf_nodup _ _ _) ?_⟩
    rw [← hq, hav]
    exact hp
  · intro k hk h1 h2
    rw [lookup_dictSet, if_neg h2, lookup_dictSet, if_neg h1]
    rcases hl : List.lookup k (dictOf (·.1) (·.2) values) with _ | x
    · exact hl
    · exact absurd ((hkeys k).mp (List.mem_map.mpr ⟨_, mem_of_lookup hl, rfl⟩)) hk
  · intro k
    rw [dictSet_keys_mem, dictSet_keys_mem, hkeys]
    tauto

end Ocelot
