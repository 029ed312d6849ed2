import Verif.Props.MarketAllocation

/-! # Properties C39, C40: which activities supply which markets -/

set_option linter.unusedSimpArgs false

namespace Ocelot
open Spec

/-! ## Specification -/

namespace Spec

/-- The region meant by `loc` among `others`: the faces of a named location; for `RoW` what the others leave of
the world. -/
def Region (T : Topology) (others : List String) (loc : String) (f : Finset ℕ) : Prop :=
  if loc = "RoW" then ∃ g, HasFaces T "GLO" g ∧ ∀ i, i ∈ f ↔ i ∈ g ∧ ¬ InSome T others i else HasFaces T loc f

/-- The locations of the members of a list that have a given name. -/
def placesNamed (l : List Dataset) (name : String) : List String := (l.filter fun d => decide (d.name = name)).map (·.location)

/-- The supplier `d` (one of `suppliers`) is not empty and lies inside the market `m` (one of `markets`). -/
def Inside (T : Topology) (markets suppliers : List Dataset) (m d : Dataset) : Prop :=
  ∃ fm fs, Region T (markets.map (·.location)) m.location fm ∧ Region T (placesNamed suppliers d.name) d.location fs ∧
    fs.Nonempty ∧ fs ⊆ fm

/-- `e` describes the supplier `d`: its only reference product, with the dataset's location, name, code and
technology level. -/
def Describes (d : Dataset) (e : Exchange) : Prop :=
  ∃ rp, refs d = [rp] ∧ e = { rp with location := some d.location, activity := some d.name, code := d.code.orElse fun _ => rp.code, technologyLevel := d.technologyLevel.orElse fun _ => rp.technologyLevel }

/-- The datasets of type `kind` with reference product `r`. -/
def producers (kind : DsType) (r : String) (data : List Dataset) : List Dataset :=
  data.filter fun d => decide (d.type = kind ∧ d.refProduct = some r)

/-- The datasets of type `kind` with reference product `r` that have no suppliers yet. -/
def waiting (kind : DsType) (r : String) (data : List Dataset) : List Dataset :=
  data.filter fun d => decide (d.type = kind ∧ d.refProduct = some r ∧ d.suppliers.getD [] = [])

/-- No named location is empty. -/
def NoEmptyPlaces (T : Topology) : Prop := ∀ s f, HasFaces T s f → f ≠ ∅

/-- At most one dataset with each name is located in `RoW`. -/
def OneRow (suppliers : List Dataset) : Prop := ∀ n, (placesNamed suppliers n).count "RoW" ≤ 1

/-- The iteration order of a set is a permutation of it. -/
def IterationOrder (σ : Dataset → String → List String → List String) : Prop := ∀ c n l, (σ c n l).Perm l

end Spec

/-! ## Loops over groups -/

theorem forall₂_filter_eq {α : Type} {R : α → α → Prop} {p : α → Bool} {l l' : List α} (h : List.Forall₂ R l l')
    (h1 : ∀ a b, R a b → p a = p b) (h2 : ∀ a b, R a b → p a = true → b = a) : l'.filter p = l.filter p := by
  induction h with
  | nil => rfl
  | @cons a b l l' hab _ ih =>
    rw [List.filter_cons, List.filter_cons, ih, ← h1 a b hab]
    by_cases hp : p a = true
    · rw [if_pos hp, if_pos hp, h2 a b hab hp]
    · rw [if_neg hp, if_neg hp]

theorem groupKeys_nodup {κ : Type} [DecidableEq κ] (key : Dataset → Option κ) (data : List Dataset) :
    (groupKeys key data).Nodup := groupBy_nodup _ _

theorem mem_groupKeys {κ : Type} [DecidableEq κ] {key : Dataset → Option κ} {data : List Dataset} {k : κ} :
    k ∈ groupKeys key data ↔ ∃ ds ∈ data, key ds = some k := by
  unfold groupKeys
  rw [groupBy_keys_mem]
  simp [List.mem_filterMap]

/-- A loop over the groups applies `upd` to every member, with what `prep` computed for the original group. -/
theorem groupLoop {κ τ : Type} [DecidableEq κ] {key : Dataset → Option κ} {prep : κ → List Dataset → Except Err τ}
    {upd : τ → Dataset → Except Err Dataset} {data out : List Dataset}
    (hkey : ∀ t ds ds', upd t ds = .ok ds' → key ds' = key ds)
    (h : foldE (groupStep key prep upd) data (groupKeys key data) = .ok out) :
    List.Forall₂ (fun ds ds' => match key ds with
      | none => ds' = ds
      | some k => ∃ t, prep k (data.filter fun d => decide (key d = some k)) = .ok t ∧ upd t ds = .ok ds') data out := by
  have hinv := foldE_inv' (I := fun pre st => List.Forall₂ (fun ds ds' => key ds' = key ds ∧
      ((∀ k ∈ pre, key ds ≠ some k) → ds' = ds) ∧
      (∀ k ∈ pre, key ds = some k → ∃ t, prep k (data.filter fun d => decide (key d = some k)) = .ok t ∧ upd t ds = .ok ds')) data st) h
    (by rw [List.forall₂_same]; intro ds _; exact ⟨rfl, fun _ => rfl, by simp⟩) (by
    intro pre k post st st' hl hI hstep
    have hnk : k ∉ pre := by
      have := groupKeys_nodup key data
      rw [hl] at this
      exact fun hm => (List.nodup_append.mp this).2.2 k hm k (by simp) rfl
    unfold groupStep at hstep
    obtain ⟨t, ht, hstep⟩ := bind_eq_ok.mp hstep
    have hfil : (st.filter fun ds => decide (key ds = some k)) = data.filter fun ds => decide (key ds = some k) := by
      refine forall₂_filter_eq hI ?_ ?_
      · intro a b hab; rw [hab.1]
      · intro a b hab hp
        have hp : key a = some k := by simpa using hp
        refine hab.2.1 fun k' hk' => ?_
        rw [hp]
        intro hh
        cases hh
        exact hnk hk'
    rw [hfil] at ht
    refine forall₂_trans' hI (mapE_ok_iff.mp hstep) ?_
    intro a b c hab hbc
    obtain ⟨h1, h2, h3⟩ := hab
    by_cases hk : key b = some k
    · rw [if_pos hk] at hbc
      have hka : key a = some k := h1 ▸ hk
      have hba : b = a := h2 fun k' hk' => by
        rw [hka]
        intro hh
        cases hh
        exact hnk hk'
      subst hba
      refine ⟨hkey _ _ _ hbc, fun hno => absurd hka (hno k (by simp)), fun k' hk' hkk => ?_⟩
      rw [hka] at hkk
      cases hkk
      exact ⟨t, ht, hbc⟩
    · rw [if_neg hk] at hbc
      cases hbc
      refine ⟨h1, fun hno => h2 fun k' hk' => hno k' (by simp [hk']), fun k' hk' hkk => ?_⟩
      rcases List.mem_append.mp hk' with hk' | hk'
      · exact h3 k' hk' hkk
      · simp at hk'
        subst hk'
        exact absurd (h1.trans hkk) hk)
  refine (forall₂_with_mem hinv).imp ?_
  intro a b hab
  obtain ⟨hm, h1, h2, h3⟩ := hab
  rcases hk : key a with _ | k
  · exact h2 (by simp [hk])
  · exact h3 k (mem_groupKeys.mpr ⟨a, hm, hk⟩) hk

/-! ## Locations inside a region -/

theorem mem_contained {T : Topology} {loc : Loc} {row fm : Finset ℕ} {S : List String}
    (hf : T.containedFaces loc (some row) = .ok (some fm)) (h : T.contained loc false none (some row) = .ok S) (k : String) :
    k ∈ S ↔ fm ≠ ∅ ∧ ((∃ f, HasFaces T k f ∧ f ⊆ fm) ∨ (k = "RoW" ∧ row ≠ ∅ ∧ row ⊆ fm)) := by
  unfold Topology.contained at h
  rw [hf] at h
  have hs : T.subtractFaces none fm = .ok fm := rfl
  simp only [ebind_ok, hs] at h
  by_cases h0 : fm = ∅
  · rw [if_pos h0] at h
    cases h
    simp [h0]
  · rw [if_neg h0] at h
    cases h
    simp only [h0, ne_eq, not_false_eq_true, true_and, List.mem_append]
    apply or_congr
    · unfold Topology.keysWithin HasFaces
      simp
    · unfold addsRow
      simp
      tauto

theorem resolveRow_region {T : Topology} (hT : WellFormed T) {others : List String} {r : Finset ℕ}
    (h : T.resolveRow others = .ok r) : Region T others "RoW" r := by
  unfold Region
  rw [if_pos rfl]
  exact C34_complement T hT others r h

theorem Spec.Region.unique {T : Topology} (hT : WellFormed T) {others : List String} {s : String} {f g : Finset ℕ}
    (h : Region T others s f) (h' : Region T others s g) : f = g := by
  unfold Region at h h'
  by_cases hs : s = "RoW"
  · rw [if_pos hs] at h h'
    obtain ⟨w, hw, h⟩ := h
    obtain ⟨w', hw', h'⟩ := h'
    cases HasFaces.unique hT hw hw'
    ext i
    rw [h, h']
  · rw [if_neg hs] at h h'
    exact h.unique hT h'

theorem resolveRow_known {T : Topology} {others : List String} {r : Finset ℕ}
    (h : T.resolveRow others = .ok r) {s : String} (hs : s ∈ others) : Known T s := by
  unfold Topology.resolveRow at h
  obtain ⟨g, hg, h⟩ := bind_eq_ok.mp h
  obtain ⟨l, hl, h⟩ := bind_eq_ok.mp h
  obtain ⟨f, -, hf⟩ := forall₂_mem_left (mapE_ok_iff.mp hl) hs
  exact known_of_call hf

theorem lookup_byLocation {group : List Dataset} {k : String} {d : Dataset} :
    (byLocation group).lookup k = some d ↔
      ∃ l₁ l₂, group = l₁ ++ d :: l₂ ∧ d.location = k ∧ ∀ b ∈ l₂, b.location ≠ k := by
  unfold byLocation
  rw [lookup_iff_mem (dictOf_nodup _ _ _), dictOf_mem]
  constructor
  · rintro ⟨l₁, a, l₂, rfl, hk, rfl, hl⟩
    exact ⟨l₁, l₂, rfl, hk, hl⟩
  · rintro ⟨l₁, l₂, rfl, hk, hl⟩
    exact ⟨l₁, d, l₂, rfl, hk, rfl, hl⟩

theorem lookup_byLocation_nodup {group : List Dataset} (hn : (group.map (·.location)).Nodup) {k : String} {d : Dataset} :
    (byLocation group).lookup k = some d ↔ d ∈ group ∧ d.location = k := by
  rw [lookup_byLocation]
  constructor
  · rintro ⟨l₁, l₂, rfl, hk, -⟩
    exact ⟨by simp, hk⟩
  · rintro ⟨hd, hk⟩
    obtain ⟨l₁, l₂, rfl⟩ := List.append_of_mem hd
    refine ⟨l₁, l₂, rfl, hk, fun b hb hbk => ?_⟩
    rw [List.map_append, List.map_cons] at hn
    have := (List.nodup_append.mp hn).2.1
    rw [List.nodup_cons] at this
    exact this.1 (List.mem_map.mpr ⟨b, hb, hbk.trans hk.symm⟩)

theorem supplierEntry_ok {d : Dataset} {e : Exchange} (h : supplierEntry d = .ok e) : Describes d e := by
  unfold supplierEntry at h
  obtain ⟨rp, hrp, h⟩ := bind_eq_ok.mp h
  cases h
  exact ⟨rp, getSingle_ok.mp hrp, rfl⟩

theorem entries_of {L : List (String × Dataset)} {keys : List String} {es : List Exchange}
    (h : mapE (fun k => do
      let ds ← getKey (L.lookup k)
      supplierEntry ds) keys = .ok es) :
    ∃ chosen : List Dataset, List.Forall₂ (fun k d => L.lookup k = some d) keys chosen ∧ List.Forall₂ Describes chosen es := by
  have hF := mapE_ok_iff.mp h
  clear h
  induction hF with
  | nil => exact ⟨[], .nil, .nil⟩
  | @cons k e ks es hke _ ih =>
    obtain ⟨ds, hds, he⟩ := bind_eq_ok.mp hke
    obtain ⟨chosen, h1, h2⟩ := ih
    exact ⟨ds :: chosen, .cons (getKey_eq_ok.mp hds) h1, .cons (supplierEntry_ok he) h2⟩

theorem chosen_locations {group : List Dataset} {keys : List String} {chosen : List Dataset}
    (hch : List.Forall₂ (fun k d => (byLocation group).lookup k = some d) keys chosen) : chosen.map (·.location) = keys := by
  induction hch with
  | nil => rfl
  | @cons k d ks ds hkd _ ih =>
    obtain ⟨l₁, l₂, -, hk, -⟩ := lookup_byLocation.mp hkd
    rw [List.map_cons, ih, hk]

/-- Datasets that do not overlap have different locations, if at most one is `RoW`. -/
theorem distinct_places {T : Topology} (hT : WellFormed T) (hne : NoEmptyPlaces T) {group : List Dataset} {b : Bool}
    (hk : ∀ d ∈ group, Known T d.location) (hno : noOverlaps T group = .ok b)
    (h1 : (group.map (·.location)).count "RoW" ≤ 1) : (group.map (·.location)).Nodup := by
  obtain ⟨hor, hiff⟩ := C35_no_overlaps T hT group hk
  have hok : noOverlaps T group = .ok true := by
    rcases hor with h | h
    · exact h
    · rw [h] at hno; cases hno
  have hpw := (hiff.mp hok).1
  clear hor hiff hok hno
  induction group with
  | nil => simp
  | cons a group ih =>
    rw [List.pairwise_cons] at hpw
    rw [List.map_cons, List.nodup_cons]
    refine ⟨fun hm => ?_, ih (fun d hd => hk d (by simp [hd])) ?_ hpw.2⟩
    · obtain ⟨d, hd, hda⟩ := List.mem_map.mp hm
      rcases hk a (by simp) with hr | ⟨f, hf⟩
      · rw [List.map_cons, hr, List.count_cons_self] at h1
        rw [hr] at hm
        have := List.count_pos_iff.mpr hm
        omega
      · have hdj := hpw.1 d hd f f hf (hda ▸ hf)
        exact hne _ f hf (Finset.disjoint_self_iff_empty f |>.mp hdj)
    · rw [List.map_cons] at h1
      exact le_trans (List.count_le_count_cons) h1

/-- The suppliers with one name: the datasets chosen and their entries. -/
theorem suppliersOfGroup_ok {T : Topology} (hT : WellFormed T) (hne : NoEmptyPlaces T)
    {σ : Dataset → String → List String → List String} (hσ : IterationOrder σ) {c : Dataset} {loc : Loc} {n : String}
    {group : List Dataset} {fm : Finset ℕ} {es : List Exchange}
    (hf : ∀ row, T.containedFaces loc (some row) = .ok (some fm))
    (h : suppliersOfGroup T σ c loc n group = .ok es) :
    ∃ chosen : List Dataset, List.Forall₂ Describes chosen es ∧
      (∀ d ∈ chosen, d ∈ group ∧ ∃ fs, Region T (group.map (·.location)) d.location fs ∧ fs.Nonempty ∧ fs ⊆ fm) ∧
      ((group.map (·.location)).count "RoW" ≤ 1 → group.Nodup ∧ chosen.Nodup ∧ ∀ d, d ∈ chosen ↔ d ∈ group ∧
        ∃ fs, Region T (group.map (·.location)) d.location fs ∧ fs.Nonempty ∧ fs ⊆ fm) := by
  unfold suppliersOfGroup at h
  obtain ⟨_, hno, h⟩ := bind_eq_ok.mp h
  obtain ⟨row, hrow, h⟩ := bind_eq_ok.mp h
  obtain ⟨inside, hin, h⟩ := bind_eq_ok.mp h
  have hmem := mem_contained (hf row) hin
  have hreg : ∀ s ∈ group.map (·.location), (s ∈ inside ↔ ∃ fs, Region T (group.map (·.location)) s fs ∧ fs.Nonempty ∧ fs ⊆ fm) := by
    intro s hs
    rw [hmem]
    have hrr := resolveRow_region hT hrow
    constructor
    · rintro ⟨h0, ⟨f, hsf, hsub⟩ | ⟨rfl, hr0, hrs⟩⟩
      · refine ⟨f, ?_, Finset.nonempty_iff_ne_empty.mpr (hne s f hsf), hsub⟩
        unfold Region
        rw [if_neg (hsf.ne hT)]
        exact hsf
      · exact ⟨row, hrr, Finset.nonempty_iff_ne_empty.mpr hr0, hrs⟩
    · rintro ⟨fs, hfs, hfn, hsub⟩
      refine ⟨fun h0 => ?_, ?_⟩
      · rw [h0, Finset.subset_empty] at hsub
        exact Finset.nonempty_iff_ne_empty.mp hfn hsub
      · by_cases hsr : s = "RoW"
        · subst hsr
          cases hfs.unique hT hrr
          exact Or.inr ⟨rfl, Finset.nonempty_iff_ne_empty.mp hfn, hsub⟩
        · unfold Region at hfs
          rw [if_neg hsr] at hfs
          exact Or.inl ⟨fs, hfs, hsub⟩
  have hperm := hσ c n (inside.dedup.filter fun k => (byLocation group).any fun p => p.1 == k)
  generalize σ c n (inside.dedup.filter fun k => (byLocation group).any fun p => p.1 == k) = keys at h hperm
  have hknd : keys.Nodup := hperm.nodup_iff.mpr ((List.nodup_dedup _).filter _)
  have hkm : ∀ k, k ∈ keys ↔ k ∈ inside ∧ k ∈ group.map (·.location) := by
    intro k
    rw [hperm.mem_iff, List.mem_filter, List.mem_dedup]
    apply and_congr_right
    intro _
    rw [List.any_eq_true]
    have := dictOf_keys_mem (fun d : Dataset => d.location) (fun d => d) group k
    unfold byLocation
    rw [List.mem_map] at this
    rw [List.mem_map, ← this]
    constructor
    · rintro ⟨p, hp, hk⟩; exact ⟨p, hp, by simpa using hk⟩
    · rintro ⟨p, hp, hk⟩; exact ⟨p, hp, by simpa using hk⟩
  obtain ⟨chosen, hch, hdes⟩ := entries_of h
  have hloc := chosen_locations hch
  have hsound : ∀ d ∈ chosen, d ∈ group ∧ d.location ∈ keys := by
    intro d hd
    obtain ⟨k, hk, hkd⟩ := forall₂_mem_right hch hd
    obtain ⟨l₁, l₂, hg, hk', -⟩ := lookup_byLocation.mp hkd
    exact ⟨by rw [hg]; simp, hk' ▸ hk⟩
  have hdist : (group.map (·.location)).count "RoW" ≤ 1 → (group.map (·.location)).Nodup :=
    distinct_places hT hne (fun d hd => resolveRow_known hrow (List.mem_map.mpr ⟨d, hd, rfl⟩)) hno
  refine ⟨chosen, hdes, fun d hd => ?_, fun h1 => ⟨List.Nodup.of_map _ (hdist h1), ?_, fun d => ⟨fun hd => ?_, ?_⟩⟩⟩
  · obtain ⟨h1, h2⟩ := hsound d hd
    exact ⟨h1, (hreg _ ((hkm _).mp h2).2).mp ((hkm _).mp h2).1⟩
  · exact List.Nodup.of_map (·.location) (hloc ▸ hknd)
  · obtain ⟨h1, h2⟩ := hsound d hd
    exact ⟨h1, (hreg _ ((hkm _).mp h2).2).mp ((hkm _).mp h2).1⟩
  · rintro ⟨hd, hr⟩
    have hl : d.location ∈ group.map (·.location) := List.mem_map.mpr ⟨d, hd, rfl⟩
    have hk : d.location ∈ keys := (hkm _).mpr ⟨(hreg _ hl).mpr hr, hl⟩
    obtain ⟨d', hd', hkd⟩ := forall₂_mem_left hch hk
    rw [(lookup_byLocation_nodup (hdist h1)).mpr ⟨hd, rfl⟩] at hkd
    cases hkd
    exact hd'

theorem containedFaces_of_known {T : Topology} (hT : WellFormed T) {markets : List Dataset} {row : Finset ℕ}
    (hrow : T.resolveRow (markets.map (·.location)) = .ok row) {c : Dataset} (hc : c ∈ markets) :
    ∃ fm, Region T (markets.map (·.location)) c.location fm ∧
      ∀ r, T.containedFaces (if c.location = "RoW" then Loc.faces row else Loc.name c.location) (some r) = .ok (some fm) := by
  by_cases h : c.location = "RoW"
  · refine ⟨row, ?_, fun r => ?_⟩
    · rw [h]; exact resolveRow_region hT hrow
    · rw [if_pos h]; rfl
  · have hk := resolveRow_known hrow (List.mem_map.mpr ⟨c, hc, rfl⟩)
    rcases hk with hk | ⟨f, hf⟩
    · exact absurd hk h
    · refine ⟨f, ?_, fun r => ?_⟩
      · unfold Region; rw [if_neg h]; exact hf
      · rw [if_neg h]
        unfold Topology.containedFaces
        simp only [if_neg h, hf.call hT]
        rfl

open Classical in
/-- One market: it keeps its suppliers and gets the chosen ones. -/
theorem supplyConsumer_ok {T : Topology} (hT : WellFormed T) (hne : NoEmptyPlaces T)
    {σ : Dataset → String → List String → List String} (hσ : IterationOrder σ) {markets suppliers : List Dataset}
    {row : Finset ℕ} (hrow : T.resolveRow (markets.map (·.location)) = .ok row) {c c' : Dataset} (hc : c ∈ markets)
    (h : supplyConsumer T σ row suppliers c = .ok c') :
    ∃ chosen entries, c' = { c with suppliers := some (c.suppliers.getD [] ++ entries) } ∧
      List.Forall₂ Describes chosen entries ∧
      (∀ d ∈ chosen, d ∈ suppliers ∧ Inside T markets suppliers c d) ∧
      (OneRow suppliers → chosen.Perm (suppliers.filter fun d => Inside T markets suppliers c d)) := by
  unfold supplyConsumer at h
  obtain ⟨new, hnew, h⟩ := bind_eq_ok.mp h
  cases h
  obtain ⟨fm, hfm, hcf⟩ := containedFaces_of_known hT hrow hc
  obtain ⟨bs, hbs, rfl⟩ := flatMapE_ok_iff.mp hnew
  have hgrp : ∀ g ∈ groupBy (fun d : Dataset => d.name) suppliers, ∀ es,
      suppliersOfGroup T σ c (if c.location = "RoW" then Loc.faces row else Loc.name c.location) g.1 g.2 = .ok es →
      ∃ chosen, List.Forall₂ Describes chosen es ∧ (∀ d ∈ chosen, d ∈ suppliers ∧ Inside T markets suppliers c d) ∧
        (OneRow suppliers → chosen.Perm (g.2.filter fun d => Inside T markets suppliers c d)) := by
    intro g hg es hes
    have hg2 : g.2 = suppliers.filter fun d => decide (d.name = g.1) := groupBy_mem (k := g.1) (g := g.2) hg
    obtain ⟨chosen, h1, h2, h3⟩ := suppliersOfGroup_ok hT hne hσ hcf hes
    have hin : ∀ d ∈ g.2, (Inside T markets suppliers c d ↔
        ∃ fs, Region T (g.2.map (·.location)) d.location fs ∧ fs.Nonempty ∧ fs ⊆ fm) := by
      intro d hd
      have hpl : g.2.map (·.location) = placesNamed suppliers d.name := by
        rw [hg2] at hd ⊢
        have : d.name = g.1 := by simpa using (List.mem_filter.mp hd).2
        rw [← this]
        rfl
      rw [hpl]
      constructor
      · rintro ⟨fm', fs, hm', hs, hn, hsub⟩
        cases hm'.unique hT hfm
        exact ⟨fs, hs, hn, hsub⟩
      · rintro ⟨fs, hs, hn, hsub⟩
        exact ⟨fm, fs, hfm, hs, hn, hsub⟩
    refine ⟨chosen, h1, fun d hd => ?_, fun hnd => ?_⟩
    · obtain ⟨hdg, hr⟩ := h2 d hd
      refine ⟨?_, (hin d hdg).mpr hr⟩
      rw [hg2] at hdg
      exact (List.mem_filter.mp hdg).1
    · obtain ⟨h6, h4, h5⟩ := h3 (by rw [hg2]; exact hnd g.1)
      rw [List.perm_ext_iff_of_nodup h4 (h6.filter _)]
      intro d
      rw [h5 d, List.mem_filter, decide_eq_true_eq]
      constructor
      · rintro ⟨a, b⟩; exact ⟨a, (hin d a).mpr b⟩
      · rintro ⟨a, b⟩; exact ⟨a, (hin d a).mp b⟩
  have hall : ∀ (gs : List (String × List Dataset)) (bs : List (List Exchange)),
      (∀ g ∈ gs, g ∈ groupBy (fun d : Dataset => d.name) suppliers) →
      List.Forall₂ (fun g es => suppliersOfGroup T σ c (if c.location = "RoW" then Loc.faces row else Loc.name c.location) g.1 g.2 = .ok es) gs bs →
      ∃ chosen, List.Forall₂ Describes chosen bs.flatten ∧ (∀ d ∈ chosen, d ∈ suppliers ∧ Inside T markets suppliers c d) ∧
        (OneRow suppliers → chosen.Perm ((gs.flatMap (·.2)).filter fun d => Inside T markets suppliers c d)) := by
    intro gs bs hgs hF
    induction hF with
    | nil => exact ⟨[], .nil, by simp, fun _ => by simp⟩
    | @cons g es gs bs hge _ ih =>
      obtain ⟨ch1, a1, a2, a3⟩ := hgrp g (hgs g (by simp)) es hge
      obtain ⟨ch2, b1, b2, b3⟩ := ih fun g' hg' => hgs g' (by simp [hg'])
      refine ⟨ch1 ++ ch2, List.rel_append a1 b1, fun d hd => ?_, fun hnd => ?_⟩
      · rcases List.mem_append.mp hd with hd | hd
        · exact a2 d hd
        · exact b2 d hd
      · rw [List.flatMap_cons, List.filter_append]
        exact (a3 hnd).append (b3 hnd)
  obtain ⟨chosen, h1, h2, h3⟩ := hall _ _ (fun g hg => hg) (mapE_ok_iff.mp hbs)
  exact ⟨chosen, _, rfl, h1, h2, fun hnd => (h3 hnd).trans ((groupBy_perm _ suppliers).filter _)⟩

/-- What `add_suppliers_to_markets` does to one dataset. -/
theorem addSuppliers_ok {T : Topology} (hT : WellFormed T) {σ : Dataset → String → List String → List String} {from_ to_ : DsType}
    {data out : List Dataset} (h : addSuppliersToMarkets T σ from_ to_ data = .ok out) :
    (∀ d ∈ data, d.type = from_ ∨ d.type = to_ → d.refProduct.isSome) ∧
    List.Forall₂ (fun ds ds' =>
      if ds.type = to_ ∧ ds.suppliers.getD [] = [] then
        ∃ r row, ds.refProduct = some r ∧ ds ∈ waiting to_ r data ∧
          T.resolveRow ((waiting to_ r data).map (·.location)) = .ok row ∧ noGeoDuplicates (waiting to_ r data) = .ok () ∧
          (to_ = .market → noOverlaps T (waiting to_ r data) = .ok true) ∧
          supplyConsumer T σ row (producers from_ r data) ds = .ok ds'
      else ds' = ds) data out := by
  unfold addSuppliersToMarkets at h
  obtain ⟨ws, hw, h⟩ := bind_eq_ok.mp h
  have hrp : ∀ d ∈ data, d.type = from_ ∨ d.type = to_ → d.refProduct.isSome := by
    intro d hd hty
    obtain ⟨w, -, hdw⟩ := forall₂_mem_left (mapE_ok_iff.mp hw) (List.mem_filter.mpr ⟨hd, by simpa using hty⟩)
    unfold withRefProduct at hdw
    obtain ⟨r, hr, -⟩ := bind_eq_ok.mp hdw
    rw [getKey_eq_ok.mp hr]
    rfl
  refine ⟨hrp, ?_⟩
  have hloop := groupLoop (fun t ds ds' hu => by
    unfold apportionUpd at hu
    rcases t with _ | a
    · cases hu; rfl
    · simp only at hu
      split at hu
      · unfold supplyConsumer at hu
        obtain ⟨new, -, hu⟩ := bind_eq_ok.mp hu
        cases hu
        rfl
      · cases hu; rfl) h
  refine (forall₂_with_mem hloop).imp ?_
  intro ds ds' hab
  obtain ⟨hd, hab⟩ := hab
  by_cases hwant : ds.type = to_ ∧ ds.suppliers.getD [] = []
  · rw [if_pos hwant]
    obtain ⟨r, hr⟩ := Option.isSome_iff_exists.mp (hrp ds hd (Or.inr hwant.1))
    have hk : productIf (fun ds : Dataset => ds.type == from_ || ds.type == to_) ds = some r := by
      unfold productIf
      simp [hwant.1, hr]
    rw [hk] at hab
    obtain ⟨t, ht, hu⟩ := hab
    have hfil : ∀ p : Dataset → Bool, (∀ d, p d = true → d.type = from_ ∨ d.type = to_) →
        ((data.filter fun d => decide (productIf (fun ds : Dataset => ds.type == from_ || ds.type == to_) d = some r)).filter p) =
          data.filter fun d => p d && decide (d.refProduct = some r) := by
      intro p hp
      rw [List.filter_filter]
      apply List.filter_congr
      intro d _
      by_cases hpd : p d = true
      · have := hp d hpd
        unfold productIf
        rw [hpd]
        simp [this]
      · simp [hpd]
    have hcons : ((data.filter fun d => decide (productIf (fun ds : Dataset => ds.type == from_ || ds.type == to_) d = some r)).filter (wantsSuppliers to_)) =
        waiting to_ r data := by
      rw [hfil _ (fun d hp => by unfold wantsSuppliers at hp; simp at hp; exact Or.inr hp.1)]
      unfold waiting
      apply List.filter_congr
      intro d _
      unfold wantsSuppliers
      rw [Bool.eq_iff_iff]
      simp
      tauto
    have hsup : ((data.filter fun d => decide (productIf (fun ds : Dataset => ds.type == from_ || ds.type == to_) d = some r)).filter fun ds => ds.type == from_) =
        producers from_ r data := by
      rw [hfil _ (fun d hp => Or.inl (by simpa using hp))]
      unfold producers
      apply List.filter_congr
      intro d _
      rw [Bool.eq_iff_iff]
      simp
    have hmw : ds ∈ waiting to_ r data := List.mem_filter.mpr ⟨hd, by simp [hwant.1, hwant.2, hr]⟩
    unfold addSuppliersPrep at ht
    simp only [hcons, hsup] at ht
    rw [if_neg (List.ne_nil_of_mem hmw)] at ht
    have hfin : ∀ {t}, apportionPrep T (wantsSuppliers to_) (waiting to_ r data) (producers from_ r data) = .ok t →
        apportionUpd T σ t ds = .ok ds' →
        ∃ row, T.resolveRow ((waiting to_ r data).map (·.location)) = .ok row ∧ noGeoDuplicates (waiting to_ r data) = .ok () ∧
          supplyConsumer T σ row (producers from_ r data) ds = .ok ds' := by
      intro t ht hu
      unfold apportionPrep at ht
      obtain ⟨u, hgeo, ht⟩ := bind_eq_ok.mp ht
      obtain ⟨row, hrow, ht⟩ := bind_eq_ok.mp ht
      cases ht
      have hws : wantsSuppliers to_ ds = true := by unfold wantsSuppliers; simp [hwant.1, hwant.2]
      unfold apportionUpd at hu
      simp only [hws, if_true] at hu
      exact ⟨row, hrow, hgeo, hu⟩
    by_cases hm : to_ = .market
    · rw [if_pos hm] at ht
      obtain ⟨b, hb, ht⟩ := bind_eq_ok.mp ht
      obtain ⟨row, h1, h2, h3⟩ := hfin ht hu
      refine ⟨r, row, hr, hmw, h1, h2, fun _ => ?_, h3⟩
      have : b = true := by
        rcases (C35_no_overlaps T hT (waiting to_ r data) fun d hd => resolveRow_known h1 (List.mem_map.mpr ⟨d, hd, rfl⟩)).1 with hh | hh
        · rw [hh] at hb; cases hb; rfl
        · rw [hh] at hb; cases hb
      rw [this] at hb
      exact hb
    · rw [if_neg hm] at ht
      obtain ⟨row, h1, h2, h3⟩ := hfin ht hu
      exact ⟨r, row, hr, hmw, h1, h2, fun h => absurd h hm, h3⟩
  · rw [if_neg hwant]
    rcases hk : productIf (fun ds : Dataset => ds.type == from_ || ds.type == to_) ds with _ | r
    · rw [hk] at hab; exact hab
    · rw [hk] at hab
      obtain ⟨t, ht, hu⟩ := hab
      have hws : wantsSuppliers to_ ds = false := by
        unfold wantsSuppliers
        rw [Bool.eq_false_iff]
        intro hh
        simp at hh
        exact hwant hh
      have hfin : ∀ {t c s}, apportionPrep T (wantsSuppliers to_) c s = .ok t → apportionUpd T σ t ds = .ok ds' → ds' = ds := by
        intro t c s ht hu
        unfold apportionPrep at ht
        obtain ⟨u, hgeo, ht⟩ := bind_eq_ok.mp ht
        obtain ⟨row, hrow, ht⟩ := bind_eq_ok.mp ht
        cases ht
        unfold apportionUpd at hu
        simp only [hws] at hu
        cases hu
        rfl
      unfold addSuppliersPrep at ht
      generalize data.filter (fun d => decide (productIf (fun ds : Dataset => ds.type == from_ || ds.type == to_) d = some r)) = group at ht
      by_cases h0 : group.filter (wantsSuppliers to_) = []
      · simp only [h0, if_true] at ht
        cases ht
        cases hu
        rfl
      · simp only [h0, if_false] at ht
        by_cases hm : to_ = .market
        · rw [if_pos hm] at ht
          obtain ⟨b, hb, ht⟩ := bind_eq_ok.mp ht
          exact hfin ht hu
        · rw [if_neg hm] at ht
          exact hfin ht hu

/-! ## C39 -/

/-- C39: a market without suppliers gets entries that describe supplying datasets of its product, each inside the
market; every other dataset is unchanged. -/
theorem C39_only_inside (T : Topology) (hT : WellFormed T) (hne : NoEmptyPlaces T)
    (σ : Dataset → String → List String → List String) (hσ : IterationOrder σ) (from_ to_ : DsType)
    (data out : List Dataset) (h : addSuppliersToMarkets T σ from_ to_ data = .ok out) :
    List.Forall₂ (fun ds ds' =>
      if ds.type = to_ ∧ ds.suppliers.getD [] = [] then
        ∃ r chosen entries, ds.refProduct = some r ∧ ds' = { ds with suppliers := some entries } ∧
          List.Forall₂ Describes chosen entries ∧
          ∀ d ∈ chosen, d ∈ producers from_ r data ∧ Inside T (waiting to_ r data) (producers from_ r data) ds d
      else ds' = ds) data out := by
  refine (addSuppliers_ok hT h).2.imp ?_
  intro ds ds' hab
  by_cases hw : ds.type = to_ ∧ ds.suppliers.getD [] = []
  · rw [if_pos hw] at hab ⊢
    obtain ⟨r, row, hr, hmem, hrow, -, -, hs⟩ := hab
    obtain ⟨chosen, entries, h1, h2, h3, -⟩ := supplyConsumer_ok hT hne hσ hrow hmem hs
    rw [hw.2, List.nil_append] at h1
    exact ⟨r, chosen, entries, hr, h1, h2, h3⟩
  · rw [if_neg hw] at hab ⊢
    exact hab

open Classical in
/-- C39: a market without suppliers gets exactly one entry for each supplying dataset of its product that lies
inside it, provided that at most one of the suppliers with the same name and product is a `RoW` dataset. -/
theorem C39_exactly_inside_partial (T : Topology) (hT : WellFormed T) (hne : NoEmptyPlaces T)
    (σ : Dataset → String → List String → List String) (hσ : IterationOrder σ) (from_ to_ : DsType)
    (data out : List Dataset) (hrow : ∀ r, OneRow (producers from_ r data))
    (h : addSuppliersToMarkets T σ from_ to_ data = .ok out) :
    List.Forall₂ (fun ds ds' =>
      if ds.type = to_ ∧ ds.suppliers.getD [] = [] then
        ∃ r chosen entries, ds.refProduct = some r ∧ ds' = { ds with suppliers := some entries } ∧
          List.Forall₂ Describes chosen entries ∧
          chosen.Perm ((producers from_ r data).filter fun d => Inside T (waiting to_ r data) (producers from_ r data) ds d)
      else ds' = ds) data out := by
  refine (addSuppliers_ok hT h).2.imp ?_
  intro ds ds' hab
  by_cases hw : ds.type = to_ ∧ ds.suppliers.getD [] = []
  · rw [if_pos hw] at hab ⊢
    obtain ⟨r, row, hr, hmem, hrow', -, -, hs⟩ := hab
    obtain ⟨chosen, entries, h1, h2, -, h4⟩ := supplyConsumer_ok hT hne hσ hrow' hmem hs
    rw [hw.2, List.nil_append] at h1
    exact ⟨r, chosen, entries, hr, h1, h2, h4 (hrow r)⟩
  · rw [if_neg hw] at hab ⊢
    exact hab

/-- A transforming activity producing `p`. -/
def exampleSupplier (name location : String) (v : ℚ) : Dataset :=
  { name := name, location := location, type := .transforming, refProduct := some "p", code := some (name ++ location), exchanges := [{ name := "p", type := .referenceProduct, amount := 1, pv := some { amount := v } }] }

/-- A market for `p`. -/
def exampleMarketAt (location : String) : Dataset :=
  { name := "market for p", location := location, type := .market, refProduct := some "p", exchanges := [{ name := "p", type := .referenceProduct, amount := 1, pv := some { amount := 0 } }] }

/-- Two activities, a market for `RER` and one for the rest of the world. -/
def exampleSupply : List Dataset :=
  [exampleSupplier "a" "UCTE" 1, exampleSupplier "a" "RoW" 2, exampleSupplier "b" "RER" 3, exampleMarketAt "RER", exampleMarketAt "RoW"]

/-- The topology of the example. -/
def exampleSupplyTopology : Topology := { data := [("GLO", {1, 2, 3}), ("RER", {1, 2}), ("UCTE", {1, 2})] }

example : WellFormed exampleSupplyTopology := by constructor <;> decide +kernel
example : NoEmptyPlaces exampleSupplyTopology := by
  intro s f h
  simp [HasFaces, exampleSupplyTopology] at h
  rcases h with ⟨-, rfl⟩ | ⟨-, rfl⟩ | ⟨-, rfl⟩ <;> decide
example : IterationOrder fun _ _ l => l.reverse := fun _ _ l => List.reverse_perm l
example : ∀ r, OneRow (producers .transforming r exampleSupply) := by
  intro r n
  unfold producers placesNamed exampleSupply
  simp only [List.filter_cons, List.filter_nil, exampleSupplier, exampleMarketAt]
  by_cases hr : some "p" = some r <;> by_cases ha : "a" = n <;> by_cases hb : "b" = n <;> simp [hr, ha, hb]
example : (addSuppliersToMarkets exampleSupplyTopology (fun _ _ l => l.reverse) .transforming .market exampleSupply).map
    (fun l => l.map fun d => (d.suppliers.getD []).map fun e => (e.activity, e.location)) =
    .ok [[], [], [], [(some "a", some "UCTE"), (some "b", some "RER")], [(some "a", some "RoW")]] := by decide +kernel

/-- C39 fails with two `RoW` datasets of the same name and product: `no_overlaps` accepts them, and only the last one
becomes a supplier. -/
theorem C39_duplicate_row_dropped :
    (addSuppliersToMarkets exampleSupplyTopology (fun _ _ l => l) .transforming .market
      [exampleSupplier "a" "RoW" 1, exampleSupplier "a" "RoW" 2, exampleMarketAt "GLO"]).map
      (fun l => l.map fun d => (d.suppliers.getD []).map fun e => (e.activity, e.location, vol e)) =
    .ok [[], [], [(some "a", some "RoW", 2)]] := by decide +kernel

/-! ## C40 -/

theorem waiting_disjoint {T : Topology} (hT : WellFormed T) {l : List Dataset} {row : Finset ℕ}
    (hrow : T.resolveRow (l.map (·.location)) = .ok row) (hgeo : noGeoDuplicates l = .ok ()) (hno : noOverlaps T l = .ok true) :
    l.Pairwise fun a b => ∀ f g, Region T (l.map (·.location)) a.location f → Region T (l.map (·.location)) b.location g → Disjoint f g := by
  have hk : ∀ d ∈ l, Known T d.location := fun d hd => resolveRow_known hrow (List.mem_map.mpr ⟨d, hd, rfl⟩)
  have h1 := ((C35_no_overlaps T hT l hk).2.mp hno).1
  have h2 : (l.map (·.location)).Nodup := by
    unfold noGeoDuplicates at hgeo
    split at hgeo
    · cases hgeo
    · next hlen =>
      push Not at hlen
      rw [← List.dedup_eq_self]
      exact (List.dedup_sublist _).eq_of_length (by rw [← hlen, List.length_map])
  have h2' : l.Pairwise fun a b => a.location ≠ b.location := List.pairwise_map.mp h2
  have hin : ∀ d ∈ l, ∀ f i, HasFaces T d.location f → i ∈ f → InSome T (l.map (·.location)) i :=
    fun d hd f i hf hi => ⟨d.location, List.mem_map.mpr ⟨d, hd, rfl⟩, f, hf, hi⟩
  refine List.Pairwise.imp_of_mem ?_ (h1.and h2')
  intro a b ha hb hab f g hf hg
  obtain ⟨hd, hneq⟩ := hab
  unfold Region at hf hg
  by_cases hra : a.location = "RoW"
  · have hrb : b.location ≠ "RoW" := fun h => hneq (hra.trans h.symm)
    rw [if_pos hra] at hf
    rw [if_neg hrb] at hg
    obtain ⟨w, -, hf⟩ := hf
    rw [Finset.disjoint_left]
    exact fun i hi hig => ((hf i).mp hi).2 (hin b hb g i hg hig)
  · rw [if_neg hra] at hf
    by_cases hrb : b.location = "RoW"
    · rw [if_pos hrb] at hg
      obtain ⟨w, -, hg⟩ := hg
      rw [Finset.disjoint_left]
      exact fun i hi hig => ((hg i).mp hig).2 (hin a ha f i hf hi)
    · rw [if_neg hrb] at hg
      exact hd f g hf hg

theorem pairwise_get {α : Type} {R : α → α → Prop} (hs : ∀ a b, R a b → R b a) {l : List α} (h : l.Pairwise R) {i j : ℕ} {a b : α}
    (hi : l[i]? = some a) (hj : l[j]? = some b) (hij : i ≠ j) : R a b := by
  obtain ⟨hi', rfl⟩ := List.getElem?_eq_some_iff.mp hi
  obtain ⟨hj', rfl⟩ := List.getElem?_eq_some_iff.mp hj
  rw [List.pairwise_iff_getElem] at h
  rcases Nat.lt_or_gt_of_ne hij with hlt | hlt
  · exact h i j hi' hj' hlt
  · exact hs _ _ (h j i hj' hi' hlt)

theorem forall₂_get {α β : Type} {R : α → β → Prop} {l : List α} {r : List β} (h : List.Forall₂ R l r) {i : ℕ} {a : α} {b : β}
    (hi : l[i]? = some a) (hj : r[i]? = some b) : R a b := by
  obtain ⟨hi', rfl⟩ := List.getElem?_eq_some_iff.mp hi
  obtain ⟨hj', rfl⟩ := List.getElem?_eq_some_iff.mp hj
  exact (List.forall₂_iff_get.mp h).2 i hi' hj'

/-- C40: two different markets of one product that had no suppliers never list the same supplying activity at the
same location. -/
theorem C40_disjoint_suppliers (T : Topology) (hT : WellFormed T) (hne : NoEmptyPlaces T)
    (σ : Dataset → String → List String → List String) (hσ : IterationOrder σ) (from_ : DsType)
    (data out : List Dataset) (h : addSuppliersToMarkets T σ from_ .market data = .ok out)
    (i j : ℕ) (hij : i ≠ j) (a b a' b' : Dataset) (ha : data[i]? = some a) (hb : data[j]? = some b)
    (ha' : out[i]? = some a') (hb' : out[j]? = some b') (hat : a.type = .market) (hbt : b.type = .market)
    (has : a.suppliers.getD [] = []) (hbs : b.suppliers.getD [] = []) (hrp : a.refProduct = b.refProduct)
    (e e' : Exchange) (he : e ∈ a'.suppliers.getD []) (he' : e' ∈ b'.suppliers.getD []) :
    ¬ (e.activity = e'.activity ∧ e.location = e'.location) := by
  rintro ⟨hact, hloc⟩
  have hF := (addSuppliers_ok hT h).2
  have h1 := forall₂_get hF ha ha'
  have h2 := forall₂_get hF hb hb'
  rw [if_pos ⟨hat, has⟩] at h1
  rw [if_pos ⟨hbt, hbs⟩] at h2
  obtain ⟨r, row, hr, hma, hrow, hgeo, hno, hsa⟩ := h1
  obtain ⟨r', row', hr', hmb, hrow', -, -, hsb⟩ := h2
  rw [← hrp, hr] at hr'
  cases hr'
  obtain ⟨ca, ea, ha1, ha2, ha3, -⟩ := supplyConsumer_ok hT hne hσ hrow hma hsa
  obtain ⟨cb, eb, hb1, hb2, hb3, -⟩ := supplyConsumer_ok hT hne hσ hrow' hmb hsb
  rw [ha1, has] at he
  rw [hb1, hbs] at he'
  obtain ⟨d, hd, rp, -, hde⟩ := forall₂_mem_right ha2 (by simpa using he)
  obtain ⟨d', hd', rp', -, hde'⟩ := forall₂_mem_right hb2 (by simpa using he')
  rw [hde, hde'] at hact hloc
  have hname : d.name = d'.name := by simpa using hact
  have hl : d.location = d'.location := by simpa using hloc
  obtain ⟨fm, fs, hfm, hfs, hn, hsub⟩ := (ha3 d hd).2
  obtain ⟨fm', fs', hfm', hfs', -, hsub'⟩ := (hb3 d' hd').2
  rw [hname, hl] at hfs
  cases hfs.unique hT hfs'
  have hpw := waiting_disjoint hT hrow hgeo (hno rfl)
  rw [waiting, List.pairwise_filter, ← waiting] at hpw
  have hdis := pairwise_get (R := fun a b => decide (a.type = .market ∧ a.refProduct = some r ∧ a.suppliers.getD [] = []) = true →
      decide (b.type = .market ∧ b.refProduct = some r ∧ b.suppliers.getD [] = []) = true →
      ∀ f g, Region T ((waiting .market r data).map (·.location)) a.location f → Region T ((waiting .market r data).map (·.location)) b.location g → Disjoint f g)
    (fun a b hab hb ha f g hf hg => (hab ha hb g f hg hf).symm) hpw ha hb hij
    (by simp [hat, hr, has]) (by simp [hbt, ← hrp, hr, hbs]) fm fm' hfm hfm'
  obtain ⟨x, hx⟩ := hn
  exact Finset.disjoint_left.mp hdis (hsub hx) (hsub' hx)

/-! ## C74 -/

namespace Spec

/-- The product name of the recycled content cut-off of `r`. -/
def recycledName (r : String) : String := r ++ ", Recycled Content cut-off"

/-- The markets of one product. -/
def marketsFor (r : String) (data : List Dataset) : List Dataset :=
  data.filter fun d => decide (d.type = .market ∧ d.refProduct = some r)

end Spec

theorem recycledContent_ok {data rc : List Dataset} (h : recycledContentDatasets data = .ok rc) (r : String) :
    (rc.filter fun ds => ds.refProduct == some (r ++ rcString)) = producers .transforming (recycledName r) data := by
  unfold recycledContentDatasets at h
  have hall := filterE_ok_all h
  have hq := filterE_eq_filter (q := fun ds : Dataset => ds.type == .transforming && match ds.refProduct with
    | some r => rcString.toList.isSuffixOf r.toList
    | none => false) (l := data) (p := fun ds : Dataset => do
    if ds.type = .transforming then
      let r ← getKey ds.refProduct
      return rcString.toList.isSuffixOf r.toList
    else return false) (by
      intro ds hds
      obtain ⟨b, hb⟩ := hall ds hds
      by_cases ht : ds.type = .transforming
      · simp only [ht, if_true] at hb ⊢
        obtain ⟨x, hx, -⟩ := bind_eq_ok.mp hb
        rw [getKey_eq_ok.mp hx]
        rfl
      · simp only [ht, if_false]
        simp [ht])
  rw [hq] at h
  cases h
  rw [List.filter_filter]
  unfold producers
  apply List.filter_congr
  intro ds _
  rw [Bool.eq_iff_iff]
  simp only [Bool.and_eq_true, beq_iff_eq, decide_eq_true_eq]
  have hsuf : rcString.toList.isSuffixOf (r ++ rcString).toList = true := by
    rw [String.toList_append, List.isSuffixOf_iff_suffix]
    exact List.suffix_append _ _
  constructor
  · rintro ⟨h1, h2, h3⟩
    exact ⟨h2, h1⟩
  · rintro ⟨h1, h2⟩
    have h2 : ds.refProduct = some (r ++ rcString) := h2
    exact ⟨h2, h1, by rw [h2]; exact hsuf⟩

theorem addRecycled_ok {T : Topology} {σ : Dataset → String → List String → List String}
    {data out : List Dataset} (h : addRecycledContentSuppliers T σ data = .ok out) :
    List.Forall₂ (fun ds ds' =>
      if ds.type = .market then
        ∃ r b, ds.refProduct = some r ∧ ds ∈ marketsFor r data ∧ noOverlaps T (marketsFor r data) = .ok b ∧
          if producers .transforming (recycledName r) data = [] then ds' = ds
          else ∃ row, T.resolveRow ((marketsFor r data).map (·.location)) = .ok row ∧
            noGeoDuplicates (marketsFor r data) = .ok () ∧
            supplyConsumer T σ row (producers .transforming (recycledName r) data) ds = .ok ds'
      else ds' = ds) data out := by
  unfold addRecycledContentSuppliers at h
  obtain ⟨ws, hw, h⟩ := bind_eq_ok.mp h
  obtain ⟨rc, hrc, h⟩ := bind_eq_ok.mp h
  have hrp : ∀ d ∈ data, d.type = .market → d.refProduct.isSome := by
    intro d hd hty
    obtain ⟨w, -, hdw⟩ := forall₂_mem_left (mapE_ok_iff.mp hw) (List.mem_filter.mpr ⟨hd, by simpa using hty⟩)
    unfold withRefProduct at hdw
    obtain ⟨r, hr, -⟩ := bind_eq_ok.mp hdw
    rw [getKey_eq_ok.mp hr]
    rfl
  have hloop := groupLoop (fun t ds ds' hu => by
    unfold apportionUpd at hu
    rcases t with _ | a
    · cases hu; rfl
    · simp only at hu
      split at hu
      · unfold supplyConsumer at hu
        obtain ⟨new, -, hu⟩ := bind_eq_ok.mp hu
        cases hu
        rfl
      · cases hu; rfl) h
  refine (forall₂_with_mem hloop).imp ?_
  intro ds ds' hab
  obtain ⟨hd, hab⟩ := hab
  by_cases hm : ds.type = .market
  · rw [if_pos hm]
    obtain ⟨r, hr⟩ := Option.isSome_iff_exists.mp (hrp ds hd hm)
    have hk : productIf (fun ds : Dataset => ds.type == .market) ds = some r := by
      unfold productIf
      simp [hm, hr]
    rw [hk] at hab
    obtain ⟨t, ht, hu⟩ := hab
    have hgroup : (data.filter fun d => decide (productIf (fun ds : Dataset => ds.type == .market) d = some r)) = marketsFor r data := by
      unfold marketsFor productIf
      apply List.filter_congr
      intro d _
      by_cases hdm : d.type = .market <;> simp [hdm]
    have hmem : ds ∈ marketsFor r data := List.mem_filter.mpr ⟨hd, by simp [hm, hr]⟩
    rw [hgroup] at ht
    unfold recycledPrep at ht
    simp only [recycledContent_ok hrc] at ht
    obtain ⟨b, hb, ht⟩ := bind_eq_ok.mp ht
    refine ⟨r, b, hr, hmem, hb, ?_⟩
    by_cases h0 : producers .transforming (recycledName r) data = []
    · rw [if_pos h0] at ht ⊢
      cases ht
      cases hu
      rfl
    · rw [if_neg h0] at ht ⊢
      unfold apportionPrep at ht
      obtain ⟨u, hgeo, ht⟩ := bind_eq_ok.mp ht
      obtain ⟨row, hrow, ht⟩ := bind_eq_ok.mp ht
      cases ht
      unfold apportionUpd at hu
      exact ⟨row, hrow, hgeo, hu⟩
  · rw [if_neg hm]
    have hk : productIf (fun ds : Dataset => ds.type == .market) ds = none := by
      unfold productIf
      simp [hm]
    rw [hk] at hab
    exact hab

open Classical in
/-- C74: each market keeps its suppliers and additionally gets exactly one entry for each recycled content
activity of its product inside it (in the sense of C39); every other dataset is unchanged. At most one `RoW`
activity of each name is assumed, as in C39. -/
theorem C74_recycled_suppliers (T : Topology) (hT : WellFormed T) (hne : NoEmptyPlaces T)
    (σ : Dataset → String → List String → List String) (hσ : IterationOrder σ)
    (data out : List Dataset) (hrow : ∀ r, OneRow (producers .transforming (recycledName r) data))
    (h : addRecycledContentSuppliers T σ data = .ok out) :
    List.Forall₂ (fun ds ds' =>
      if ds.type = .market then
        ∃ r chosen entries, ds.refProduct = some r ∧ List.Forall₂ Describes chosen entries ∧
          chosen.Perm ((producers .transforming (recycledName r) data).filter fun d =>
            Inside T (marketsFor r data) (producers .transforming (recycledName r) data) ds d) ∧
          { ds' with suppliers := none } = { ds with suppliers := none } ∧
          ds'.suppliers.getD [] = ds.suppliers.getD [] ++ entries
      else ds' = ds) data out := by
  refine (addRecycled_ok h).imp ?_
  intro ds ds' hab
  by_cases hm : ds.type = .market
  · rw [if_pos hm] at hab ⊢
    obtain ⟨r, b, hr, hmem, hno, hab⟩ := hab
    by_cases h0 : producers .transforming (recycledName r) data = []
    · rw [if_pos h0] at hab
      subst hab
      refine ⟨r, [], [], hr, .nil, ?_, rfl, by simp⟩
      rw [h0]
      simp
    · rw [if_neg h0] at hab
      obtain ⟨row, hrow', -, hs⟩ := hab
      obtain ⟨chosen, entries, h1, h2, -, h4⟩ := supplyConsumer_ok hT hne hσ hrow' hmem hs
      exact ⟨r, chosen, entries, hr, h2, h4 (hrow r), by rw [h1], by rw [h1]; rfl⟩
  · rw [if_neg hm] at hab ⊢
    exact hab

/-- A recycled content activity and two markets. -/
def exampleRecycled : List Dataset :=
  [{ exampleSupplier "p, Recycled Content cut-off" "UCTE" 1 with refProduct := some "p, Recycled Content cut-off" }, exampleMarketAt "RER", exampleMarketAt "RoW"]

example : ∀ r, OneRow (producers .transforming (recycledName r) exampleRecycled) := by
  intro r n
  unfold producers placesNamed exampleRecycled
  simp only [List.filter_cons, List.filter_nil, exampleSupplier, exampleMarketAt]
  by_cases hr : some "p, Recycled Content cut-off" = some (recycledName r) <;> by_cases ha : "p, Recycled Content cut-off" = n <;> simp [hr, ha] <;>
    split <;> simp [ha]
example : (addRecycledContentSuppliers exampleSupplyTopology (fun _ _ l => l) exampleRecycled).map
    (fun l => l.map fun d => (d.suppliers.map fun l => l.map fun e => (e.activity, e.location))) =
    .ok [none, some [(some "p, Recycled Content cut-off", some "UCTE")], some []] := by decide +kernel

/-! ## C75, C76: the preparatory clean-up of markets and confidential activities -/

/-- C75: exactly the global markets on the white list are removed, whatever their production volume. -/
theorem C75_whitelisted (data out : List Dataset) (h : deleteWhitelistedMarkets data = .ok out) :
    out.Sublist data ∧ ∀ ds ∈ data, (ds ∈ out ↔ ¬ (ds.type = .market ∧ ds.location = "GLO" ∧ ds.name ∈ canDeleteMarkets)) := by
  unfold deleteWhitelistedMarkets at h
  obtain ⟨w, -, h⟩ := bind_eq_ok.mp h
  cases h
  refine ⟨List.filter_sublist, fun ds hds => ?_⟩
  rw [List.mem_filter]
  unfold isWhitelisted
  simp only [hds, true_and, Bool.not_eq_true', ← Bool.not_eq_true, Bool.and_eq_true, beq_iff_eq, List.contains_iff_mem]
  tauto

/-- C75: a regional market is never removed, and neither is a transforming activity. -/
theorem C75_others_kept (data out : List Dataset) (h : deleteWhitelistedMarkets data = .ok out) (ds : Dataset) (hds : ds ∈ data)
    (hk : ds.location ≠ "GLO" ∨ ds.type ≠ .market) : ds ∈ out := by
  rw [(C75_whitelisted data out h).2 ds hds]
  tauto

/-- A market that is on the list although it has a production volume, and one that is not on the list. -/
def exampleWhitelist : List Dataset :=
  [{ exampleMarketAt "GLO" with name := "market for refinery gas", exchanges := [{ name := "p", type := .referenceProduct, amount := 1, pv := some { amount := 7 } }] }, exampleMarketAt "GLO"]

/-- C75: the name of the function promises zero volume markets, but volumes are not looked at. -/
theorem C75_volume_ignored : (exampleWhitelist.map productionVolume = [some 7, some 0]) ∧
    deleteWhitelistedMarkets exampleWhitelist = .ok [exampleMarketAt "GLO"] := by
  constructor <;> decide +kernel

/-- C76: confidential activities get a reference production volume of exactly one, so that they can supply
markets; nothing else changes. -/
theorem C76_confidential (data out : List Dataset) (h : assignFakePvToConfidential data = .ok out) :
    List.Forall₂ (fun ds ds' =>
      if ds.type = .transforming ∧ ds.name ∈ confidentialNames then
        ∃ rp pv, refs ds = [rp] ∧ rp.pv = some pv ∧ productionVolume ds' = some 1 ∧
          ds' = { ds with exchanges := ds.exchanges.map fun e => if e.type = .referenceProduct then { e with pv := some { pv with amount := 1 } } else e }
      else ds' = ds) data out := by
  unfold assignFakePvToConfidential at h
  refine (mapE_ok_iff.mp h).imp ?_
  intro ds ds' hab
  unfold assignFakePv at hab
  simp only [List.contains_iff_mem] at hab
  by_cases hc : ds.type = .transforming ∧ ds.name ∈ confidentialNames
  · rw [if_pos hc] at hab ⊢
    obtain ⟨rp, hrp, hab⟩ := bind_eq_ok.mp hab
    obtain ⟨pv, hpv, hab⟩ := bind_eq_ok.mp hab
    have hrefs := getSingle_ok.mp hrp
    have hpv' := getKey_eq_ok.mp hpv
    cases hab
    have hmap : ds.exchanges.map (mapRefVolume unitVolume) = ds.exchanges.map fun e => if e.type = .referenceProduct then { e with pv := some { pv with amount := 1 } } else e := by
      apply List.map_congr_left
      intro e he
      unfold mapRefVolume
      by_cases ht : e.type = .referenceProduct
      · rw [if_pos ht, if_pos ht]
        have : e ∈ refs ds := List.mem_filter.mpr ⟨he, by simpa using ht⟩
        rw [hrefs, List.mem_singleton] at this
        subst this
        rw [hpv']
        rfl
      · rw [if_neg ht, if_neg ht]
    refine ⟨rp, pv, hrefs, hpv', ?_, by rw [hmap]⟩
    unfold productionVolume referenceProducts
    simp only
    have : (ds.exchanges.map (mapRefVolume unitVolume)).filter (fun e => e.type == .referenceProduct) = [{ rp with pv := some { pv with amount := 1 } }] := by
      rw [List.filter_map]
      have hcomp : ((fun e : Exchange => e.type == .referenceProduct) ∘ mapRefVolume unitVolume) = fun e => e.type == .referenceProduct := by
        funext e
        simp only [Function.comp, mapRefVolume]
        split <;> rfl
      rw [hcomp]
      have : ds.exchanges.filter (fun e => e.type == .referenceProduct) = [rp] := hrefs
      rw [this]
      have ht : rp.type = .referenceProduct := by
        have : rp ∈ refs ds := by rw [hrefs]; simp
        simpa using (List.mem_filter.mp this).2
      simp [mapRefVolume, ht, hpv', unitVolume]
    rw [this]
    rfl
  · rw [if_neg hc] at hab ⊢
    cases hab
    rfl

example : (assignFakePvToConfidential [exampleSupplier "latex production" "GLO" 0, exampleSupplier "a" "GLO" 0]).map (fun l => l.map productionVolume) =
    .ok [some 1, some 0] := by decide +kernel

end Ocelot
