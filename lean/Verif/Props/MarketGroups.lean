import Verif.Model.MarketGroups
import Verif.Props.MarketSuppliers

/-! # Property C45: suppliers of market groups -/

set_option linter.unusedSimpArgs false

namespace Ocelot
open Spec

/-! ## Specification -/

namespace Spec

/-- Two datasets have no face in common (`RoW` has no faces of its own). -/
def Apart (T : Topology) (a b : Dataset) : Prop :=
  ∀ f g, HasFaces T a.location f → HasFaces T b.location g → Disjoint f g

/-- `s` is the place of a market for `r`, or of a market group for `r` elsewhere than at `loc`. -/
def CandidatePlace (data : List Dataset) (r loc s : String) : Prop :=
  (∃ d ∈ data, d.type = .market ∧ d.refProduct = some r ∧ d.location = s) ∨
  (s ≠ loc ∧ ∃ d ∈ data, d.type = .marketGroup ∧ d.refProduct = some r ∧ d.location = s)

/-- The dataset `ds` at position `i` is a market group, the last one with its product and place. -/
def LastGroup (data : List Dataset) (i : ℕ) (ds : Dataset) : Prop :=
  ds.type = .marketGroup ∧ ∀ (j : ℕ) (d : Dataset), i < j → data[j]? = some d →
    ¬ (d.type = .marketGroup ∧ d.refProduct = ds.refProduct ∧ d.location = ds.location)

/-- A correct choice of suppliers for the market group `ds` with product `r`. -/
structure GoodChoice (T : Topology) (data : List Dataset) (r : String) (ds : Dataset) (chosen : List Dataset) : Prop where
  /-- markets, or market groups at other places, of the same product -/
  product : ∀ d ∈ chosen, d ∈ data ∧ d.refProduct = some r ∧
    (d.type = .market ∨ (d.type = .marketGroup ∧ d.location ≠ ds.location))
  /-- inside the group -/
  inside : ∀ d ∈ chosen, ∀ f g, HasFaces T d.location f → HasFaces T ds.location g → f ⊆ g
  /-- at most one supplier per place, and no overlaps -/
  places : (chosen.map (·.location)).Nodup
  apart : chosen.Pairwise (Apart T)
  /-- a candidate inside the group that was not chosen overlaps with a chosen one that is larger -/
  maximal : ∀ s f g, CandidatePlace data r ds.location s → HasFaces T s f → HasFaces T ds.location g → f ⊆ g →
    (∃ d ∈ chosen, d.location = s) ∨ ∃ d ∈ chosen, Before T none d.location s ∧ ∃ h, HasFaces T d.location h ∧ ¬ Disjoint h f
  /-- a market is preferred to a market group at the same place -/
  preferred : ∀ d ∈ chosen, d.type = .marketGroup → ¬ ∃ m ∈ data, m.type = .market ∧ m.refProduct = some r ∧ m.location = d.location
  /-- the `RoW` market supplies at most the global group -/
  row : ∀ d ∈ chosen, d.location = "RoW" → ds.location = "GLO"

end Spec

theorem before_named {T : Topology} {row row' : Option (Finset ℕ)} {a b : String} (ha : a ≠ "RoW") (hb : b ≠ "RoW")
    (h : Before T row a b) : Before T row' a b := by
  intro fa fb hfa hfb
  unfold SortFaces at hfa hfb
  rw [if_neg ha] at hfa
  rw [if_neg hb] at hfb
  exact h fa fb (by unfold SortFaces; rw [if_neg ha]; exact hfa) (by unfold SortFaces; rw [if_neg hb]; exact hfb)

theorem placesOf_ok {kind : DsType} {r : String} {data : List Dataset} {l : List (String × Dataset)}
    (h : placesOf kind r data = .ok l) : l = byLocation (producers kind r data) := by
  unfold placesOf at h
  obtain ⟨w, hw, h⟩ := bind_eq_ok.mp h
  cases h
  congr 1
  have hF := mapE_ok_iff.mp hw
  have : ∀ (ds : List Dataset) (w : List (String × Dataset)), List.Forall₂ (fun d p => withRefProduct d = .ok p) ds w →
      (w.filter fun p => p.1 == r).map (·.2) = ds.filter fun d => d.refProduct == some r := by
    intro ds w hF
    induction hF with
    | nil => rfl
    | @cons d p ds w hdp _ ih =>
      unfold withRefProduct at hdp
      obtain ⟨x, hx, hdp⟩ := bind_eq_ok.mp hdp
      cases hdp
      have hx := getKey_eq_ok.mp hx
      by_cases hr : x = r
      · subst hr
        simp [List.filter_cons, hx, ih]
      · simp [List.filter_cons, hx, hr, ih]
  rw [this _ _ hF, List.filter_filter]
  unfold producers
  apply List.filter_congr
  intro d _
  rw [Bool.eq_iff_iff]
  simp
  tauto

theorem mem_places {kind : DsType} {r s : String} {data : List Dataset} :
    s ∈ (byLocation (producers kind r data)).map (·.1) ↔ ∃ d ∈ data, d.type = kind ∧ d.refProduct = some r ∧ d.location = s := by
  unfold byLocation
  rw [dictOf_keys_mem]
  unfold producers
  constructor
  · rintro ⟨d, hd, hs⟩
    obtain ⟨h1, h2⟩ := List.mem_filter.mp hd
    simp at h2
    exact ⟨d, h1, h2.1, h2.2, hs⟩
  · rintro ⟨d, h1, h2, h3, hs⟩
    exact ⟨d, List.mem_filter.mpr ⟨h1, by simp [h2, h3]⟩, hs⟩

/-- What holds after the candidates `pre` have been looked at. -/
def ChoiceInv (T : Topology) (row : Finset ℕ) (isMarket : String → Prop) (loc : String) (pre found : List String) : Prop :=
  (∀ s ∈ found, s ∈ pre ∧ (isMarket s ∨ s ≠ loc)) ∧
  (∀ s ∈ found, ∀ f g, HasFaces T s f → HasFaces T loc g → f ⊆ g) ∧
  found.Nodup ∧
  (found.Pairwise fun s t => ∀ f g, HasFaces T s f → HasFaces T t g → Disjoint f g) ∧
  (∀ s ∈ pre, ∀ f g, (isMarket s ∨ s ≠ loc) → HasFaces T s f → HasFaces T loc g → f ⊆ g →
    s ∈ found ∨ ∃ c ∈ found, Before T (some row) c s ∧ ∃ h, HasFaces T c h ∧ ¬ Disjoint h f) ∧
  ("RoW" ∈ found → loc = "GLO")

theorem choose_ok {T : Topology} (hT : WellFormed T) {row : Finset ℕ} {markets : List (String × Dataset)} {loc : String}
    (hloc : loc ≠ "RoW") {locations ordered found : List String} (ho : T.orderedDependencies locations (some row) = .ok ordered)
    (hl : loc ∈ locations) (h : foldE (chooseStep T row markets loc) [] ordered = .ok found) :
    ChoiceInv T row (fun s => s ∈ markets.map (·.1)) loc ordered found := by
  obtain ⟨hnd, hmem, hpw⟩ := C36_order T hT locations (some row) ordered ho
  have hfaces : ∀ s ∈ ordered, s ≠ "RoW" → ∃ f, HasFaces T s f := by
    intro s hs hsr
    obtain ⟨f, hf⟩ := ordered_faces hT ho ((hmem s).mp hs)
    unfold SortFaces at hf
    rw [if_neg hsr] at hf
    exact ⟨f, hf⟩
  obtain ⟨g, hg⟩ := hfaces loc ((hmem loc).mpr hl) hloc
  refine foldE_inv' (I := ChoiceInv T row (fun s => s ∈ markets.map (·.1)) loc) h ?_ ?_
  · exact ⟨by simp, by simp, by simp, by simp, by simp, by simp⟩
  · intro pre s post found found' hl hI hstep
    obtain ⟨h1, h2, h3, h4, h5, h6⟩ := hI
    have hs : s ∈ ordered := by rw [hl]; simp
    have hsn : s ∉ pre := by
      intro hm
      rw [hl] at hnd
      exact (List.nodup_append.mp hnd).2.2 s hm s (by simp) rfl
    have hbef : ∀ c ∈ pre, Before T (some row) c s := by
      intro c hc
      rw [hl] at hpw
      exact (List.pairwise_append.mp hpw).2.2 c hc s (by simp)
    have hknown : ∀ x ∈ ((some found).getD [] : List String), Known T x := by
      intro x hx
      by_cases hxr : x = "RoW"
      · exact Or.inl hxr
      · exact Or.inr (hfaces x (by rw [hl]; simp [(h1 x hx).1]) hxr)
    unfold chooseStep at hstep
    obtain ⟨b, hb, hstep⟩ := bind_eq_ok.mp hstep
    by_cases hsr : s = "RoW"
    · subst hsr
      rw [(C32_row_rules T (some found) (some row)).1 (.name loc)] at hb
      by_cases hc : b = true ∧ ("RoW" ∈ markets.map (·.1) ∨ "RoW" ≠ loc)
      · rw [if_pos hc] at hstep
        cases hstep
        have hb := Except.ok.inj hb
        rw [hc.1, decide_eq_true_eq] at hb
        obtain ⟨hb1, hb2⟩ := hb
        have hb2 : found = [] := hb2
        subst hb2
        have hglo : loc = "GLO" := by simpa using hb1
        refine ⟨by simp; tauto, ?_, by simp, by simp, ?_, fun _ => hglo⟩
        · intro x hx f g hf
          simp at hx
          exact absurd hx (hf.ne hT)
        · intro x hx f g hcand hf hg hsub
          rcases List.mem_append.mp hx with hx | hx
          · rcases h5 x hx f g hcand hf hg hsub with h | ⟨c, hc, -⟩
            · cases h
            · cases hc
          · simp at hx
            exact absurd hx (hf.ne hT)
      · rw [if_neg hc] at hstep
        cases hstep
        refine ⟨fun x hx => ⟨by simp [(h1 x hx).1], (h1 x hx).2⟩, h2, h3, h4, ?_, h6⟩
        intro x hx f g hcand hf hg hsub
        rcases List.mem_append.mp hx with hx | hx
        · exact h5 x hx f g hcand hf hg hsub
        · simp at hx
          exact absurd hx (hf.ne hT)
    · obtain ⟨fs, hfs⟩ := hfaces s hs hsr
      obtain ⟨b', hb', hiff⟩ := C32_named T hT loc s g fs hg hfs (some found) hknown (some row)
      rw [hb'] at hb
      cases hb
      by_cases hc : b = true ∧ (s ∈ markets.map (·.1) ∨ s ≠ loc)
      · rw [if_pos hc] at hstep
        cases hstep
        have hin := hiff.mp hc.1
        refine ⟨?_, ?_, ?_, ?_, ?_, ?_⟩
        · intro x hx
          rcases List.mem_append.mp hx with hx | hx
          · exact ⟨by simp [(h1 x hx).1], (h1 x hx).2⟩
          · simp at hx
            subst hx
            exact ⟨by simp, hc.2⟩
        · intro x hx f g' hf hg'
          rcases List.mem_append.mp hx with hx | hx
          · exact h2 x hx f g' hf hg'
          · simp at hx
            subst hx
            cases hf.unique hT hfs
            cases hg'.unique hT hg
            exact fun i hi => (hin i hi).1
        · rw [List.nodup_append]
          refine ⟨h3, by simp, ?_⟩
          intro x hx y hy hxy
          simp at hy
          subst hy hxy
          exact hsn (h1 _ hx).1
        · rw [List.pairwise_append]
          refine ⟨h4, by simp, ?_⟩
          intro x hx y hy f f' hf hf'
          simp at hy
          subst hy
          cases hf'.unique hT hfs
          rw [Finset.disjoint_left]
          exact fun i hi hi' => (hin i hi').2 ⟨x, hx, f, hf, hi⟩
        · intro x hx f g' hcand hf hg' hsub
          rcases List.mem_append.mp hx with hx | hx
          · rcases h5 x hx f g' hcand hf hg' hsub with h | ⟨c, hcf, hrest⟩
            · exact Or.inl (by simp [h])
            · exact Or.inr ⟨c, by simp [hcf], hrest⟩
          · simp at hx
            subst hx
            exact Or.inl (by simp)
        · intro hm
          rcases List.mem_append.mp hm with hm | hm
          · exact h6 hm
          · simp at hm
            exact absurd hm.symm hsr
      · rw [if_neg hc] at hstep
        cases hstep
        refine ⟨fun x hx => ⟨by simp [(h1 x hx).1], (h1 x hx).2⟩, h2, h3, h4, ?_, h6⟩
        intro x hx f g' hcand hf hg' hsub
        rcases List.mem_append.mp hx with hx | hx
        · exact h5 x hx f g' hcand hf hg' hsub
        · simp at hx
          subst hx
          cases hf.unique hT hfs
          cases hg'.unique hT hg
          right
          have hbf : ¬ ∀ i ∈ fs, i ∈ g ∧ ¬ InSome T ((some found).getD []) i := fun hall => hc ⟨hiff.mpr hall, hcand⟩
          push Not at hbf
          obtain ⟨i, hi, hni⟩ := hbf
          obtain ⟨c, hcf, fc, hfc, hic⟩ := hni (hsub hi)
          refine ⟨c, hcf, hbef c (h1 c hcf).1, fc, hfc, ?_⟩
          rw [Finset.not_disjoint_iff]
          exact ⟨i, hic, hi⟩

theorem groupEntries_ok {chosen : List Dataset} {entries : List Exchange} (h : groupEntries chosen = .ok entries) :
    ∃ sorted, sorted.Perm chosen ∧ List.Forall₂ Describes sorted entries ∧
      (sorted.map (·.code)).Pairwise fun a b => ∃ x y, a = some x ∧ b = some y ∧ x ≤ y := by
  unfold groupEntries at h
  obtain ⟨keyed, hk, h⟩ := bind_eq_ok.mp h
  have hF := mapE_ok_iff.mp hk
  have hkeyed : ∀ p ∈ keyed, p.2.code = some p.1 := by
    intro p hp
    obtain ⟨d, -, hd⟩ := forall₂_mem_right hF hp
    unfold withCode at hd
    obtain ⟨c, hc, hd⟩ := bind_eq_ok.mp hd
    cases hd
    exact getKey_eq_ok.mp hc
  have hmap : keyed.map (·.2) = chosen := by
    have := forall₂_map_eq' hF (p := fun d => d) (q := fun p : String × Dataset => p.2) (fun d p hdp => by
      unfold withCode at hdp
      obtain ⟨c, hc, hdp⟩ := bind_eq_ok.mp hdp
      cases hdp
      rfl)
    rw [← this, List.map_id']
  have hperm := List.perm_insertionSort (fun a b : String × Dataset => a.1 ≤ b.1) keyed
  have hsorted : (keyed.insertionSort fun a b => a.1 ≤ b.1).Pairwise fun a b => a.1 ≤ b.1 := by
    have : Std.Total fun a b : String × Dataset => a.1 ≤ b.1 := ⟨fun a b => le_total _ _⟩
    have : IsTrans (String × Dataset) fun a b => a.1 ≤ b.1 := ⟨fun a b c => le_trans⟩
    exact List.pairwise_insertionSort _ _
  refine ⟨(keyed.insertionSort fun a b => a.1 ≤ b.1).map (·.2), ?_, ?_, ?_⟩
  · rw [← hmap]
    exact hperm.map _
  · rw [List.forall₂_map_left_iff]
    exact (mapE_ok_iff.mp h).imp fun p e hpe => supplierEntry_ok hpe
  · rw [List.map_map, List.pairwise_map]
    refine List.Pairwise.imp_of_mem ?_ hsorted
    intro a b ha hb hab
    exact ⟨a.1, b.1, hkeyed a (hperm.mem_iff.mp ha), hkeyed b (hperm.mem_iff.mp hb), hab⟩

theorem linkMarketGroup_ok {T : Topology} (hT : WellFormed T) {data : List Dataset} {r : String} {ds ds' : Dataset}
    (hd : ds ∈ data) (hty : ds.type = .marketGroup) (hr : ds.refProduct = some r) (hloc : ds.location ≠ "RoW")
    (h : linkMarketGroup T data r ds = .ok ds') :
    ∃ chosen entries, GoodChoice T data r ds chosen ∧ List.Forall₂ Describes chosen entries ∧
      ds' = { ds with suppliers := if entries = [] then none else some entries } ∧
      (chosen.map (·.code)).Pairwise fun a b => ∃ x y, a = some x ∧ b = some y ∧ x ≤ y := by
  unfold linkMarketGroup at h
  obtain ⟨markets, hm, h⟩ := bind_eq_ok.mp h
  obtain ⟨groups, hg, h⟩ := bind_eq_ok.mp h
  obtain ⟨row, hrow, h⟩ := bind_eq_ok.mp h
  obtain ⟨ordered, ho, h⟩ := bind_eq_ok.mp h
  obtain ⟨found, hf, h⟩ := bind_eq_ok.mp h
  obtain ⟨chosen, hc, h⟩ := bind_eq_ok.mp h
  obtain ⟨entries, he, h⟩ := bind_eq_ok.mp h
  cases h
  have hm' := placesOf_ok hm
  have hg' := placesOf_ok hg
  subst hm' hg'
  have hl : ds.location ∈ (byLocation (producers .market r data)).map (·.1) ++ (byLocation (producers .marketGroup r data)).map (·.1) :=
    List.mem_append.mpr (Or.inr (mem_places.mpr ⟨ds, hd, hty, hr, rfl⟩))
  obtain ⟨i1, i2, i3, i4, i5, i6⟩ := choose_ok hT hloc ho hl hf
  obtain ⟨hnd, hmem, -⟩ := C36_order T hT _ _ _ ho
  -- the chosen datasets
  have hat : ∀ s d, candidateAt (byLocation (producers .market r data)) (byLocation (producers .marketGroup r data)) s = .ok d →
      d ∈ data ∧ d.refProduct = some r ∧ d.location = s ∧
      (d.type = .market ∨ (d.type = .marketGroup ∧ s ∉ (byLocation (producers .market r data)).map (·.1))) := by
    intro s d hsd
    unfold candidateAt at hsd
    by_cases hs : s ∈ (byLocation (producers .market r data)).map (·.1)
    · rw [if_pos hs] at hsd
      obtain ⟨l₁, l₂, hl, hk, -⟩ := lookup_byLocation.mp (getKey_eq_ok.mp hsd)
      have : d ∈ producers .market r data := by rw [hl]; simp
      obtain ⟨h1, h2⟩ := List.mem_filter.mp this
      simp at h2
      exact ⟨h1, h2.2, hk, Or.inl h2.1⟩
    · rw [if_neg hs] at hsd
      obtain ⟨l₁, l₂, hl, hk, -⟩ := lookup_byLocation.mp (getKey_eq_ok.mp hsd)
      have : d ∈ producers .marketGroup r data := by rw [hl]; simp
      obtain ⟨h1, h2⟩ := List.mem_filter.mp this
      simp at h2
      exact ⟨h1, h2.2, hk, Or.inr ⟨h2.1, hs⟩⟩
  have hF := mapE_ok_iff.mp hc
  have hlocs : chosen.map (·.location) = found := by
    have := forall₂_map_eq' hF (p := fun s => s) (q := fun d : Dataset => d.location) (fun s d hsd => (hat s d hsd).2.2.1.symm)
    rw [← this, List.map_id']
  have hch : ∀ d ∈ chosen, d ∈ data ∧ d.refProduct = some r ∧ d.location ∈ found ∧
      (d.type = .market ∨ (d.type = .marketGroup ∧ d.location ∉ (byLocation (producers .market r data)).map (·.1))) := by
    intro d hd
    obtain ⟨s, hs, hsd⟩ := forall₂_mem_right hF hd
    obtain ⟨h1, h2, h3, h4⟩ := hat s d hsd
    rw [h3]
    exact ⟨h1, h2, hs, h4⟩
  obtain ⟨sorted, hp, hdes, hsc⟩ := groupEntries_ok he
  refine ⟨sorted, entries, ?_, hdes, rfl, hsc⟩
  have hps : ∀ d, d ∈ sorted ↔ d ∈ chosen := fun d => hp.mem_iff
  constructor
  · intro d hd
    obtain ⟨h1, h2, h3, h4⟩ := hch d ((hps d).mp hd)
    refine ⟨h1, h2, ?_⟩
    rcases h4 with h4 | ⟨h4, h5⟩
    · exact Or.inl h4
    · exact Or.inr ⟨h4, (i1 _ h3).2.resolve_left h5⟩
  · intro d hd f g hf hg
    exact i2 _ (hch d ((hps d).mp hd)).2.2.1 f g hf hg
  · exact (hp.map (·.location)).nodup_iff.mpr (hlocs ▸ i3)
  · rw [hp.pairwise_iff (fun hab f g hf hg => (hab g f hg hf).symm)]
    rw [← hlocs, List.pairwise_map] at i4
    exact i4
  · intro s f g hcand hf hg hsub
    have hs : s ∈ ordered := by
      rw [hmem, List.mem_append]
      rcases hcand with ⟨d, h1, h2, h3, h4⟩ | ⟨-, d, h1, h2, h3, h4⟩
      · exact Or.inl (mem_places.mpr ⟨d, h1, h2, h3, h4⟩)
      · exact Or.inr (mem_places.mpr ⟨d, h1, h2, h3, h4⟩)
    have hcond : s ∈ (byLocation (producers .market r data)).map (·.1) ∨ s ≠ ds.location := by
      rcases hcand with ⟨d, h1, h2, h3, h4⟩ | ⟨h, -⟩
      · exact Or.inl (mem_places.mpr ⟨d, h1, h2, h3, h4⟩)
      · exact Or.inr h
    have hback : ∀ c ∈ found, ∃ d ∈ sorted, d.location = c := by
      intro c hc
      rw [← hlocs] at hc
      obtain ⟨d, hd, rfl⟩ := List.mem_map.mp hc
      exact ⟨d, (hps d).mpr hd, rfl⟩
    rcases i5 s hs f g hcond hf hg hsub with h | ⟨c, hc, hb, fc, hfc, hdis⟩
    · exact Or.inl (hback s h)
    · obtain ⟨d, hd, rfl⟩ := hback c hc
      exact Or.inr ⟨d, hd, before_named (hfc.ne hT) (hf.ne hT) hb, fc, hfc, hdis⟩
  · rintro d hd hdt ⟨m, h1, h2, h3, h4⟩
    rcases (hch d ((hps d).mp hd)).2.2.2 with h | ⟨-, h⟩
    · rw [h] at hdt; cases hdt
    · exact h (mem_places.mpr ⟨m, h1, h2, h3, h4⟩)
  · intro d hd hdr
    exact i6 (hdr ▸ (hch d ((hps d).mp hd)).2.2.1)

/-! ## C45 -/

/-- C45: every market group that is the last of its product and location gets suppliers that describe a good choice (same
product, inside the group, not overlapping, not the group itself, and maximal), in the order of their codes; all other datasets are unchanged. -/
theorem C45_good_choice_partial (T : Topology) (hT : WellFormed T) (data out : List Dataset)
    (hrow : ∀ ds ∈ data, ds.type = .marketGroup → ds.location ≠ "RoW") (h : linkMarketGroupSuppliers T data = .ok out) :
    out.length = data.length ∧ ∀ (i : ℕ) (ds ds' : Dataset), data[i]? = some ds → out[i]? = some ds' →
      (LastGroup data i ds → ∃ r chosen entries, ds.refProduct = some r ∧ GoodChoice T data r ds chosen ∧
        List.Forall₂ Describes chosen entries ∧ ds' = { ds with suppliers := if entries = [] then none else some entries } ∧
        (chosen.map (·.code)).Pairwise fun a b => ∃ x y, a = some x ∧ b = some y ∧ x ≤ y) ∧
      (¬ LastGroup data i ds → ds' = ds) := by
  unfold linkMarketGroupSuppliers at h
  obtain ⟨u, -, h⟩ := bind_eq_ok.mp h
  obtain ⟨hlen, hget⟩ := mapE_zipIdx h
  refine ⟨hlen, fun i ds ds' hd hd' => ?_⟩
  obtain ⟨b, hb, hfb⟩ := hget i ds hd
  rw [hd'] at hb
  cases hb
  have hshadow : isShadowed data i ds = false ↔ ∀ (j : ℕ) (d : Dataset), i < j → data[j]? = some d →
      ¬ (d.type = .marketGroup ∧ d.refProduct = ds.refProduct ∧ d.location = ds.location) := by
    unfold isShadowed
    rw [List.any_eq_false]
    constructor
    · intro hall j d hij hj hcon
      refine hall d ?_ (by simp [hcon])
      rw [List.mem_iff_getElem?]
      exact ⟨j - (i + 1), by rw [List.getElem?_drop, show i + 1 + (j - (i + 1)) = j by omega]; exact hj⟩
    · intro hall d hdm hcon
      obtain ⟨k, hk⟩ := List.mem_iff_getElem?.mp hdm
      rw [List.getElem?_drop] at hk
      refine hall _ d (by omega) hk ?_
      simp at hcon
      tauto
  have hiff : (ds.type = .marketGroup ∧ isShadowed data i ds = false) ↔ LastGroup data i ds := by rw [hshadow]; rfl
  constructor
  · intro hc
    rw [if_pos (hiff.mpr hc)] at hfb
    obtain ⟨r, hr, hfb⟩ := bind_eq_ok.mp hfb
    have hr := getKey_eq_ok.mp hr
    have hmem := List.mem_of_getElem? hd
    obtain ⟨chosen, entries, h1, h2, h3, h4⟩ := linkMarketGroup_ok hT hmem hc.1 hr (hrow ds hmem hc.1) hfb
    exact ⟨r, chosen, entries, hr, h1, h2, h3, h4⟩
  · intro hc
    rw [if_neg (fun h => hc (hiff.mp h))] at hfb
    cases hfb
    rfl

/-- A market group for `p`. -/
def exampleGroupAt (location : String) : Dataset :=
  { exampleMarketAt location with name := "market group for p", type := .marketGroup, code := some ("g" ++ location) }

/-- A market with a code. -/
def exampleCoded (location : String) : Dataset := { exampleMarketAt location with code := some ("m" ++ location), exchanges := [{ name := "p", type := .referenceProduct, amount := 1, pv := some { amount := 5 } }] }

/-- Five places. -/
def exampleWorld : Topology := { data := [("GLO", {1, 2, 3, 4}), ("RER", {1, 2}), ("FR", {1}), ("DE", {2}), ("US", {3})] }

/-- The places of the suppliers. -/
def supplierPlaces (r : Except Err (List Dataset)) : Except Err (List (List (Option String))) :=
  r.map fun l => l.map fun d => (d.suppliers.getD []).map (·.location)

/-- Two market groups, one inside the other. -/
def exampleNested : List Dataset :=
  [exampleGroupAt "GLO", exampleGroupAt "RER", exampleCoded "FR", exampleCoded "DE", exampleCoded "US"]

example : WellFormed exampleWorld := by constructor <;> decide +kernel
example : ∀ ds ∈ exampleNested, ds.type = .marketGroup → ds.location ≠ "RoW" := by decide +kernel
example : supplierPlaces (linkMarketGroupSuppliers exampleWorld exampleNested) =
    .ok [[some "RER", some "US"], [some "DE", some "FR"], [], [], []] := by decide +kernel

/-- C45 fails for the rest of the world: the `RoW` market is missing from the global group as soon as some larger
supplier has been found. -/
theorem C45_row_missing : supplierPlaces (linkMarketGroupSuppliers exampleWorld (exampleNested ++ [exampleCoded "RoW"])) =
    .ok [[some "RER", some "US"], [some "DE", some "FR"], [], [], [], []] := by decide +kernel

/-- C45 fails for the rest of the world: if the `RoW` market comes first, a market group that overlaps with it is
chosen too (`DE` belongs both to the rest of the world and to `RER`). -/
theorem C45_row_overlap :
    supplierPlaces (linkMarketGroupSuppliers exampleWorld [exampleGroupAt "GLO", exampleGroupAt "RER", exampleCoded "FR", exampleCoded "RoW"]) =
      .ok [[some "RER", some "RoW"], [some "FR"], [], []] ∧
    (∃ row, exampleWorld.resolveRow ["FR", "RoW"] = .ok row ∧ 2 ∈ row ∧ HasFaces exampleWorld "RER" {1, 2}) := by
  refine ⟨by decide +kernel, {2, 3, 4}, by decide +kernel, by decide, ?_⟩
  unfold HasFaces exampleWorld
  simp

/-! ## C77: the check that the preceding theorem relies on -/

/-- C77: the check passes exactly if no market group is located in `RoW`, and changes nothing. -/
theorem C77_no_row_groups (data : List Dataset) :
    ((∀ ds ∈ data, ds.type = .marketGroup → ds.location ≠ "RoW") → checkNoRowMarketGroups data = .ok data) ∧
    ((∃ ds ∈ data, ds.type = .marketGroup ∧ ds.location = "RoW") → checkNoRowMarketGroups data = .error .marketGroupError) := by
  unfold checkNoRowMarketGroups
  constructor
  · intro h
    rw [if_neg]
    simp only [List.any_eq_true, Bool.and_eq_true, beq_iff_eq]
    rintro ⟨ds, hd, h1, h2⟩
    exact h ds hd h1 h2
  · rintro ⟨ds, hd, h1, h2⟩
    rw [if_pos]
    simp only [List.any_eq_true, Bool.and_eq_true, beq_iff_eq]
    exact ⟨ds, hd, h1, h2⟩

/-- C77: market groups of one product must have one name, otherwise linking stops. -/
theorem C77_names (T : Topology) (data : List Dataset) (a b : Dataset) (ha : a ∈ data) (hb : b ∈ data)
    (hat : a.type = .marketGroup) (hbt : b.type = .marketGroup) (hr : a.refProduct = b.refProduct) (hn : a.name ≠ b.name) :
    ∀ out, linkMarketGroupSuppliers T data ≠ .ok out := by
  intro out h
  unfold linkMarketGroupSuppliers at h
  obtain ⟨u, hu, -⟩ := bind_eq_ok.mp h
  unfold checkGroupNames at hu
  obtain ⟨l, hl, hu⟩ := bind_eq_ok.mp hu
  have hF := mapE_ok_iff.mp hl
  have hin : ∀ d ∈ data, d.type = .marketGroup → ∃ r, d.refProduct = some r ∧ (r, d) ∈ l := by
    intro d hd hdt
    obtain ⟨p, hp, hdp⟩ := forall₂_mem_left hF (List.mem_filter.mpr ⟨hd, by simpa using hdt⟩)
    unfold withRefProduct at hdp
    obtain ⟨r, hr, hdp⟩ := bind_eq_ok.mp hdp
    cases hdp
    exact ⟨r, getKey_eq_ok.mp hr, hp⟩
  obtain ⟨r, hra, hla⟩ := hin a ha hat
  obtain ⟨r', hrb, hlb⟩ := hin b hb hbt
  rw [← hr, hra] at hrb
  cases hrb
  split at hu
  · next hall =>
    rw [List.all_eq_true] at hall
    have hk := (groupBy_keys_mem (fun p : String × Dataset => p.1) l r).mpr ⟨_, hla, rfl⟩
    obtain ⟨g, hg, hgr⟩ := List.mem_map.mp hk
    have hgm : g.2 = l.filter fun p => decide (p.1 = g.1) := groupBy_mem (k := g.1) (g := g.2) hg
    have h1 := hall g hg
    simp only [beq_iff_eq] at h1
    obtain ⟨x, hx⟩ := List.length_eq_one_iff.mp h1
    have hmem : ∀ d, (r, d) ∈ l → d.name = x := by
      intro d hd
      have : d.name ∈ (g.2.map fun p => p.2.name).dedup := by
        rw [List.mem_dedup, List.mem_map]
        refine ⟨(r, d), ?_, rfl⟩
        rw [hgm, List.mem_filter]
        exact ⟨hd, by simp [hgr]⟩
      rw [hx] at this
      simpa using this
    exact hn ((hmem a hla).trans (hmem b hlb).symm)
  · cases hu

example : linkMarketGroupSuppliers exampleWorld [exampleGroupAt "GLO", { exampleGroupAt "RER" with name := "x" }] = .error .marketGroupError := by
  decide +kernel

/-! ## C44 after linking -/

/-- C44 holds right after `link_market_group_suppliers`: if all datasets have different codes, market groups had no
suppliers before, and no two of the market groups of a product denote the same region, then the linked data meet the hypotheses of
`C44_consistent`, so the following volume update leaves nested market groups consistent. -/
theorem C44_after_linking (T : Topology) (hT : WellFormed T) (hpos : ∀ i, 0 < T.size i) (data linked out : List Dataset)
    (hrow : ∀ ds ∈ data, ds.type = .marketGroup → ds.location ≠ "RoW")
    (hfresh : ∀ ds ∈ data, ds.type = .marketGroup → ds.suppliers = none)
    (hcode : ∀ ds ∈ data, ds.code.isSome) (hdist : (data.map (·.code)).Nodup)
    (hplace : ∀ a ∈ data, ∀ b ∈ data, a.type = .marketGroup → b.type = .marketGroup → a.refProduct = b.refProduct →
      ∀ f, HasFaces T a.location f → HasFaces T b.location f → a.location = b.location)
    (hlink : linkMarketGroupSuppliers T data = .ok linked)
    (h : updateMarketProductionVolumes T .marketGroup linked = .ok out) :
    OwnCodes linked ∧ SmallerFirst T linked ∧ out.length = linked.length ∧
    ∀ (j : ℕ) (b : Dataset), linked[j]? = some b →
      if b.type = .marketGroup then
        ∃ sup sup', b.suppliers = some sup ∧ List.Forall₂ (UpToDate linked out) sup sup' ∧
          out[j]? = some { b with suppliers := some sup', exchanges := b.exchanges.map (netSupply sup') }
      else out[j]? = some b := by
  obtain ⟨hlen, hpt⟩ := C45_good_choice_partial T hT data linked hrow hlink
  -- everything but the suppliers is as before
  have hsame : ∀ (i : ℕ) (ds' : Dataset), linked[i]? = some ds' → ∃ ds, data[i]? = some ds ∧
      ds'.type = ds.type ∧ ds'.code = ds.code ∧ ds'.location = ds.location := by
    intro i ds' hd'
    obtain ⟨hi, -⟩ := List.getElem?_eq_some_iff.mp hd'
    obtain ⟨ds, hd⟩ : ∃ ds, data[i]? = some ds := ⟨data[i]'(by omega), List.getElem?_eq_getElem (by omega)⟩
    obtain ⟨p1, p2⟩ := hpt i ds ds' hd hd'
    by_cases hl : LastGroup data i ds
    · obtain ⟨r, chosen, entries, -, -, -, he, -⟩ := p1 hl
      exact ⟨ds, hd, by rw [he], by rw [he], by rw [he]⟩
    · rw [p2 hl]
      exact ⟨ds, hd, rfl, rfl, rfl⟩
  have huniq : ∀ (i j : ℕ) (a b : Dataset), data[i]? = some a → data[j]? = some b → a.code = b.code → i = j := by
    intro i j a b ha hb hab
    have hi : (data.map (·.code))[i]? = some a.code := by rw [List.getElem?_map, ha]; rfl
    have hj : (data.map (·.code))[j]? = some a.code := by rw [List.getElem?_map, hb, hab]; rfl
    obtain ⟨hi1, hi2⟩ := List.getElem?_eq_some_iff.mp hi
    obtain ⟨hj1, hj2⟩ := List.getElem?_eq_some_iff.mp hj
    exact (List.Nodup.getElem_inj_iff hdist).mp (hi2.trans hj2.symm)
  have hown : OwnCodes linked := by
    constructor
    · intro d hd hdt
      obtain ⟨i, hi⟩ := List.mem_iff_getElem?.mp hd
      obtain ⟨ds, hds, -, h2, -⟩ := hsame i d hi
      rw [h2]
      exact hcode ds (List.mem_of_getElem? hds)
    · rintro i j c ⟨a, ha, -, hac⟩ ⟨b, hb, -, hbc⟩
      obtain ⟨a', ha', -, ha2, -⟩ := hsame i a ha
      obtain ⟨b', hb', -, hb2, -⟩ := hsame j b hb
      exact huniq i j a' b' ha' hb' (by rw [← ha2, ← hb2, hac, hbc])
  have hsmall : SmallerFirst T linked := by
    intro i j a b c ha hb hbt hg hsup
    obtain ⟨sup, s, hbs, hs, hsc⟩ := hsup
    obtain ⟨d, hd, hdt, hdc⟩ := hg
    rw [ha] at hd
    cases hd
    obtain ⟨a', ha', hat', hac', hal'⟩ := hsame i a ha
    obtain ⟨b', hb', hbt', hbc', hbl'⟩ := hsame j b hb
    obtain ⟨p1, p2⟩ := hpt j b' b hb' hb
    have hb't : b'.type = .marketGroup := hbt'.symm.trans hbt
    by_cases hl : LastGroup data j b'
    · obtain ⟨r, chosen, entries, hr, hgood, hdes, he, -⟩ := p1 hl
      rw [he] at hbs
      have hent : entries = sup := by
        simp only at hbs
        split at hbs
        · cases hbs
        · exact Option.some.inj hbs
      subst hent
      obtain ⟨x, hx, rp, -, hsx⟩ := forall₂_mem_right hdes hs
      obtain ⟨hxd, hxr, hxt⟩ := hgood.product x hx
      obtain ⟨cx, hcx⟩ := Option.isSome_iff_exists.mp (hcode x hxd)
      have hxc : x.code = some c := by
        rw [hsx, hcx] at hsc
        rw [hcx]
        exact hsc
      obtain ⟨k, hk⟩ := List.mem_iff_getElem?.mp hxd
      have hki : k = i := huniq k i x a' hk ha' (by rw [hxc, ← hac', hdc])
      subst hki
      rw [ha'] at hk
      cases hk
      have ha't : a'.type = .marketGroup := hat'.symm.trans hdt
      have hne : a'.location ≠ b'.location := by
        rcases hxt with h | h
        · rw [h] at ha't; cases ha't
        · exact h.2
      rw [hal', hbl']
      have hbm := List.mem_of_getElem? hb'
      have ham := List.mem_of_getElem? ha'
      intro fa fb hfa hfb
      unfold SortFaces at hfa hfb
      rw [if_neg (hrow b' hbm hb't)] at hfa
      rw [if_neg (hrow a' ham ha't)] at hfb
      left
      have hsub := hgood.inside a' hx fb fa hfb hfa
      have hss : fb ⊂ fa := by
        refine Finset.ssubset_iff_subset_ne.mpr ⟨hsub, fun heq => ?_⟩
        subst heq
        exact hne (hplace a' ham b' hbm ha't hb't (by rw [hxr, hr]) fb hfb hfa)
      obtain ⟨z, hz, hnz⟩ := Finset.exists_of_ssubset hss
      exact Finset.sum_lt_sum_of_subset hss.1 hz hnz (hpos z) (fun w _ _ => (hpos w).le)
    · rw [p2 hl, hfresh b' (List.mem_of_getElem? hb') hb't] at hbs
      cases hbs
  exact ⟨hown, hsmall, C44_consistent T hT linked out hown hsmall h⟩

example : (∀ ds ∈ exampleNested, ds.type = .marketGroup → ds.suppliers = none) ∧ (∀ ds ∈ exampleNested, ds.code.isSome) ∧
    (exampleNested.map (·.code)).Nodup := by decide +kernel
example : ((linkMarketGroupSuppliers exampleWorld exampleNested).bind (updateMarketProductionVolumes exampleWorld .marketGroup)).map (fun l => l.map productionVolume) =
    .ok [some 15, some 10, some 5, some 5, some 5] := by decide +kernel

end Ocelot
