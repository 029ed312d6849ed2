import Verif.Proofs.ProgressStart
import Verif.Props.Consequential

/-! # The linking part of the consequential model -/

namespace Ocelot
open Spec

namespace Progress

variable {b : Bool}

/-! ## Levels -/

/-- All suppliers have a level of the hierarchy. -/
def Levelled (data : List Dataset) : Prop :=
  ∀ d ∈ data, ∀ l, d.suppliers = some l → ∀ s ∈ l, ∃ v ∈ technologyOrder, s.technologyLevel = some v

theorem supplyConsumer_from {T : Topology} {σ : Dataset → String → List String → List String} (hσ : IterationOrder σ) {row : Finset ℕ} {sup : List Dataset} {c c' : Dataset}
    (h : supplyConsumer T σ row sup c = .ok c') : ∃ new, c' = { c with suppliers := some (c.suppliers.getD [] ++ new) } ∧ ∀ s ∈ new, ∃ x ∈ sup, supplierEntry x = .ok s := by
  unfold supplyConsumer at h
  dsimp only at h
  obtain ⟨new, hnew, h⟩ := bind_eq_ok.mp h
  cases h
  refine ⟨new, rfl, fun s hs => ?_⟩
  obtain ⟨g, hg, bs, hb, hs⟩ := flatMapE_mem hnew hs
  unfold suppliersOfGroup at hb
  obtain ⟨_, -, hb⟩ := bind_eq_ok.mp hb
  obtain ⟨r, -, hb⟩ := bind_eq_ok.mp hb
  obtain ⟨inside, -, hb⟩ := bind_eq_ok.mp hb
  dsimp only at hb
  obtain ⟨k, -, hk⟩ := mapE_mem hb hs
  obtain ⟨x, hx, hk⟩ := bind_eq_ok.mp hk
  have hx' := byLocation_mem (getKey_eq_ok.mp hx)
  have hx2 : x ∈ sup := by
    have hg2 := groupBy_mem hg
    rw [hg2] at hx'
    exact (List.mem_filter.mp hx').1
  exact ⟨x, hx2, hk⟩

theorem supplierEntry_level {x : Dataset} {s : Exchange} {v : String} (h : supplierEntry x = .ok s) (hv : x.technologyLevel = some v) : s.technologyLevel = some v := by
  unfold supplierEntry at h
  obtain ⟨rp, -, h⟩ := bind_eq_ok.mp h
  cases h
  unfold annotateExchange
  rw [hv]
  rfl

theorem addSuppliers_levelled {T : Topology} (hT : WellFormed T) {σ : Dataset → String → List String → List String} (hσ : IterationOrder σ)
    {data out : List Dataset} (h : addSuppliersToMarkets T σ .transforming .market data = .ok out)
    (hv : ∀ d ∈ data, d.type = .transforming → ∃ v ∈ technologyOrder, d.technologyLevel = some v) (hl : Levelled data) : Levelled out := by
  intro d' hd' l hs s hsl
  obtain ⟨d, hd, hdd⟩ := forall₂_mem_right (addSuppliers_ok hT h).2 hd'
  split at hdd
  · next hw =>
    obtain ⟨r, row, -, -, -, -, -, hc⟩ := hdd
    obtain ⟨new, rfl, hnew⟩ := supplyConsumer_from hσ hc
    cases hs
    rw [hw.2, List.nil_append] at hsl
    obtain ⟨x, hx, hxs⟩ := hnew s hsl
    unfold producers at hx
    obtain ⟨hx, ht⟩ := List.mem_filter.mp hx
    obtain ⟨v, hv1, hv2⟩ := hv x hx (by
      rw [decide_eq_true_eq] at ht
      exact ht.1)
    exact ⟨v, hv1, supplierEntry_level hxs hv2⟩
  · rw [hdd] at hs
    exact hl d hd l hs s hsl

theorem total_prune {T : Topology} {data : List Dataset} (h : Inv b T data) (hl : Levelled data) :
    ∃ out, pruneByTechnologyLevel data = .ok out ∧ Inv b T out ∧ (∀ kind, Listed kind data → Listed kind out) := by
  obtain ⟨out, hout⟩ : ∃ out, pruneByTechnologyLevel data = .ok out := by
    rcases hp : pruneByTechnologyLevel data with e | out
    · exfalso
      obtain ⟨ds, hds, sup, ⟨-, hs, hne⟩, hbad⟩ := (C68_failure data).mp ⟨e, hp⟩
      rcases hbad with ⟨s, hs', hn⟩ | hbad
      · obtain ⟨v, -, hv⟩ := hl ds hds sup hs s hs'
        rw [hn] at hv
        cases hv
      · obtain ⟨s, hs'⟩ := List.exists_mem_of_ne_nil _ hne
        obtain ⟨v, hv1, hv2⟩ := hl ds hds sup hs s hs'
        exact hbad s hs' v hv1 hv2
    · exact ⟨out, rfl⟩
  have hF : List.Forall₂ (fun d d' => ∃ sup, d' = { d with suppliers := sup } ∧ (d.suppliers.isSome → sup.isSome) ∧
      ∀ l, sup = some l → ∃ l0, d.suppliers = some l0 ∧ ∀ s ∈ l, s ∈ l0) data out := by
    refine (mapE_ok_iff.mp hout).imp fun d d' hdd => ?_
    unfold pruneSuppliers at hdd
    split at hdd
    · next hc =>
      obtain ⟨best, hb, hdd⟩ := bind_eq_ok.mp hdd
      cases hdd
      refine ⟨_, rfl, fun _ => rfl, fun l hl' => ?_⟩
      cases hl'
      rcases hs : d.suppliers with _ | l0
      · rw [hs] at hc; exact absurd rfl hc.2
      · refine ⟨l0, rfl, ?_⟩
        rw [hs] at hb
        have : ∀ (lv : List String) (b : List Exchange), bestSuppliers l0 lv = .ok b → ∀ s ∈ b, s ∈ l0 := by
          intro lv
          induction lv with
          | nil => intro b hb; cases hb
          | cons a lv ih =>
            intro b hb
            unfold bestSuppliers at hb
            obtain ⟨found, hf, hb⟩ := bind_eq_ok.mp hb
            split at hb
            · exact ih b hb
            · cases hb
              intro s hs
              exact (filterE_sublist hf).subset hs
        exact this _ _ hb
    · cases hdd
      exact ⟨d.suppliers, rfl, id, fun l hl' => ⟨l, hl', fun _ h => h⟩⟩
  refine ⟨out, hout, h.next (hF.imp ?_), ?_⟩
  · rintro d d' ⟨sup, rfl, -, hsub⟩ hfine
    refine .suppliers fun l hl' s hs => ?_
    obtain ⟨l0, h0, h1⟩ := hsub l hl'
    exact hfine.sup l0 h0 s (h1 s hs)
  · intro kind hk d' hd' ht
    obtain ⟨d, hd, sup, rfl, hsome, -⟩ := forall₂_mem_right hF hd'
    exact hsome (hk d hd ht)

/-! ## Market groups -/

theorem total_addToGroups {T : Topology} (hT : WellFormed T) (hg : ∃ g, HasFaces T "GLO" g) {σ : Dataset → String → List String → List String}
    (hσ : IterationOrder σ) {data : List Dataset} (h : Inv b T data) :
    ∃ out, addSuppliersToMarkets T σ .market .marketGroup data = .ok out ∧ Inv b T out ∧ Listed .marketGroup out ∧ (Listed .market data → Listed .market out) := by
  unfold addSuppliersToMarkets
  set involved := fun ds : Dataset => ds.type == .market || ds.type == .marketGroup with hinv
  obtain ⟨w, hw⟩ := withRef_total (l := data.filter involved) fun d hd => (h.productCode (List.mem_filter.mp hd).1).1
  simp only [hw, ebind_ok]
  have hkey : ∀ t ds ds', apportionUpd T σ t ds = .ok ds' → productIf involved ds' = productIf involved ds := by
    intro t ds ds' hu
    rw [apportionUpd_product hu]; rfl
  have hpair : data.Pairwise fun a b => a.type = .marketGroup → b.type = .marketGroup → a.refProduct.getD "" = b.refProduct.getD "" → a.name = b.name ∧ a.location ≠ b.location :=
    List.pairwise_map.mp h.db.groups
  have hone : ∀ d ∈ data, ∃ d', groupTurn (productIf involved) (fun _ => addSuppliersPrep T .market .marketGroup) (apportionUpd T σ) data d = .ok d' ∧ Next d d' ∧
      (d.type = .marketGroup → d'.suppliers.isSome) ∧ (d.suppliers.isSome → d'.suppliers.isSome) := by
    intro d hd
    unfold groupTurn
    cases hk : productIf involved d with
    | none =>
      refine ⟨d, rfl, .refl d, fun hm => ?_, id⟩
      obtain ⟨x, hx⟩ := Option.isSome_iff_exists.mp (h.productCode hd).1
      unfold productIf at hk
      simp [hinv, hm, hx] at hk
    | some k =>
      simp only
      set group := data.filter fun d => decide (productIf involved d = some k) with hgr
      have hgm : ∀ y ∈ group, y.refProduct = some k := by
        intro y hy
        have := (List.mem_filter.mp hy).2
        rw [decide_eq_true_eq] at this
        exact productIf_some this
      have hdg : d ∈ group := List.mem_filter.mpr ⟨hd, by simpa using hk⟩
      set consumers := group.filter (wantsSuppliers .marketGroup) with hcons
      have hcm : ∀ y ∈ consumers, y.type = .marketGroup ∧ y.refProduct = some k := by
        intro y hy
        obtain ⟨h1, h2⟩ := List.mem_filter.mp hy
        unfold wantsSuppliers at h2
        rw [Bool.and_eq_true] at h2
        exact ⟨by simpa using h2.1, hgm y h1⟩
      have hnd : (consumers.map (·.location)).Nodup := by
        rw [List.Nodup, List.pairwise_map]
        refine (hpair.sublist (List.filter_sublist.trans List.filter_sublist)).imp_of_mem fun {a b} ha hb hab => ?_
        exact (hab (hcm a ha).1 (hcm b hb).1 (by rw [(hcm a ha).2, (hcm b hb).2])).2
      have hkn : ∀ y ∈ consumers, Spec.Known T y.location := fun y hy => h.known (List.mem_filter.mp (List.mem_filter.mp hy).1).1
      have hprep : ∃ a, addSuppliersPrep T .market .marketGroup group = .ok a ∧ (∀ x, a = some x → x.suppliers = group.filter fun ds => ds.type == .market) ∧
          (consumers ≠ [] → ∃ x, a = some x ∧ x.isConsumer = wantsSuppliers .marketGroup) := by
        unfold addSuppliersPrep
        simp only [← hcons]
        by_cases hc : consumers = []
        · rw [if_pos hc]
          exact ⟨none, rfl, by simp, fun h => absurd hc h⟩
        · rw [if_neg hc, if_neg (by decide)]
          unfold apportionPrep
          have h1 : noGeoDuplicates consumers = .ok () := by
            unfold noGeoDuplicates
            rw [if_neg]
            push Not
            rw [List.Nodup.dedup hnd, List.length_map]
          obtain ⟨r, hr⟩ := resolveRow_total hT hg (l := consumers.map (·.location)) (by simpa using hc) (by
            intro s hs
            obtain ⟨y, hy, rfl⟩ := List.mem_map.mp hs
            exact hkn y hy)
          rw [h1]
          simp only [ebind_ok, hr]
          exact ⟨_, rfl, fun x hx => by cases hx; rfl, fun _ => ⟨_, rfl, rfl⟩⟩
      obtain ⟨a, ha, hsup, hcon⟩ := hprep
      rw [ha, ebind_ok]
      obtain ⟨sup, h1, h2, h3, h4⟩ := apportionUpd_total hT hg hσ (S := Sold (data.map sig)) (a := a) (h.known hd) (h.fine d hd) (by
        intro x hx
        rw [hsup x hx]
        have hmem : ∀ y ∈ group.filter (fun ds => ds.type == .market), y ∈ data ∧ y.type = .market ∧ y.refProduct = some k := by
          intro y hy
          obtain ⟨hy, hp⟩ := List.mem_filter.mp hy
          exact ⟨(List.mem_filter.mp hy).1, by simpa using hp, hgm y hy⟩
        refine ⟨fun y hy => ⟨h.fine y (hmem y hy).1, h.known (hmem y hy).1⟩, ?_⟩
        refine List.Pairwise.imp ?_ (h.markets_apart (List.filter_sublist.trans List.filter_sublist) fun y hy => (hmem y hy).2)
        exact fun hab _ => hab)
      refine ⟨_, h1, .suppliers h2, fun hm => ?_, h3⟩
      by_cases hwant : wantsSuppliers .marketGroup d = true
      · obtain ⟨x, hx, hc⟩ := hcon (List.ne_nil_of_mem (List.mem_filter.mpr ⟨hdg, hwant⟩))
        exact h4 x hx (hc ▸ hwant)
      · apply h3
        unfold wantsSuppliers at hwant
        cases hs : d.suppliers with
        | none => rw [hs] at hwant; simp [hm] at hwant
        | some l => rfl
  obtain ⟨out, hout⟩ := mapE_ok_of_forall fun d hd => ⟨_, (hone d hd).choose_spec.1⟩
  have hF : List.Forall₂ (fun d d' => Next d d' ∧ (d.type = .marketGroup → d'.suppliers.isSome) ∧ (d.suppliers.isSome → d'.suppliers.isSome)) data out := by
    refine (forall₂_with_mem (mapE_ok_iff.mp hout)).imp ?_
    rintro d d' ⟨hd, hdd⟩
    obtain ⟨d'', h1, h2⟩ := hone d hd
    rw [h1] at hdd
    cases hdd
    exact h2
  refine ⟨out, (groupLoop_iff hkey).mpr hout, h.next (hF.imp fun d d' hd _ => hd.1), ?_, ?_⟩
  · intro d' hd' hm
    obtain ⟨d, hd, h1, h2, -⟩ := forall₂_mem_right hF hd'
    exact h2 ((congrArg Sig.type h1.sig).symm.trans hm)
  · intro hl d' hd' hm
    obtain ⟨d, hd, h1, -, h2⟩ := forall₂_mem_right hF hd'
    exact h2 (hl d hd ((congrArg Sig.type h1.sig).symm.trans hm))

theorem groupVolumes_listed {T : Topology} {data out : List Dataset} (h : updateMarketProductionVolumes T .marketGroup data = .ok out) {kind : DsType}
    (hl : Listed kind data) : Listed kind out := by
  unfold updateMarketProductionVolumes at h
  rw [if_pos rfl] at h
  obtain ⟨order, -, h⟩ := bind_eq_ok.mp h
  refine foldE_inv (I := fun _ st => Listed kind st) h hl fun pre a st st' _ hst hs => ?_
  unfold updateGroupStep at hs
  split at hs
  · cases hs; exact hst
  · next ds hget =>
    obtain ⟨ds', h1, hs⟩ := bind_eq_ok.mp hs
    have hds : ds'.type = ds.type ∧ ds'.suppliers = ds.suppliers := by
      unfold updateMarketVolume at h1
      obtain ⟨_, -, h1⟩ := bind_eq_ok.mp h1
      obtain ⟨_, -, h1⟩ := bind_eq_ok.mp h1
      obtain ⟨_, -, h1⟩ := bind_eq_ok.mp h1
      obtain ⟨_, -, h1⟩ := bind_eq_ok.mp h1
      obtain ⟨_, -, h1⟩ := bind_eq_ok.mp h1
      cases h1
      exact ⟨rfl, rfl⟩
    have hset : Listed kind (st.set a ds') := by
      intro d hd ht
      rcases List.mem_or_eq_of_mem_set hd with hd | rfl
      · exact hst d hd ht
      · rw [hds.2]
        exact hst ds (List.mem_of_getElem? hget) (hds.1 ▸ ht)
    intro d' hd' ht
    obtain ⟨⟨d, i⟩, hp, hd⟩ := mapE_mem hs hd'
    have hmem : d ∈ st.set a ds' := (List.mem_zipIdx hp).2.2 ▸ List.getElem_mem _
    unfold propagateTo at hd
    split at hd
    · obtain ⟨_, -, hd⟩ := bind_eq_ok.mp hd
      obtain ⟨_, -, hd⟩ := bind_eq_ok.mp hd
      cases hd; rfl
    · cases hd
      exact hset d hmem ht

theorem inv_deleteSuppliers {T : Topology} {data : List Dataset} (h : Inv b T data) : Inv b T (deleteSuppliersList data) := by
  refine h.next ?_
  unfold deleteSuppliersList
  rw [List.forall₂_map_right_iff]
  exact List.forall₂_same.mpr fun d _ _ => .suppliers (sup := none) fun l hl => by cases hl

theorem normalize_all {M : MathEnv} {data : List Dataset} (h : ∀ d ∈ data, Fine b (fun _ => True) d) : ∃ out, wrapAll (normalizeList M) data = .ok out := by
  rw [wrapNormalize_eq]
  refine mapE_ok_of_forall fun d hd => ?_
  obtain ⟨r, hr, h1, h2, -, h4⟩ := (h d hd).ref
  obtain ⟨d', hd', -⟩ := normalize_total (M := M) (d := d) ⟨⟨r, hr, h2, h4⟩, fun e he => ((h d hd).steady e he).1⟩
  exact ⟨d', hd'⟩

/-! ## All of it -/

theorem coded_level (lower md5 : String → String) (k : List Dataset) (d : Dataset) :
    (coded lower md5 k d).technologyLevel = d.technologyLevel ∧ (coded lower md5 k d).type = d.type := by
  unfold coded opened
  dsimp only
  split <;> split <;> exact ⟨rfl, rfl⟩

/-- The functions of the consequential model up to `add_unique_codes` that work on the markets. -/
def levelSteps : List Step := [.labelReferenceProduct, .deleteWhitelistedMarkets, .assignFakePv, .relabelGlobalToRow, .addUniqueCodes]

/-- The linking functions of the consequential model succeed. -/
theorem levels_total {P : PipelineEnv} (hT : WellFormed P.T) (hg : ∃ g, HasFaces P.T "GLO" g) (hσ : IterationOrder P.σ) {data : List Dataset}
    (hone : ∀ d ∈ data, (refs d).length = 1) (hlink : ∀ d ∈ data, ∀ e ∈ d.exchanges, dropRpLink e = e) (h : Orderly b P.T P.lower P.md5 (kept data))
    (hv : ∀ d ∈ kept data, d.type = .transforming → ∃ v ∈ technologyOrder, d.technologyLevel = some v) :
    ∃ out : List Dataset, runSteps P (levelSteps ++ consequentialAfter) data = .ok (out.map .ds) := by
  obtain ⟨o3, o4, -, o6, -, o8⟩ := opening_parts h
  have hdrop : dropRpActivityLinks data = data := by
    unfold dropRpActivityLinks
    conv_rhs => rw [← List.map_id data]
    refine List.map_congr_left fun d hd => ?_
    have : d.exchanges.map dropRpLink = d.exchanges := by
      conv_rhs => rw [← List.map_id d.exchanges]
      exact List.map_congr_left fun e he => hlink d hd e he
    rw [this]; rfl
  have o2 : labelReferenceProduct data = .ok (data.map labelled) := by
    have := label_total hone
    rw [hdrop] at this
    exact this
  obtain ⟨d1, r1, i1⟩ := total_actualize h
  have hF := C50_activity_links _ _ r1
  have hv1 : ∀ d ∈ d1, (d.type = .transforming → ∃ v ∈ technologyOrder, d.technologyLevel = some v) ∧ d.suppliers = none := by
    intro d' hd'
    obtain ⟨c, hc, ex, rfl, -⟩ := forall₂_mem_right hF hd'
    obtain ⟨d, hd, rfl⟩ := List.mem_map.mp hc
    obtain ⟨l1, l2⟩ := coded_level P.lower P.md5 (kept data) d
    dsimp only
    rw [l1, l2]
    exact ⟨hv d hd, by rw [(coded_frame P.lower P.md5 (kept data) d).2.2.2.1]; exact (h.single d hd).fresh⟩
  have hl1 : Levelled d1 := fun d hd l hl => by rw [(hv1 d hd).2] at hl; cases hl
  obtain ⟨d2, r2, i2, l2⟩ := total_addSuppliers hT hg hσ i1
  have hl2 := addSuppliers_levelled hT hσ r2 (fun d hd => (hv1 d hd).1) hl1
  obtain ⟨d3, r3, i3, l3⟩ := total_prune i2 hl2
  obtain ⟨d4, r4, i4, l4⟩ := total_marketVolumes i3 (l3 _ l2)
  obtain ⟨d5, r5, i5, l5, m5⟩ := total_addToGroups hT hg hσ i4
  obtain ⟨d6, r6, i6, l6⟩ := total_groupVolumes hT i5 l5
  obtain ⟨d7, r7, i7⟩ := total_allocateMarkets i6 (groupVolumes_listed r6 (m5 l4))
  have i8 := inv_deleteSuppliers i7
  obtain ⟨d9, r9, i9⟩ := total_linkConsumers (M := P.M) hT hg i8
  have r10 := logAndDelete_id i9
  obtain ⟨d11, r11⟩ := normalize_all (M := P.M) i9
  refine ⟨d11, ?_⟩
  unfold levelSteps consequentialAfter
  simp only [List.cons_append, List.nil_append]
  rw [step_on (f := labelReferenceProduct) rfl o2, step_on (f := deleteWhitelistedMarkets) rfl o3, step_on (f := assignFakePvToConfidential) rfl o4,
    step_on (f := relabelGlobalToRow) rfl o6, step_on (f := addUniqueCodes P.lower P.md5) rfl o8,
    step_on (f := actualizeActivityLinks) rfl r1, step_on (f := addSuppliersToMarkets P.T P.σ .transforming .market) rfl r2,
    step_on (f := pruneByTechnologyLevel) rfl r3, step_on (f := updateMarketProductionVolumes P.T .market) rfl r4,
    step_on (f := addSuppliersToMarkets P.T P.σ .market .marketGroup) rfl r5, step_on (f := updateMarketProductionVolumes P.T .marketGroup) rfl r6,
    step_on (f := allocateAllMarketSuppliers .market) rfl r7, step_on (f := fun d => .ok (deleteSuppliersList d)) rfl rfl,
    step_on (f := linkConsumersToMarkets P.M P.T) rfl r9, step_on (f := fun d => .ok (logAndDeleteUnlinked d)) rfl (congrArg Except.ok r10),
    step_on (f := wrapAll (normalizeList P.M)) rfl r11]
  rfl

end Progress
end Ocelot
