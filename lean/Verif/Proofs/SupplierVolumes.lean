import Verif.Proofs.ProgressConsequential

/-! # Suppliers without a production volume stop the consequential model -/

namespace Ocelot
open Spec

/-! ## Every activity in a market is one of its suppliers -/

/-- The suppliers with one name: no dataset with a place of its own is missed. -/
theorem suppliersOfGroup_complete {T : Topology} (hT : WellFormed T) (hne : NoEmptyPlaces T)
    {σ : Dataset → String → List String → List String} (hσ : IterationOrder σ) {c : Dataset} {loc : Loc} {n : String}
    {group : List Dataset} {fm : Finset ℕ} {es : List Exchange}
    (hf : ∀ row, T.containedFaces loc (some row) = .ok (some fm))
    (h : suppliersOfGroup T σ c loc n group = .ok es) {d : Dataset} (hd : d ∈ group) {fs : Finset ℕ} (hfs : HasFaces T d.location fs)
    (hsub : fs ⊆ fm) : ∃ e ∈ es, Describes d e := by
  unfold suppliersOfGroup at h
  obtain ⟨_, hno, h⟩ := bind_eq_ok.mp h
  obtain ⟨row, hrow, h⟩ := bind_eq_ok.mp h
  obtain ⟨inside, hin, h⟩ := bind_eq_ok.mp h
  have hmem := mem_contained (hf row) hin
  have hk : d.location ∈ inside := by
    rw [hmem]
    refine ⟨fun h0 => ?_, .inl ⟨fs, hfs, hsub⟩⟩
    rw [h0, Finset.subset_empty] at hsub
    exact hne _ _ hfs hsub
  have hperm := hσ c n (inside.dedup.filter fun k => (byLocation group).any fun p => p.1 == k)
  generalize σ c n (inside.dedup.filter fun k => (byLocation group).any fun p => p.1 == k) = keys at h hperm
  have hlook : (byLocation group).lookup d.location = some d := by
    rw [lookup_byLocation]
    obtain ⟨l₁, l₂, rfl⟩ := List.append_of_mem hd
    refine ⟨l₁, l₂, rfl, rfl, fun b hb hbk => ?_⟩
    have hkn : ∀ y ∈ l₁ ++ d :: l₂, Spec.Known T y.location := fun y hy => resolveRow_known hrow (List.mem_map.mpr ⟨y, hy, rfl⟩)
    obtain ⟨hor, hiff⟩ := C35_no_overlaps T hT _ hkn
    have hok : noOverlaps T (l₁ ++ d :: l₂) = .ok true := by
      rcases hor with h | h
      · exact h
      · rw [h] at hno; cases hno
    have hpw := (List.pairwise_append.mp (hiff.mp hok).1).2.1
    have hdj := (List.pairwise_cons.mp hpw).1 b hb fs fs hfs (hbk ▸ hfs)
    exact hne _ fs hfs (Finset.disjoint_self_iff_empty fs |>.mp hdj)
  have hkey : d.location ∈ keys := by
    rw [hperm.mem_iff, List.mem_filter, List.mem_dedup]
    refine ⟨hk, List.any_eq_true.mpr ?_⟩
    refine ⟨(d.location, d), ?_, by simp⟩
    unfold byLocation at hlook ⊢
    exact (lookup_iff_mem (dictOf_nodup _ _ _)).mp hlook
  obtain ⟨chosen, hch, hdes⟩ := entries_of h
  obtain ⟨d', hd', hkd⟩ := forall₂_mem_left hch hkey
  rw [hlook] at hkd
  cases hkd
  exact forall₂_mem_left hdes hd'

/-- A market gets an entry for each supplier in its territory. -/
theorem supplyConsumer_complete {T : Topology} (hT : WellFormed T) (hne : NoEmptyPlaces T)
    {σ : Dataset → String → List String → List String} (hσ : IterationOrder σ) {suppliers : List Dataset}
    {row : Finset ℕ} {c c' : Dataset} (h : supplyConsumer T σ row suppliers c = .ok c') {fm : Finset ℕ} (hm : HasFaces T c.location fm)
    {d : Dataset} (hd : d ∈ suppliers) {fs : Finset ℕ} (hfs : HasFaces T d.location fs) (hsub : fs ⊆ fm) :
    ∃ e ∈ c'.suppliers.getD [], Describes d e := by
  unfold supplyConsumer at h
  obtain ⟨new, hnew, h⟩ := bind_eq_ok.mp h
  cases h
  obtain ⟨bs, hbs, rfl⟩ := flatMapE_ok_iff.mp hnew
  have hrow : c.location ≠ "RoW" := hm.ne hT
  have hcf : ∀ r, T.containedFaces (if c.location = "RoW" then Loc.faces row else Loc.name c.location) (some r) = .ok (some fm) := by
    intro r
    rw [if_neg hrow]
    unfold Topology.containedFaces
    simp only [if_neg hrow, hm.call hT]
    rfl
  obtain ⟨g, hg, hgd⟩ : ∃ g ∈ groupBy (fun d : Dataset => d.name) suppliers, d ∈ g.2 := by
    have := (groupBy_perm (fun d : Dataset => d.name) suppliers).mem_iff (a := d)
    simpa [hd] using this
  obtain ⟨es, hes, hge⟩ := forall₂_mem_left (mapE_ok_iff.mp hbs) hg
  obtain ⟨e, he, hde⟩ := suppliersOfGroup_complete hT hne hσ hcf hge hgd hfs hsub
  refine ⟨e, ?_, hde⟩
  simp only [Option.getD_some, List.mem_append]
  exact .inr (List.mem_flatten.mpr ⟨es, hes, he⟩)

/-- After `add_suppliers_to_markets`, a market that had no suppliers has an entry for each activity with its product in its territory, and all
its entries describe such activities. -/
theorem addSuppliers_complete {T : Topology} (hT : WellFormed T) (hne : NoEmptyPlaces T)
    {σ : Dataset → String → List String → List String} (hσ : IterationOrder σ) {from_ to_ : DsType}
    {data out : List Dataset} (h : addSuppliersToMarkets T σ from_ to_ data = .ok out) {m : Dataset} (hm : m ∈ data) (ht : m.type = to_)
    (hs : m.suppliers.getD [] = []) {r : String} (hr : m.refProduct = some r) :
    ∃ m' ∈ out, ∃ entries, m' = { m with suppliers := some entries } ∧
      (∀ e ∈ entries, ∃ d ∈ producers from_ r data, Describes d e) ∧
      ∀ d ∈ producers from_ r data, ∀ fm fs, HasFaces T m.location fm → HasFaces T d.location fs → fs ⊆ fm → ∃ e ∈ entries, Describes d e := by
  obtain ⟨m', hm', hF⟩ := forall₂_mem_left ((addSuppliers_ok hT h).2) hm
  rw [if_pos ⟨ht, hs⟩] at hF
  obtain ⟨r', row, hr', hw, hrow, -, -, hsup⟩ := hF
  rw [hr] at hr'
  cases hr'
  obtain ⟨chosen, entries, h1, h2, h3, -⟩ := supplyConsumer_ok hT hne hσ hrow hw hsup
  rw [hs, List.nil_append] at h1
  refine ⟨m', hm', entries, h1, fun e he => ?_, fun d hd fm fs hfm hfs hsub => ?_⟩
  · obtain ⟨d, hd, hde⟩ := forall₂_mem_right h2 he
    exact ⟨d, (h3 d hd).1, hde⟩
  · obtain ⟨e, he, hde⟩ := supplyConsumer_complete hT hne hσ hsup hfm hd hfs hsub
    rw [h1] at he
    exact ⟨e, he, hde⟩

/-! ## The datasets up to the choice of suppliers -/

/-- What the functions before the choice of suppliers leave as it is. -/
structure Passed (d d' : Dataset) : Prop where
  name : d'.name = d.name
  type : d'.type = d.type
  level : d'.technologyLevel = d.technologyLevel
  suppliers : d'.suppliers = d.suppliers
  product : d'.refProduct = d.refProduct
  volume : ∀ x, refs d = [x] → x.pv = none → ∃ x', refs d' = [x'] ∧ x'.pv = none

theorem Passed.trans {a b c : Dataset} (h : Passed a b) (h' : Passed b c) : Passed a c :=
  ⟨h'.name.trans h.name, h'.type.trans h.type, h'.level.trans h.level, h'.suppliers.trans h.suppliers, h'.product.trans h.product,
    fun x hx hp => by obtain ⟨y, hy, hyp⟩ := h.volume x hx hp; exact h'.volume y hy hyp⟩

theorem Passed.refl (a : Dataset) : Passed a a := ⟨rfl, rfl, rfl, rfl, rfl, fun x hx hp => ⟨x, hx, hp⟩⟩

theorem refs_map_one {d : Dataset} {f : Exchange → Exchange} (hf : ∀ e, (f e).type = e.type) {x : Exchange} (hx : refs d = [x]) :
    refs { d with exchanges := d.exchanges.map f } = [f x] := by
  unfold refs at hx ⊢
  dsimp only
  rw [List.filter_map]
  have : d.exchanges.filter ((fun e : Exchange => e.type == .referenceProduct) ∘ f) = [x] := by
    rw [← hx]
    refine List.filter_congr fun e _ => ?_
    rw [Function.comp_apply, hf]
  rw [this]; rfl

theorem fakePv_keeps {d d' : Dataset} (h : assignFakePv d = .ok d') : Passed d d' ∧ d'.location = d.location := by
  unfold assignFakePv at h
  split at h
  · obtain ⟨rp, hrp, h⟩ := bind_eq_ok.mp h
    obtain ⟨v, hv, h⟩ := bind_eq_ok.mp h
    cases h
    refine ⟨⟨rfl, rfl, rfl, rfl, rfl, fun x hx hp => ?_⟩, rfl⟩
    rw [getSingle_ok.mp hrp] at hx
    cases hx
    rw [getKey_eq_ok.mp hv] at hp
    cases hp
  · cases h
    exact ⟨.refl _, rfl⟩

theorem actualize_keeps {data out : List Dataset} (h : actualizeActivityLinks data = .ok out) :
    List.Forall₂ (fun d d' => Passed d d' ∧ d'.location = d.location) data out := by
  refine (C50_activity_links data out h).imp ?_
  rintro d d' ⟨ex, rfl, hF⟩
  refine ⟨⟨rfl, rfl, rfl, rfl, rfl, fun x hx hp => ?_⟩, rfl⟩
  have hF' : List.Forall₂ (fun e e' : Exchange => e'.type = e.type ∧ e'.pv = e.pv) d.exchanges ex := by
    refine hF.imp fun e e' hab => ?_
    by_cases hm : ∃ t, MeansOnly data e t
    · obtain ⟨t, ht⟩ := hm
      rw [(hab.1 t ht).2]; exact ⟨rfl, rfl⟩
    · rw [hab.2 fun t ht => hm ⟨t, ht⟩]; exact ⟨rfl, rfl⟩
  have := forall₂_filter_rel (p := fun e : Exchange => e.type == .referenceProduct) (q := fun e : Exchange => e.type == .referenceProduct) hF' fun a b hab => by
    rw [hab.1]
  unfold refs at hx ⊢
  dsimp only at *
  rw [hx] at this
  obtain ⟨x', l, h1, h2, h3⟩ := List.forall₂_cons_left_iff.mp this
  rw [List.forall₂_nil_left_iff.mp h2] at h3
  exact ⟨x', h3, by rw [h1.2]; exact hp⟩

theorem step_off {P : PipelineEnv} {s : Step} {f : List Dataset → Except Err (List Dataset)} {l : List Dataset} {out : List Item} {ss : List Step}
    (hs : s.run P = onDatasets f) (h : runSteps P (s :: ss) l = .ok out) : ∃ r, f l = .ok r ∧ runSteps P ss r = .ok out := by
  unfold runSteps at h
  rw [foldE] at h
  obtain ⟨i, h1, h2⟩ := bind_eq_ok.mp h
  rw [hs] at h1
  obtain ⟨r, hr, rfl⟩ := onDatasets_map.mp h1
  exact ⟨r, hr, h2⟩

theorem names_of {R : Dataset → Dataset → Prop} {l l' : List Dataset} (h : List.Forall₂ R l l') (hn : ∀ d d', R d d' → d'.name = d.name) :
    l'.map (·.name) = l.map (·.name) := by
  induction h with
  | nil => rfl
  | cons hab _ ih => rw [List.map_cons, List.map_cons, ih, hn _ _ hab]

/-- The datasets that suppliers are chosen from. -/
theorem levels_prepared {P : PipelineEnv} {data : List Dataset} {out : List Item} (h : runSteps P (Progress.levelSteps ++ consequentialAfter) data = .ok out) :
    ∃ st, runSteps P consequentialAfter.tail st = .ok out ∧
      (∀ d' ∈ st, ∃ d ∈ data, ∃ e, refs d = [e] ∧ Passed { d with refProduct := some e.name } d') ∧
      (∀ d ∈ data, ¬ (d.type = .market ∧ d.location = "GLO" ∧ d.name ∈ canDeleteMarkets) →
        (∀ e, refs d = [e] → e.pv = none) ∨ d.location ≠ "GLO" ∨ (data.filter fun o => decide (o.name = d.name)) = [d] →
        ∃ d' ∈ st, ∃ e, refs d = [e] ∧ Passed { d with refProduct := some e.name } d' ∧ d'.location = d.location) := by
  unfold Progress.levelSteps consequentialAfter at h
  simp only [List.cons_append, List.nil_append] at h
  obtain ⟨d1, r1, h⟩ := step_off (f := labelReferenceProduct) rfl h
  obtain ⟨d2, r2, h⟩ := step_off (f := deleteWhitelistedMarkets) rfl h
  obtain ⟨d3, r3, h⟩ := step_off (f := assignFakePvToConfidential) rfl h
  obtain ⟨d4, r4, h⟩ := step_off (f := relabelGlobalToRow) rfl h
  obtain ⟨d5, r5, h⟩ := step_off (f := addUniqueCodes P.lower P.md5) rfl h
  obtain ⟨st, r6, h⟩ := step_off (f := actualizeActivityLinks) rfl h
  refine ⟨st, h, ?_, ?_⟩
  · intro d' hd'
    obtain ⟨x5, hx5, k6, -⟩ := forall₂_mem_right (actualize_keeps r6) hd'
    rw [(C49_unique _ _ _ _ r5).1] at hx5
    obtain ⟨x4, hx4, rfl⟩ := List.mem_map.mp hx5
    rw [C38_relabel _ _ r4] at hx4
    obtain ⟨x3, hx3, hx⟩ := List.mem_map.mp hx4
    obtain ⟨x2, hx2, k3⟩ := mapE_mem r3 hx3
    have hx1 := (C75_whitelisted _ _ r2).1.mem hx2
    obtain ⟨d, hd, k1⟩ := mapE_mem r1 hx1
    obtain ⟨e, he, k1⟩ := bind_eq_ok.mp k1
    cases k1
    refine ⟨d, hd, e, getSingle_ok.mp he, ?_⟩
    refine ((fakePv_keeps k3).1.trans ?_).trans k6
    have hcode : Passed x4 { x4 with code := some (P.md5 (identity P.lower x4)) } := ⟨rfl, rfl, rfl, rfl, rfl, fun x hx hp => ⟨x, hx, hp⟩⟩
    refine Passed.trans ?_ hcode
    rw [← hx]
    split
    · unfold asRow
      refine ⟨rfl, rfl, rfl, rfl, rfl, fun x hx hp => ⟨_, refs_map_one (fun e => by unfold restVolume; split <;> rfl) hx, ?_⟩⟩
      unfold restVolume
      split
      · rw [hp]; rfl
      · exact hp
    · exact .refl _
  · intro d hd hw hcase
    obtain ⟨x1, hx1, k1⟩ := forall₂_mem_left (mapE_ok_iff.mp r1) hd
    obtain ⟨e, he, k1⟩ := bind_eq_ok.mp k1
    cases k1
    have hx2 : { d with refProduct := some e.name } ∈ d2 := ((C75_whitelisted _ _ r2).2 _ hx1).mpr hw
    obtain ⟨x3, hx3, k3⟩ := forall₂_mem_left (mapE_ok_iff.mp r3) hx2
    obtain ⟨k3, l3⟩ := fakePv_keeps k3
    have hre := getSingle_ok.mp he
    have hnot : ¬ Relabelled d3 x3 := by
      intro hr
      rcases hcase with hpv | hloc | hone
      · obtain ⟨y, hy, hyp⟩ := k3.volume e hre (hpv e hre)
        obtain ⟨e', p, -, -, h1, h2, -⟩ := C38_total_volume _ _ r4 x3 hx3 hr
        rw [hy] at h1
        cases h1
        rw [hyp] at h2
        cases h2
      · exact hloc (l3.symm.trans hr.1)
      · have hlen : (activityGroup d3 x3).length ≤ 1 := by
          have hn : ∀ (l : List Dataset), (activityGroup l x3).length ≤ ((l.map (·.name)).filter fun n => decide (n = d.name)).length := by
            intro l
            rw [List.filter_map, List.length_map]
            unfold activityGroup
            refine (List.Sublist.length_le ?_)
            refine List.monotone_filter_right _ fun o ho => ?_
            have := (of_decide_eq_true ho).1
            rw [Function.comp_apply, decide_eq_true_eq, this, k3.name]
          refine (hn d3).trans ?_
          have h3 : d3.map (·.name) = d2.map (·.name) := names_of (mapE_ok_iff.mp r3) fun _ _ hab => (fakePv_keeps hab).1.name
          have h1 : d1.map (·.name) = data.map (·.name) := names_of (mapE_ok_iff.mp r1) fun _ _ hab => by
            obtain ⟨_, -, hab⟩ := bind_eq_ok.mp hab
            cases hab
            rfl
          rw [h3]
          refine (((C75_whitelisted _ _ r2).1.map _).filter _).length_le.trans ?_
          rw [h1, List.filter_map, List.length_map]
          have : ((fun n => decide (n = d.name)) ∘ fun x : Dataset => x.name) = fun o : Dataset => decide (o.name = d.name) := rfl
          rw [this, hone]
          simp
        exact absurd hr.2.1 (by omega)
    have hx4 : x3 ∈ d4 := by
      rw [C38_relabel _ _ r4]
      exact List.mem_map.mpr ⟨x3, hx3, if_neg hnot⟩
    have hx5 : { x3 with code := some (P.md5 (identity P.lower x3)) } ∈ d5 := by
      rw [(C49_unique _ _ _ _ r5).1]
      exact List.mem_map.mpr ⟨x3, hx4, rfl⟩
    obtain ⟨d', hd', k6, l6⟩ := forall₂_mem_left (actualize_keeps r6) hx5
    refine ⟨d', hd', e, hre, (k3.trans ?_).trans k6, l6.trans l3⟩
    exact ⟨rfl, rfl, rfl, rfl, rfl, fun x hx hp => ⟨x, hx, hp⟩⟩

theorem better_trichotomy {a b : String} (ha : a ∈ technologyOrder) (hb : b ∈ technologyOrder) : BetterLevel a b ∨ a = b ∨ BetterLevel b a := by
  obtain ⟨i, hi⟩ := List.mem_iff_getElem?.mp ha
  obtain ⟨j, hj⟩ := List.mem_iff_getElem?.mp hb
  rcases Nat.lt_trichotomy i j with h | rfl | h
  · exact .inl ⟨i, j, h, hi, hj⟩
  · rw [hi] at hj; cases hj; exact .inr (.inl rfl)
  · exact .inr (.inr ⟨j, i, h, hj, hi⟩)

/-- The linking functions succeed only if every activity that a market can choose has a production volume. -/
theorem volumes_needed {P : PipelineEnv} (hT : WellFormed P.T) (hne : NoEmptyPlaces P.T) (hσ : IterationOrder P.σ) {data : List Dataset} {out : List Item}
    (h : runSteps P (Progress.levelSteps ++ consequentialAfter) data = .ok out) {m t : Dataset} {x : Exchange} {lv : String} {fm fs : Finset ℕ}
    (hm : m ∈ data) (hmt : m.type = .market) (hms : m.suppliers = none) (hmk : ¬ (m.location = "GLO" ∧ m.name ∈ canDeleteMarkets))
    (hone : m.location ≠ "GLO" ∨ (data.filter fun o => decide (o.name = m.name)) = [m])
    (ht : t ∈ data) (htt : t.type = .transforming) (hx : refs t = [x]) (hp : Progress.product m = x.name)
    (hlv : t.technologyLevel = some lv) (hlo : lv ∈ technologyOrder)
    (hbest : ∀ d ∈ data, d.type = .transforming → ∀ e, refs d = [e] → e.name = x.name → ∃ l, d.technologyLevel = some l ∧ ¬ BetterLevel l lv)
    (hfm : HasFaces P.T m.location fm) (hfs : HasFaces P.T t.location fs) (hsub : fs ⊆ fm) : x.pv.isSome := by
  by_contra hpv
  rw [Option.not_isSome_iff_eq_none] at hpv
  obtain ⟨st, h, hback, hforth⟩ := levels_prepared h
  obtain ⟨m', hm', y, hy, km, lm⟩ := hforth m hm (fun hh => hmk hh.2) (.inr hone)
  obtain ⟨t', ht', z, hz, kt, lt⟩ := hforth t ht (fun hh => by rw [htt] at hh; cases hh.1) (.inl fun e he => by rw [hx] at he; cases he; exact hpv)
  rw [hx] at hz
  cases hz
  have hyn : y.name = x.name := by
    rw [← hp]
    unfold Progress.product
    rw [hy]; rfl
  unfold consequentialAfter at h
  simp only [List.tail_cons] at h
  obtain ⟨d1, r1, h⟩ := step_off (f := addSuppliersToMarkets P.T P.σ .transforming .market) rfl h
  obtain ⟨d2, r2, h⟩ := step_off (f := pruneByTechnologyLevel) rfl h
  obtain ⟨d3, r3, -⟩ := step_off (f := updateMarketProductionVolumes P.T .market) rfl h
  obtain ⟨m1, hm1, entries, rfl, hsound, hcomp⟩ := addSuppliers_complete hT hne hσ r1 hm' (km.type.trans hmt) (by rw [km.suppliers]; simp [hms])
    (r := x.name) (by rw [km.product]; simp [hyn])
  have htp : t' ∈ producers .transforming x.name st := by
    unfold producers
    rw [List.mem_filter, decide_eq_true_eq]
    exact ⟨ht', kt.type.trans htt, kt.product⟩
  obtain ⟨e, he, x', hx', hex⟩ := hcomp t' htp fm fs (by rw [lm]; exact hfm) (by rw [lt]; exact hfs) hsub
  obtain ⟨x'', hx'', hxp⟩ := kt.volume x hx hpv
  rw [hx''] at hx'
  cases hx'
  have hep : e.pv = none := by rw [hex]; exact hxp
  have hel : e.technologyLevel = some lv := by
    rw [hex]
    dsimp only
    rw [kt.level, hlv]; rfl
  have hlev : ∀ s ∈ entries, ∀ l, s.technologyLevel = some l → ¬ BetterLevel l lv := by
    intro s hs l hl
    obtain ⟨d, hd, rp, -, hsd⟩ := hsound s hs
    unfold producers at hd
    rw [List.mem_filter, decide_eq_true_eq] at hd
    obtain ⟨d0, hd0, e0, he0, k0⟩ := hback d hd.1
    have hpr := k0.product.symm.trans hd.2.2
    obtain ⟨l', hl', hb⟩ := hbest d0 hd0 (k0.type.symm.trans hd.2.1) e0 he0 (by simpa using hpr)
    rw [hsd] at hl
    dsimp only at hl
    rw [k0.level, hl'] at hl
    cases hl
    exact hb
  obtain ⟨m2, hm2, hF⟩ := forall₂_mem_left (C68_best r2) hm1
  obtain ⟨level, hlm, rfl, ⟨s, hs, hsl⟩, hno⟩ := (hF entries).1 ⟨.inl (km.type.trans hmt), rfl, fun h0 => by rw [h0] at he; cases he⟩
  have heq : lv = level := by
    rcases better_trichotomy hlo hlm with hb | hb | hb
    · exact absurd hb (hno e he lv hel)
    · exact hb
    · exact absurd hb (hlev s hs level hsl)
  unfold updateMarketProductionVolumes at r3
  rw [if_neg (by decide)] at r3
  obtain ⟨m3, -, k3⟩ := forall₂_mem_left (mapE_ok_iff.mp r3) hm2
  rw [if_pos (km.type.trans hmt)] at k3
  unfold updateMarketVolume at k3
  obtain ⟨_, -, k3⟩ := bind_eq_ok.mp k3
  obtain ⟨sup, hsup, k3⟩ := bind_eq_ok.mp k3
  obtain ⟨orig, horig, -⟩ := bind_eq_ok.mp k3
  rw [getKey_eq_ok] at hsup
  cases hsup
  obtain ⟨v, -, hv⟩ := forall₂_mem_left (mapE_ok_iff.mp horig) (List.mem_filter.mpr ⟨he, by simp [hel, heq]⟩)
  unfold entryOriginalVolume at hv
  obtain ⟨w, hw, -⟩ := bind_eq_ok.mp hv
  rw [getKey_eq_ok, hep] at hw
  cases hw

end Ocelot
