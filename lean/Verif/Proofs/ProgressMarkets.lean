import Verif.Proofs.ProgressLink
import Verif.Proofs.OrderLinks

/-! # The functions that find the suppliers of markets succeed -/

namespace Ocelot
open Spec

namespace Progress

variable {b : Bool}

theorem Inv.rivals {T : Topology} {data : List Dataset} (h : Inv b T data) :
    data.Pairwise fun a b => Rival (sig a) (sig b) → Separate T a.location b.location := List.pairwise_map.mp h.db.apart

theorem Inv.known {T : Topology} {data : List Dataset} (h : Inv b T data) {d : Dataset} (hd : d ∈ data) : Spec.Known T d.location :=
  h.db.known _ (List.mem_map.mpr ⟨d, hd, rfl⟩)

/-- Markets for the same product do not overlap. -/
theorem Inv.markets_apart {T : Topology} {data l : List Dataset} (h : Inv b T data) (hs : l.Sublist data) {p : String}
    (hl : ∀ d ∈ l, d.type = .market ∧ d.refProduct = some p) : l.Pairwise fun a b => Separate T a.location b.location := by
  refine (h.rivals.sublist hs).imp_of_mem ?_
  intro a b ha hb hab
  refine hab ⟨?_, ?_, .inl (hl a ha).1⟩
  · simp only [sig]; rw [(hl a ha).2, (hl b hb).2]
  · simp only [sig]; rw [(hl a ha).1, (hl b hb).1]

/-- Transforming activities for the same product do not overlap if they have the same name. -/
theorem Inv.makers_apart {T : Topology} {data l : List Dataset} (h : Inv b T data) (hs : l.Sublist data) {p : String}
    (hl : ∀ d ∈ l, d.type = .transforming ∧ d.refProduct = some p) : l.Pairwise fun a b => a.name = b.name → Separate T a.location b.location := by
  refine (h.rivals.sublist hs).imp_of_mem ?_
  intro a b ha hb hab hn
  refine hab ⟨?_, ?_, .inr ⟨(hl a ha).1, hn⟩⟩
  · simp only [sig]; rw [(hl a ha).2, (hl b hb).2]
  · simp only [sig]; rw [(hl a ha).1, (hl b hb).1]

theorem apportionUpd_total {T : Topology} (hT : WellFormed T) (hg : ∃ g, HasFaces T "GLO" g) {σ : Dataset → String → List String → List String}
    (hσ : IterationOrder σ) {S : String → Prop} {a : Option Apportion} {d : Dataset} (hd : Spec.Known T d.location) (hS : Fine b S d)
    (hsup : ∀ x, a = some x → (∀ y ∈ x.suppliers, Fine b S y ∧ Spec.Known T y.location) ∧ x.suppliers.Pairwise fun p q => p.name = q.name → Separate T p.location q.location) :
    ∃ sup, apportionUpd T σ a d = .ok { d with suppliers := sup } ∧ (∀ l, sup = some l → ∀ s ∈ l, Ready s) ∧ (d.suppliers.isSome → sup.isSome) ∧
      (∀ x, a = some x → x.isConsumer d = true → sup.isSome) := by
  unfold apportionUpd
  rcases a with _ | x
  · exact ⟨d.suppliers, rfl, hS.sup, id, by simp⟩
  simp only
  split
  · obtain ⟨h1, h2⟩ := hsup x rfl
    unfold supplyConsumer
    have hgroup : ∀ g ∈ groupBy (fun d : Dataset => d.name) x.suppliers, ∃ l, suppliersOfGroup T σ d (if d.location = "RoW" then Loc.faces x.row else Loc.name d.location) g.1 g.2 = .ok l ∧ ∀ s ∈ l, Ready s := by
      intro g hgm
      have hfil : g.2 = x.suppliers.filter (fun a => a.name = g.1) := groupBy_mem (k := g.1) (g := g.2) hgm
      refine suppliersOfGroup_total (b := b) hT hg hσ (S := S) ?_ ?_ ?_ ?_ ?_
      · intro s hs
        split at hs
        · cases hs
        · cases hs; exact hd
      · have : g.1 ∈ (groupBy (fun d : Dataset => d.name) x.suppliers).map (·.1) := List.mem_map.mpr ⟨g, hgm, rfl⟩
        obtain ⟨b, hb, hbn⟩ := (groupBy_keys_mem _ _ _).mp this
        rw [hfil]
        exact List.ne_nil_of_mem (List.mem_filter.mpr ⟨hb, by simpa using hbn⟩)
      · intro y hy
        rw [hfil] at hy
        exact (h1 y (List.mem_filter.mp hy).1).2
      · rw [hfil]
        refine (h2.sublist List.filter_sublist).imp_of_mem ?_
        intro p q hp hq hpq
        have e1 := (List.mem_filter.mp hp).2
        have e2 := (List.mem_filter.mp hq).2
        simp only [decide_eq_true_eq] at e1 e2
        exact hpq (e1.trans e2.symm)
      · intro y hy
        rw [hfil] at hy
        exact (h1 y (List.mem_filter.mp hy).1).1
    obtain ⟨bs, hbs⟩ := mapE_ok_of_forall (f := fun g : String × List Dataset => suppliersOfGroup T σ d (if d.location = "RoW" then Loc.faces x.row else Loc.name d.location) g.1 g.2)
      (l := groupBy (fun d : Dataset => d.name) x.suppliers) fun g hgm => ⟨_, (hgroup g hgm).choose_spec.1⟩
    have hnew := flatMapE_ok_iff.mpr ⟨bs, hbs, rfl⟩
    simp only [hnew, ebind_ok]
    refine ⟨some (d.suppliers.getD [] ++ bs.flatten), rfl, ?_, fun _ => rfl, fun _ _ _ => rfl⟩
    intro l hl s hs
    cases hl
    rcases List.mem_append.mp hs with hs | hs
    · cases hsup : d.suppliers with
      | none => rw [hsup] at hs; cases hs
      | some l => rw [hsup] at hs; exact hS.sup l hsup s hs
    · obtain ⟨g, hgm, l, hl, hsl⟩ := flatMapE_mem hnew hs
      obtain ⟨l', hl', hr⟩ := hgroup g hgm
      rw [hl'] at hl
      cases hl
      exact hr s hsl
  · next hc => exact ⟨d.suppliers, rfl, hS.sup, id, fun y hy hcy => absurd (by cases hy; exact hcy) hc⟩

theorem withRef_total {l : List Dataset} (h : ∀ d ∈ l, d.refProduct.isSome) : ∃ r, mapE withRefProduct l = .ok r := by
  apply mapE_ok_of_forall
  intro d hd
  obtain ⟨x, hx⟩ := Option.isSome_iff_exists.mp (h d hd)
  unfold withRefProduct
  rw [hx]
  exact ⟨_, rfl⟩

/-- All datasets of the kind have a list of suppliers. -/
def Listed (kind : DsType) (data : List Dataset) : Prop := ∀ d ∈ data, d.type = kind → d.suppliers.isSome

theorem Next.suppliers {d : Dataset} {sup : Option (List Exchange)} (h : ∀ l, sup = some l → ∀ s ∈ l, Ready s) : Next d { d with suppliers := sup } :=
  ⟨rfl, rfl, rfl, fun _ _ hS => hS.touch (ex := d.exchanges) (sup := sup) (touches_refl _) h⟩

theorem total_addRecycled {T : Topology} (hT : WellFormed T) (hg : ∃ g, HasFaces T "GLO" g) {σ : Dataset → String → List String → List String}
    (hσ : IterationOrder σ) {data : List Dataset} (h : Inv b T data) : ∃ out, addRecycledContentSuppliers T σ data = .ok out ∧ Inv b T out := by
  unfold addRecycledContentSuppliers
  obtain ⟨w, hw⟩ := withRef_total (l := data.filter fun ds => ds.type == .market) fun d hd => (h.productCode (List.mem_filter.mp hd).1).1
  have hrc : recycledContentDatasets data = .ok (data.filter fun ds => ds.type == .transforming && rcString.toList.isSuffixOf (ds.refProduct.getD "").toList) := by
    unfold recycledContentDatasets
    refine filterE_eq_filter fun d hd => ?_
    obtain ⟨x, hx⟩ := Option.isSome_iff_exists.mp (h.productCode hd).1
    rw [hx]
    by_cases ht : d.type = .transforming
    · rw [if_pos ht]; simp [ht]
    · rw [if_neg ht]; simp [ht]
  simp only [hw, hrc, ebind_ok]
  set rc := data.filter fun ds => ds.type == .transforming && rcString.toList.isSuffixOf (ds.refProduct.getD "").toList with hrcd
  have hkey : ∀ t ds ds', apportionUpd T σ t ds = .ok ds' → productIf (fun ds : Dataset => ds.type == .market) ds' = productIf (fun ds => ds.type == .market) ds := by
    intro t ds ds' hu
    rw [apportionUpd_product hu]; rfl
  have hone : ∀ d ∈ data, ∃ d', groupTurn (productIf fun ds => ds.type == .market) (recycledPrep T rc) (apportionUpd T σ) data d = .ok d' ∧ Next d d' := by
    intro d hd
    unfold groupTurn
    cases hk : productIf (fun ds : Dataset => ds.type == .market) d with
    | none => exact ⟨d, rfl, .refl d⟩
    | some k =>
      simp only
      set group := data.filter fun d => decide (productIf (fun ds : Dataset => ds.type == .market) d = some k) with hgr
      have hgm : ∀ y ∈ group, y.type = .market ∧ y.refProduct = some k := by
        intro y hy
        have := (List.mem_filter.mp hy).2
        rw [decide_eq_true_eq] at this
        refine ⟨?_, productIf_some this⟩
        unfold productIf at this
        split at this
        · next ht => simpa using ht
        · cases this
      have hdg : d ∈ group := List.mem_filter.mpr ⟨hd, by simpa using hk⟩
      have hap := h.markets_apart (l := group) List.filter_sublist hgm
      have hkn : ∀ y ∈ group, Spec.Known T y.location := fun y hy => h.known (List.mem_filter.mp hy).1
      have hprep : ∃ a, recycledPrep T rc k group = .ok a ∧ ∀ x, a = some x → x.suppliers = rc.filter fun ds => ds.refProduct == some (k ++ rcString) := by
        unfold recycledPrep
        rw [noOverlaps_total hT hkn hap]
        simp only [ebind_ok]
        split
        · exact ⟨none, rfl, by simp⟩
        · obtain ⟨row, hrow⟩ := apportionPrep_total hT hg (p := fun _ => true) (suppliers := rc.filter fun ds => ds.refProduct == some (k ++ rcString)) (List.ne_nil_of_mem hdg) hkn hap
          exact ⟨_, hrow, fun x hx => by cases hx; rfl⟩
      obtain ⟨a, ha, hsup⟩ := hprep
      rw [ha, ebind_ok]
      obtain ⟨sup, h1, h2, -, -⟩ := apportionUpd_total hT hg hσ (S := Sold (data.map sig)) (a := a) (h.known hd) (h.fine d hd) (by
        intro x hx
        rw [hsup x hx]
        have hmem : ∀ y ∈ rc.filter (fun ds => ds.refProduct == some (k ++ rcString)), y ∈ data ∧ y.type = .transforming ∧ y.refProduct = some (k ++ rcString) := by
          intro y hy
          obtain ⟨hy, hp⟩ := List.mem_filter.mp hy
          obtain ⟨hy, ht⟩ := List.mem_filter.mp hy
          rw [Bool.and_eq_true] at ht
          exact ⟨hy, by simpa using ht.1, by simpa using hp⟩
        refine ⟨fun y hy => ⟨h.fine y (hmem y hy).1, h.known (hmem y hy).1⟩, ?_⟩
        exact h.makers_apart (List.filter_sublist.trans List.filter_sublist) fun y hy => (hmem y hy).2)
      exact ⟨_, h1, .suppliers h2⟩
  obtain ⟨out, hout⟩ := mapE_ok_of_forall fun d hd => ⟨_, (hone d hd).choose_spec.1⟩
  refine ⟨out, (groupLoop_iff hkey).mpr hout, h.next ?_⟩
  refine (forall₂_with_mem (mapE_ok_iff.mp hout)).imp ?_
  rintro d d' ⟨hd, hdd⟩ _
  obtain ⟨d'', h1, h2⟩ := hone d hd
  rw [h1] at hdd
  cases hdd
  exact h2

theorem total_addSuppliers {T : Topology} (hT : WellFormed T) (hg : ∃ g, HasFaces T "GLO" g) {σ : Dataset → String → List String → List String}
    (hσ : IterationOrder σ) {data : List Dataset} (h : Inv b T data) :
    ∃ out, addSuppliersToMarkets T σ .transforming .market data = .ok out ∧ Inv b T out ∧ Listed .market out := by
  unfold addSuppliersToMarkets
  set involved := fun ds : Dataset => ds.type == .transforming || ds.type == .market with hinv
  obtain ⟨w, hw⟩ := withRef_total (l := data.filter involved) fun d hd => (h.productCode (List.mem_filter.mp hd).1).1
  simp only [hw, ebind_ok]
  have hkey : ∀ t ds ds', apportionUpd T σ t ds = .ok ds' → productIf involved ds' = productIf involved ds := by
    intro t ds ds' hu
    rw [apportionUpd_product hu]; rfl
  have hone : ∀ d ∈ data, ∃ d', groupTurn (productIf involved) (fun _ => addSuppliersPrep T .transforming .market) (apportionUpd T σ) data d = .ok d' ∧ Next d d' ∧ (d.type = .market → d'.suppliers.isSome) := by
    intro d hd
    unfold groupTurn
    cases hk : productIf involved d with
    | none =>
      refine ⟨d, rfl, .refl d, fun hm => ?_⟩
      obtain ⟨x, hx⟩ := Option.isSome_iff_exists.mp (h.productCode hd).1
      unfold productIf at hk
      simp [hinv, hm, hx] at hk
    | some k =>
      simp only
      set group := data.filter fun d => decide (productIf involved d = some k) with hgr
      have hgm : ∀ y ∈ group, y.refProduct = some k := by
        intro y hy
        have := (List.mem_filter.mp hy).2
        rw [decide_eq_true_eq] at this
        exact productIf_some this
      have hdg : d ∈ group := List.mem_filter.mpr ⟨hd, by simpa using hk⟩
      set consumers := group.filter (wantsSuppliers .market) with hcons
      have hcm : ∀ y ∈ consumers, y.type = .market ∧ y.refProduct = some k := by
        intro y hy
        obtain ⟨h1, h2⟩ := List.mem_filter.mp hy
        unfold wantsSuppliers at h2
        rw [Bool.and_eq_true] at h2
        exact ⟨by simpa using h2.1, hgm y h1⟩
      have hap := h.markets_apart (l := consumers) (List.filter_sublist.trans List.filter_sublist) hcm
      have hkn : ∀ y ∈ consumers, Spec.Known T y.location := fun y hy => h.known (List.mem_filter.mp (List.mem_filter.mp hy).1).1
      have hprep : ∃ a, addSuppliersPrep T .transforming .market group = .ok a ∧ (∀ x, a = some x → x.suppliers = group.filter fun ds => ds.type == .transforming) ∧
          (consumers ≠ [] → ∃ x, a = some x ∧ x.isConsumer = wantsSuppliers .market) := by
        unfold addSuppliersPrep
        simp only [← hcons]
        by_cases hc : consumers = []
        · rw [if_pos hc]
          exact ⟨none, rfl, by simp, fun h => absurd hc h⟩
        · rw [if_neg hc]
          obtain ⟨row, hrow⟩ := apportionPrep_total hT hg (p := wantsSuppliers .market) (suppliers := group.filter fun ds => ds.type == .transforming) hc hkn hap
          simp only [if_true, noOverlaps_total hT hkn hap, ebind_ok]
          exact ⟨_, hrow, fun x hx => by cases hx; rfl, fun _ => ⟨_, rfl, rfl⟩⟩
      obtain ⟨a, ha, hsup, hcon⟩ := hprep
      rw [ha, ebind_ok]
      obtain ⟨sup, h1, h2, h3, h4⟩ := apportionUpd_total hT hg hσ (S := Sold (data.map sig)) (a := a) (h.known hd) (h.fine d hd) (by
        intro x hx
        rw [hsup x hx]
        have hmem : ∀ y ∈ group.filter (fun ds => ds.type == .transforming), y ∈ data ∧ y.type = .transforming ∧ y.refProduct = some k := by
          intro y hy
          obtain ⟨hy, hp⟩ := List.mem_filter.mp hy
          exact ⟨(List.mem_filter.mp hy).1, by simpa using hp, hgm y hy⟩
        refine ⟨fun y hy => ⟨h.fine y (hmem y hy).1, h.known (hmem y hy).1⟩, ?_⟩
        exact h.makers_apart (List.filter_sublist.trans List.filter_sublist) fun y hy => (hmem y hy).2)
      refine ⟨_, h1, .suppliers h2, fun hm => ?_⟩
      by_cases hwant : wantsSuppliers .market d = true
      · obtain ⟨x, hx, hc⟩ := hcon (List.ne_nil_of_mem (List.mem_filter.mpr ⟨hdg, hwant⟩))
        exact h4 x hx (hc ▸ hwant)
      · apply h3
        unfold wantsSuppliers at hwant
        cases hs : d.suppliers with
        | none => rw [hs] at hwant; simp [hm] at hwant
        | some l => rfl
  obtain ⟨out, hout⟩ := mapE_ok_of_forall fun d hd => ⟨_, (hone d hd).choose_spec.1⟩
  have hF : List.Forall₂ (fun d d' => Next d d' ∧ (d.type = .market → d'.suppliers.isSome)) data out := by
    refine (forall₂_with_mem (mapE_ok_iff.mp hout)).imp ?_
    rintro d d' ⟨hd, hdd⟩
    obtain ⟨d'', h1, h2⟩ := hone d hd
    rw [h1] at hdd
    cases hdd
    exact h2
  refine ⟨out, (groupLoop_iff hkey).mpr hout, h.next (hF.imp fun d d' hd _ => hd.1), ?_⟩
  intro d' hd' hm
  obtain ⟨d, hd, h1, h2⟩ := forall₂_mem_right hF hd'
  exact h2 ((congrArg Sig.type h1.sig).symm.trans hm)

/-! ## Volumes of markets -/

theorem Touch.volume {e : Exchange} (f : PV → PV) : Touch e (mapRefVolume f e) := by
  unfold mapRefVolume
  split
  · refine ⟨rfl, rfl, rfl, rfl, ?_, .inl rfl⟩
    intro h
    simpa using h
  · exact .refl e

theorem updateMarketVolume_next {S : String → Prop} {d : Dataset} (h : Fine b S d) (hs : d.suppliers.isSome) :
    ∃ d', updateMarketVolume d = .ok d' ∧ Next d d' ∧ d'.suppliers = d.suppliers ∧ d'.code = d.code := by
  obtain ⟨sup, hsup⟩ := Option.isSome_iff_exists.mp hs
  obtain ⟨r, hr, hpv, -⟩ := h.ref
  obtain ⟨p, hp⟩ := Option.isSome_iff_exists.mp hpv
  have hex := updateMarketVolume_of hsup hr hp fun s hs => (h.sup sup hsup s hs).1.1
  have hall := hex
  unfold updateMarketVolume at hall
  obtain ⟨_, -, hall⟩ := bind_eq_ok.mp hall
  obtain ⟨_, -, hall⟩ := bind_eq_ok.mp hall
  obtain ⟨orig, -, hall⟩ := bind_eq_ok.mp hall
  obtain ⟨_, -, hall⟩ := bind_eq_ok.mp hall
  obtain ⟨vols, -, hall⟩ := bind_eq_ok.mp hall
  refine ⟨_, hex, ?_, rfl, rfl⟩
  have he : { d with exchanges := d.exchanges.map (mapRefVolume (setMarketVolume orig.sum vols.sum)) } = { d with exchanges := d.exchanges.map (netSupply sup) } := Except.ok.inj hall
  rw [← he]
  refine ⟨rfl, rfl, rfl, fun _ S' hS' => hS'.touch (sup := d.suppliers) ?_ hS'.sup⟩
  rw [List.forall₂_map_right_iff]
  exact List.forall₂_same.mpr fun e _ => .volume _

theorem total_marketVolumes {T : Topology} {data : List Dataset} (h : Inv b T data) (hl : Listed .market data) :
    ∃ out, updateMarketProductionVolumes T .market data = .ok out ∧ Inv b T out ∧ Listed .market out := by
  unfold updateMarketProductionVolumes
  rw [if_neg (by decide)]
  have hone : ∀ d ∈ data, ∃ d', (if d.type = .market then updateMarketVolume d else .ok d) = .ok d' ∧ Next d d' ∧ d'.suppliers = d.suppliers := by
    intro d hd
    split
    · next hm =>
      obtain ⟨d', h1, h2, h3, -⟩ := updateMarketVolume_next (h.fine d hd) (hl d hd hm)
      exact ⟨d', h1, h2, h3⟩
    · exact ⟨d, rfl, .refl d, rfl⟩
  obtain ⟨out, hout⟩ := mapE_ok_of_forall fun d hd => ⟨_, (hone d hd).choose_spec.1⟩
  have hF : List.Forall₂ (fun d d' => d ∈ data ∧ Next d d' ∧ d'.suppliers = d.suppliers) data out := by
    refine (forall₂_with_mem (mapE_ok_iff.mp hout)).imp ?_
    rintro d d' ⟨hd, hdd⟩
    obtain ⟨d'', h1, h2⟩ := hone d hd
    rw [h1] at hdd
    cases hdd
    exact ⟨hd, h2⟩
  refine ⟨out, hout, h.next (hF.imp fun d d' hd _ => hd.2.1), ?_⟩
  intro d' hd' hm
  obtain ⟨d, hd, -, h1, h2⟩ := forall₂_mem_right hF hd'
  rw [h2]
  exact hl d hd ((congrArg Sig.type h1.sig).symm.trans hm)

/-! ## Deleted datasets -/

theorem Db.nodup {T : Topology} {l : List Sig} (h : Db T l) : l.Nodup := by
  refine List.Pairwise.imp_of_mem ?_ (h.apart.and h.groups)
  rintro a b ha - ⟨h1, h2⟩ rfl
  rcases h.kinds a ha with ht | ht | ht
  · exact (h1 ⟨rfl, rfl, .inr ⟨ht, rfl⟩⟩).1 rfl
  · exact (h1 ⟨rfl, rfl, .inl ht⟩).1 rfl
  · exact (h2 ht ht rfl).2 rfl

theorem total_deleteGlobal {T : Topology} (hT : WellFormed T) {kind : DsType} (hkind : kind ≠ .marketGroup) {data : List Dataset} (h : Inv b T data) :
    ∃ out, deleteGlobalZeroPv kind data = .ok out ∧ Inv b T out ∧ out.Sublist data := by
  obtain ⟨out, hout⟩ := C51_total kind data fun d hd _ => (h.productCode hd).1
  obtain ⟨hsub, hrem⟩ := C51_removed kind data out hout
  have hnd : data.Nodup := List.Nodup.of_map _ h.db.nodup
  have hleft := C51_one_left_partial kind data out hnd hout
  have hsold : ∀ n, Sold (data.map sig) n → Sold (out.map sig) n := by
    rintro n ⟨s, hs, ht, hp⟩
    obtain ⟨d, hd, rfl⟩ := List.mem_map.mp hs
    by_cases hk : d.type = kind
    · obtain ⟨d', hd', hk', hp'⟩ := hleft d hd hk
      refine ⟨sig d', List.mem_map.mpr ⟨d', hd', rfl⟩, ?_, ?_⟩
      · change d'.type = _ ∨ d'.type = _
        rw [hk', ← hk]; exact ht
      · rw [← hp]; simp only [sig]; rw [hp']
    · refine ⟨sig d, List.mem_map.mpr ⟨d, ?_, rfl⟩, ht, hp⟩
      by_contra hn
      exact hk (hrem d hd hn).1
  refine ⟨out, hout, ⟨⟨?_, ?_, ?_, ?_, ?_, ?_⟩, ?_⟩, hsub⟩
  · exact fun s hs => h.db.known s ((hsub.map _).subset hs)
  · exact fun s hs => h.db.kinds s ((hsub.map _).subset hs)
  · exact h.db.apart.sublist (hsub.map _)
  · exact h.db.groups.sublist (hsub.map _)
  · exact fun s hs => h.db.noRow s ((hsub.map _).subset hs)
  · intro s hs hg
    obtain ⟨m, hm, hc⟩ := h.db.covers s ((hsub.map _).subset hs) hg
    obtain ⟨d, hd, rfl⟩ := List.mem_map.mp hm
    refine ⟨sig d, List.mem_map.mpr ⟨d, ?_, rfl⟩, hc⟩
    by_contra hn
    obtain ⟨-, -, f, f', -, hf', -⟩ := hc
    exact hf'.ne hT (hrem d hd hn).2.1
  · intro d hd
    have hf := h.fine d (hsub.subset hd)
    exact ⟨hf.ref, hf.classified, hf.steady, hf.code, fun hg e he hu => hsold _ (hf.sold hg e he hu), hf.sup⟩

/-! ## Inputs of markets -/

theorem marketInput_mem {a t : ℚ} {l r : List Exchange} (h : flatMapE (marketInput a t) l = .ok r) (hl : ∀ s ∈ l, Ready s) :
    ∀ e ∈ r, e.type = .fromTechnosphere ∧ e.code.getD "" ≠ "" ∧ e.uncertainty = none := by
  intro e he
  obtain ⟨s, hs, bs, h1, hb⟩ := flatMapE_mem h he
  unfold marketInput at h1
  obtain ⟨p, -, h1⟩ := bind_eq_ok.mp h1
  simp only at h1
  split at h1
  · cases h1; cases hb
  · obtain ⟨c, hc, h1⟩ := bind_eq_ok.mp h1
    obtain ⟨_, -, h1⟩ := bind_eq_ok.mp h1
    cases h1
    rw [List.mem_singleton] at hb
    subst hb
    have := (hl s hs).2
    rw [getKey_eq_ok.mp hc] at this
    exact ⟨rfl, this, rfl⟩

theorem Fine.append {S : String → Prop} {d : Dataset} {new : List Exchange} {sup : Option (List Exchange)} (h : Fine b S d)
    (hn : ∀ e ∈ new, e.type = .fromTechnosphere ∧ e.code.getD "" ≠ "" ∧ e.uncertainty = none) (hsup : ∀ l, sup = some l → ∀ s ∈ l, Ready s) :
    Fine b S { d with suppliers := sup, exchanges := d.exchanges ++ new } := by
  have hrefs : refs { d with suppliers := sup, exchanges := d.exchanges ++ new } = refs d := by
    unfold refs
    simp only [List.filter_append]
    have : (new.filter fun e => e.type == .referenceProduct) = [] := by
      refine List.filter_eq_nil_iff.mpr ?_
      intro e he
      rw [(hn e he).1]
      decide
    rw [this, List.append_nil]
  refine ⟨?_, ?_, ?_, h.code, ?_, hsup⟩
  · rw [hrefs]; exact h.ref
  · intro e he ht
    rcases List.mem_append.mp he with he | he
    · exact h.classified e he ht
    · rw [(hn e he).1] at ht; cases ht
  · intro e he
    rcases List.mem_append.mp he with he | he
    · exact h.steady e he
    · refine ⟨steady_certain (hn e he).2.2, fun ht => ?_⟩
      rw [(hn e he).1] at ht; cases ht
  · intro hg e he hu
    rcases List.mem_append.mp he with he | he
    · exact h.sold hg e he hu
    · exfalso
      unfold isUnlinked at hu
      rw [Bool.and_eq_true] at hu
      exact (hn e he).2.1 (by simpa using hu.2)

theorem allocateSuppliers_next {S : String → Prop} {d : Dataset} (h : Fine b S d) (hs : d.suppliers.isSome) :
    ∃ d', allocateSuppliers d = .ok d' ∧ Next d d' := by
  obtain ⟨sup, hsup⟩ := Option.isSome_iff_exists.mp hs
  obtain ⟨r, hr, -⟩ := h.ref
  obtain ⟨d', hd'⟩ := C41_total d sup hsup r hr h.product fun s hs => (h.sup sup hsup s hs).1
  refine ⟨d', hd', ?_⟩
  have hready := h.sup sup hsup
  unfold allocateSuppliers at hd'
  obtain ⟨exc, -, hd'⟩ := bind_eq_ok.mp hd'
  obtain ⟨sup', hsup', hd'⟩ := bind_eq_ok.mp hd'
  rw [getKey_eq_ok, hsup] at hsup'
  cases hsup'
  obtain ⟨vols, -, hd'⟩ := bind_eq_ok.mp hd'
  split at hd'
  · split at hd'
    · cases hd'; exact .refl d
    · obtain ⟨_, -, hd'⟩ := bind_eq_ok.mp hd'
      obtain ⟨_, -, hd'⟩ := bind_eq_ok.mp hd'
      obtain ⟨new, hnew, hd'⟩ := bind_eq_ok.mp hd'
      cases hd'
      have hdef : ∀ s ∈ sup.map defaultVolume, Ready s := by
        intro s hs
        obtain ⟨s', hs', rfl⟩ := List.mem_map.mp hs
        obtain ⟨⟨h1, h2, h3⟩, h4⟩ := hready s' hs'
        exact ⟨⟨by simpa [defaultVolume] using h1, h2, h3⟩, h4⟩
      exact ⟨rfl, rfl, rfl, fun _ S' hS' => hS'.append (sup := some (sup.map defaultVolume)) (marketInput_mem hnew hdef) fun l hl => by cases hl; exact hdef⟩
  · obtain ⟨new, hnew, hd'⟩ := bind_eq_ok.mp hd'
    cases hd'
    exact ⟨rfl, rfl, rfl, fun _ S' hS' => hS'.append (sup := d.suppliers) (marketInput_mem hnew hready) hS'.sup⟩

theorem total_allocateMarkets {T : Topology} {kind : DsType} {data : List Dataset} (h : Inv b T data) (hl : Listed kind data) :
    ∃ out, allocateAllMarketSuppliers kind data = .ok out ∧ Inv b T out := by
  unfold allocateAllMarketSuppliers
  have hone : ∀ d ∈ data, ∃ d', (if d.type = kind then allocateSuppliers d else .ok d) = .ok d' ∧ Next d d' := by
    intro d hd
    split
    · next hm => exact allocateSuppliers_next (h.fine d hd) (hl d hd hm)
    · exact ⟨d, rfl, .refl d⟩
  obtain ⟨out, hout⟩ := mapE_ok_of_forall fun d hd => ⟨_, (hone d hd).choose_spec.1⟩
  refine ⟨out, hout, h.next ?_⟩
  refine (forall₂_with_mem (mapE_ok_iff.mp hout)).imp ?_
  rintro d d' ⟨hd, hdd⟩ _
  obtain ⟨d'', h1, h2⟩ := hone d hd
  rw [h1] at hdd
  cases hdd
  exact h2

end Progress
end Ocelot
