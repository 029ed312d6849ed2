import Verif.Proofs.PipelineFlows

/-! The functions after `add_unique_codes` of the cut-off model, put together. -/

namespace Ocelot
open Spec

/-- Functions that only link. -/
def Step.flows (b : Bool) : Step → Bool
  | .addRecycledContentSuppliers => b
  | .actualizeActivityLinks | .addSuppliers _ _ | .updateMarketVolumes _ | .deleteGlobalZeroPv _
  | .linkMarketGroupSuppliers | .linkRecycledContent | .linkConsumersToMarkets | .addReferenceProductCodes | .logAndDeleteUnlinked
  | .pruneByTechnologyLevel | .deleteSuppliersList => true
  | _ => false

theorem Flow.mono {f : List Dataset → Except Err (List Dataset)} (h : Flow false f) (b : Bool) : Flow b f :=
  fun K _ => h K (by simp)

theorem flow_prune : Flow false pruneByTechnologyLevel := by
  refine flow_of_relink fun K hb data out h hg => (mapE_ok_iff.mp h).imp fun d d' hd => ?_
  unfold pruneSuppliers at hd
  split at hd
  · obtain ⟨best, hbest, hd⟩ := bind_eq_ok.mp hd
    cases hd
    refine ⟨rfl, List.forall₂_same.mpr fun e _ => ⟨.refl e, Or.inl rfl⟩, fun hs => ?_⟩
    have main : ∀ (levels : List String) (r : List Exchange), bestSuppliers (d.suppliers.getD []) levels = .ok r → ∀ s ∈ r, s ∈ d.suppliers.getD [] := by
      intro levels
      induction levels with
      | nil => intro r hr; cases hr
      | cons lv rest ih =>
        intro r hr
        unfold bestSuppliers at hr
        obtain ⟨found, hf, hr⟩ := bind_eq_ok.mp hr
        split at hr
        · exact ih r hr
        · cases hr
          exact filterE_subset hf
    intro l hl s hsl
    simp only [Option.some.injEq] at hl
    subst hl
    have := main _ _ hbest s hsl
    rcases hsup : d.suppliers with _ | l
    · rw [hsup] at this; cases this
    · rw [hsup] at this; exact hs l hsup s this
  · cases hd; exact .refl _ _

theorem flow_deleteSuppliers : Flow false (fun d => .ok (deleteSuppliersList d)) := by
  refine flow_of_relink fun K hb data out h hg => ?_
  cases h
  unfold deleteSuppliersList
  rw [List.forall₂_map_right_iff]
  refine List.forall₂_same.mpr fun d _ => ⟨rfl, List.forall₂_same.mpr fun e _ => ⟨.refl e, Or.inl rfl⟩, fun _ l hl => by cases hl⟩

theorem flows_flow (P : PipelineEnv) (b : Bool) (s : Step) (hs : s.flows b = true) : ∃ g, s.run P = onDatasets g ∧ Flow b g := by
  cases s with
  | actualizeActivityLinks => exact ⟨_, rfl, flow_actualize.mono b⟩
  | addRecycledContentSuppliers =>
    have : b = true := hs
    subst this
    exact ⟨_, rfl, flow_addRecycled _ _⟩
  | addSuppliers x y => exact ⟨_, rfl, (flow_addSuppliers _ _ x y).mono b⟩
  | updateMarketVolumes k => exact ⟨_, rfl, (flow_updateVolumes _ k).mono b⟩
  | deleteGlobalZeroPv k => exact ⟨_, rfl, (flow_deleteGlobal k).mono b⟩
  | linkMarketGroupSuppliers => exact ⟨_, rfl, (flow_linkGroups _).mono b⟩
  | linkRecycledContent => exact ⟨_, rfl, flow_linkRecycled.mono b⟩
  | linkConsumersToMarkets => exact ⟨_, rfl, (flow_linkConsumers _ _).mono b⟩
  | addReferenceProductCodes => exact ⟨_, rfl, flow_refCodes.mono b⟩
  | logAndDeleteUnlinked => exact ⟨_, rfl, flow_logAndDelete.mono b⟩
  | pruneByTechnologyLevel => exact ⟨_, rfl, flow_prune.mono b⟩
  | deleteSuppliersList => exact ⟨_, rfl, flow_deleteSuppliers.mono b⟩
  | _ => cases hs

theorem foldE_flows (P : PipelineEnv) {K : Known} (hK : ∀ x ∈ K.pairs, x.1 ≠ "") (l : List Step) (hl : ∀ s ∈ l, s.flows K.rc = true)
    (data : List Dataset) (out : List Item) (h : foldE (fun d (s : Step) => s.run P d) (data.map .ds) l = .ok out)
    (hg : GoodAll K data) (hgas : GasOk K data) :
    ∃ r, out = r.map .ds ∧ GoodAll K r ∧ GasOk K r ∧ ∀ d' ∈ r, ∃ d ∈ data, Same d d' := by
  induction l generalizing data with
  | nil => cases h; exact ⟨data, rfl, hg, hgas, fun d hd => ⟨d, hd, .refl d⟩⟩
  | cons s l ih =>
    simp only [foldE] at h
    obtain ⟨mid, h1, h2⟩ := bind_eq_ok.mp h
    obtain ⟨g, hgs, hf⟩ := flows_flow P K.rc s (hl s (by simp))
    rw [hgs] at h1
    obtain ⟨m, hm, rfl⟩ := onDatasets_map.mp h1
    obtain ⟨a1, a2, -⟩ := hf K id hK data m hm hg hgas
    obtain ⟨r, hr, b1, b2, b3⟩ := ih (fun s hs => hl s (by simp [hs])) m h2 a1 (hf.gas id hK hm hg hgas)
    refine ⟨r, hr, b1, b2, fun d' hd' => ?_⟩
    obtain ⟨x, hx, hxs⟩ := b3 d' hd'
    obtain ⟨d, hd, hds⟩ := a2 x hx
    exact ⟨d, hd, hds.trans hxs⟩

/-- From the coded dataset `d` to the linked dataset `d'`: the amounts do not change, except that a market or market group gets
inputs of its product, as much as it produces (`a`), or none. -/
structure Through (rc : Bool) (d d' : Dataset) : Prop where
  code : d'.code = d.code
  type : d'.type = d.type
  name : d'.name = d.name
  location : d'.location = d.location
  product : d'.refProduct = d.refProduct
  refs : refPairs d' = refPairs d
  weigh : ((∀ w, weigh w d'.exchanges = weigh w d.exchanges) ∧
      ∀ e' ∈ d'.exchanges, ∃ e ∈ d.exchanges, e.type = e'.type ∧ e.name = e'.name) ∨
    ((d.type = .market ∨ d.type = .marketGroup) ∧ ∃ n a, d.refProduct = some n ∧ refPairs d = [(n, a)] ∧
      ∀ w : Weight, (rc = true → w .fromTechnosphere (n ++ rcString) none = w .fromTechnosphere n none) →
        weigh w d'.exchanges = weigh w d.exchanges + w .fromTechnosphere n none * a)

theorem Through.of_same {rc : Bool} {d d' : Dataset} (h : Same d d') : Through rc d d' :=
  ⟨h.code, h.type, h.name, h.location, h.product, h.refs, Or.inl ⟨h.weigh, h.old⟩⟩

theorem weigh_const {rc : Bool} {w : Weight} {n : String} {l : List Exchange} (hw : rc = true → w .fromTechnosphere (n ++ rcString) none = w .fromTechnosphere n none)
    (hl : ∀ e ∈ l, e.type = .fromTechnosphere ∧ e.compartment = none ∧ (e.name = n ∨ rc = true ∧ e.name = n ++ rcString)) :
    weigh w l = w .fromTechnosphere n none * (l.map (·.amount)).sum := by
  induction l with
  | nil => simp [Ocelot.weigh]
  | cons e l ih =>
    rw [weigh_cons, ih fun x hx => hl x (by simp [hx]), List.map_cons, List.sum_cons]
    obtain ⟨h1, h2, h3⟩ := hl e (by simp)
    rw [h1, h2]
    rcases h3 with h3 | ⟨hr, h3⟩ <;> rw [h3]
    · ring
    · rw [hw hr]; ring

theorem Through.of_stocked {K : Known} {kind : DsType} {a b c d : Dataset} (hk : a.type = kind) (hkind : kind = .market ∨ kind = .marketGroup)
    (hb : GoodD K b) (h1 : Same a b) (h2 : Stocked K.rc kind b c) (h3 : Same c d) : Through K.rc a d := by
  rcases h2.inputs with rfl | ⟨rp, new, g1, g2, g3, g4⟩
  · exact .of_same (h1.trans h3)
  · refine ⟨h3.code.trans (h2.code.trans h1.code), h3.type.trans (h2.type.trans h1.type), h3.name.trans (h2.name.trans h1.name),
      h3.location.trans (h2.location.trans h1.location), h3.product.trans (h2.product.trans h1.product),
      h3.refs.trans (h2.refs.trans h1.refs), Or.inr ⟨hk ▸ hkind, rp.name, rp.amount, ?_, ?_, ?_⟩⟩
    · obtain ⟨rp', k1, k2⟩ := hb.ref
      rw [g1] at k1
      cases k1
      rw [← h1.product, k2]
    · rw [← h1.refs]; unfold refPairs; rw [g1]; rfl
    · intro w hw
      rw [h3.weigh w, g2, weigh_append, h1.weigh w, weigh_const hw g3, g4]

theorem linking_through (P : PipelineEnv) {K : Known} (hrc : K.rc = true) (hK : ∀ x ∈ K.pairs, x.1 ≠ "") (data : List Dataset) (out : List Item)
    (h : foldE (fun d (s : Step) => s.run P d) (data.map .ds) ([.actualizeActivityLinks, .addRecycledContentSuppliers,
      .addSuppliers .transforming .market, .updateMarketVolumes .market, .deleteGlobalZeroPv .market, .deleteGlobalZeroPv .transforming] ++
      [.allocateMarketSuppliers .market] ++ [.linkMarketGroupSuppliers, .updateMarketVolumes .marketGroup] ++ [.allocateMarketSuppliers .marketGroup] ++
      [.linkRecycledContent, .linkConsumersToMarkets, .addReferenceProductCodes, .logAndDeleteUnlinked]) = .ok out)
    (hg : GoodAll K data) (hgas : GasOk K data) :
    ∃ r, out = r.map .ds ∧ GoodAll K r ∧ ∀ d' ∈ r, ∃ d ∈ data, Through K.rc d d' := by
  obtain ⟨i4, h, h5⟩ := foldE_split.mp h
  obtain ⟨i3, h, h4⟩ := foldE_split.mp h
  obtain ⟨i2, h, h3⟩ := foldE_split.mp h
  obtain ⟨i1, h1, h2⟩ := foldE_split.mp h
  obtain ⟨r1, rfl, a1, a2, a3⟩ := foldE_flows P hK _ (by rw [hrc]; decide) data i1 h1 hg hgas
  simp only [foldE] at h2 h4
  obtain ⟨o2, h2, h2'⟩ := bind_eq_ok.mp h2
  cases h2'
  obtain ⟨o4, h4, h4'⟩ := bind_eq_ok.mp h4
  cases h4'
  obtain ⟨r2, hr2, rfl⟩ := onDatasets_map.mp h2
  obtain ⟨b1, b2, b3⟩ := stock_allocateAll .market hr2 a1 a2
  obtain ⟨r3, rfl, c1, c2, c3⟩ := foldE_flows P hK _ (by rw [hrc]; decide) r2 i3 h3 b1 b2
  obtain ⟨r4, hr4, rfl⟩ := onDatasets_map.mp h4
  obtain ⟨d1, d2, d3⟩ := stock_allocateAll .marketGroup hr4 c1 c2
  obtain ⟨r5, rfl, e1, e2, e3⟩ := foldE_flows P hK _ (by rw [hrc]; decide) r4 out h5 d1 d2
  refine ⟨r5, rfl, e1, fun d' hd' => ?_⟩
  obtain ⟨x4, hx4, s4⟩ := e3 d' hd'
  obtain ⟨x3, hx3, s3⟩ := d3 x4 hx4
  obtain ⟨x2, hx2, s2⟩ := c3 x3 hx3
  obtain ⟨x1, hx1, s1⟩ := b3 x2 hx2
  obtain ⟨d, hd, s0⟩ := a3 x1 hx1
  refine ⟨d, hd, ?_⟩
  have t3 : x3.type = d.type := s2.type.trans (s1.type.trans s0.type)
  by_cases hm : d.type = .market
  · have : x4 = x3 := s3.same (by rw [t3, hm]; decide)
    subst this
    exact .of_stocked hm (Or.inl rfl) (a1 x1 hx1) s0 s1 (s2.trans s4)
  · have h12 : x2 = x1 := s1.same (by rw [s0.type]; exact hm)
    subst h12
    by_cases hgr : d.type = .marketGroup
    · exact .of_stocked hgr (Or.inr rfl) (c1 x3 hx3) (s0.trans s2) s3 s4
    · have : x4 = x3 := s3.same (by rw [t3]; exact hgr)
      subst this
      exact .of_same (s0.trans (s2.trans s4))

theorem linking_through_consequential (P : PipelineEnv) {K : Known} (hrc : K.rc = false) (hK : ∀ x ∈ K.pairs, x.1 ≠ "") (data : List Dataset) (out : List Item)
    (h : foldE (fun d (s : Step) => s.run P d) (data.map .ds) ([.actualizeActivityLinks, .addSuppliers .transforming .market, .pruneByTechnologyLevel,
      .updateMarketVolumes .market, .addSuppliers .market .marketGroup, .updateMarketVolumes .marketGroup] ++
      [.allocateMarketSuppliers .market] ++ [.deleteSuppliersList, .linkConsumersToMarkets, .logAndDeleteUnlinked]) = .ok out)
    (hg : GoodAll K data) (hgas : GasOk K data) :
    ∃ r, out = r.map .ds ∧ GoodAll K r ∧ ∀ d' ∈ r, ∃ d ∈ data, Through false d d' ∧ (d.type ≠ .market → Same d d') := by
  obtain ⟨i2, h, h3⟩ := foldE_split.mp h
  obtain ⟨i1, h1, h2⟩ := foldE_split.mp h
  obtain ⟨r1, rfl, a1, a2, a3⟩ := foldE_flows P hK _ (by rw [hrc]; decide) data i1 h1 hg hgas
  simp only [foldE] at h2
  obtain ⟨o2, h2, h2'⟩ := bind_eq_ok.mp h2
  cases h2'
  obtain ⟨r2, hr2, rfl⟩ := onDatasets_map.mp h2
  obtain ⟨b1, b2, b3⟩ := stock_allocateAll .market hr2 a1 a2
  obtain ⟨r3, rfl, c1, c2, c3⟩ := foldE_flows P hK _ (by rw [hrc]; decide) r2 out h3 b1 b2
  refine ⟨r3, rfl, c1, fun d' hd' => ?_⟩
  obtain ⟨x2, hx2, s2⟩ := c3 d' hd'
  obtain ⟨x1, hx1, s1⟩ := b3 x2 hx2
  obtain ⟨d, hd, s0⟩ := a3 x1 hx1
  refine ⟨d, hd, ?_⟩
  by_cases hm : d.type = .market
  · rw [← hrc]
    exact ⟨.of_stocked hm (Or.inl rfl) (a1 x1 hx1) s0 s1 s2, fun h => absurd hm h⟩
  · have h12 : x2 = x1 := s1.same (by rw [s0.type]; exact hm)
    subst h12
    exact ⟨.of_same (s0.trans s2), fun _ => s0.trans s2⟩

/-! ## The end -/

theorem weigh_scaled {k : ℚ} {l r : List Exchange} (h : List.Forall₂ (ScaledBy k) l r) (w : Weight) : weigh w r = k * weigh w l := by
  induction h with
  | nil => simp [weigh]
  | cons hab _ ih =>
    rw [weigh_cons, weigh_cons, ih, hab]
    ring

/-- Byproducts count as negative inputs. -/
def Balanced (w : Weight) : Prop := ∀ n c, w .fromTechnosphere n c = -w .byproduct n c

theorem signs_uniform {M : MathEnv} {d d' : Dataset} {rp : Exchange} (h : adjustMarketSigns M d = .ok d') (hr : refs d = [rp]) :
    ∃ s s' : ℚ, (s = 1 ∨ s = -1) ∧ (s' = 1 ∨ s' = -1) ∧ (d.type ≠ .market → s = 1 ∧ s' = 1) ∧
      d' = { d with exchanges := d'.exchanges } ∧
      List.Forall₂ (fun e e' => (e.name = rp.name → ScaledBy s e e') ∧ (e.name ≠ rp.name → ScaledBy s' e e')) d.exchanges d'.exchanges := by
  have hone : ∀ e : Exchange, ScaledBy 1 e e := by intro e; unfold ScaledBy; rw [mul_one]
  have hsame : d' = d → ∃ s s' : ℚ, (s = 1 ∨ s = -1) ∧ (s' = 1 ∨ s' = -1) ∧ (d.type ≠ .market → s = 1 ∧ s' = 1) ∧
      d' = { d with exchanges := d'.exchanges } ∧
      List.Forall₂ (fun e e' => (e.name = rp.name → ScaledBy s e e') ∧ (e.name ≠ rp.name → ScaledBy s' e e')) d.exchanges d'.exchanges := by
    rintro rfl
    exact ⟨1, 1, Or.inl rfl, Or.inl rfl, fun _ => ⟨rfl, rfl⟩, rfl, List.forall₂_same.mpr fun e _ => ⟨fun _ => hone e, fun _ => hone e⟩⟩
  unfold adjustMarketSigns at h
  split at h
  · next hm =>
    obtain ⟨rp', hrp, h⟩ := bind_eq_ok.mp h
    have := getSingle_ok.mp hrp
    rw [hr] at this
    cases this
    obtain ⟨cls, -, h⟩ := bind_eq_ok.mp h
    split at h
    · obtain ⟨ex, hex, h⟩ := bind_eq_ok.mp h
      cases h
      refine ⟨-1, -1, Or.inr rfl, Or.inr rfl, fun h => absurd hm h, rfl, ?_⟩
      exact (mapE_ok_iff.mp hex).imp fun e e' he => ⟨fun _ => scaleExchange_scaled he, fun _ => scaleExchange_scaled he⟩
    · split at h
      · obtain ⟨ex, hex, h⟩ := bind_eq_ok.mp h
        cases h
        refine ⟨-1, 1, Or.inr rfl, Or.inl rfl, fun h => absurd hm h, rfl, ?_⟩
        refine (mapE_ok_iff.mp hex).imp fun e e' he => ?_
        split at he
        · next hn => exact ⟨fun _ => scaleExchange_scaled he, fun h => absurd hn h⟩
        · next hn => cases he; exact ⟨fun h => absurd h hn, fun _ => hone e⟩
      · cases h; exact hsame rfl
  · cases h; exact hsame rfl

/-- From the linked dataset `d` to the returned dataset `d'`; `g` renames. -/
structure Finished (g : String → String) (d d' : Dataset) : Prop where
  code : d'.code = d.code
  type : d'.type = d.type
  name : d'.name = d.name
  location : d'.location = d.location
  product : d'.refProduct = d.refProduct.map g
  old : ∀ e' ∈ d'.exchanges, ∃ e ∈ d.exchanges, e'.name = g e.name ∧ e'.code = e.code ∧
    (e'.type = e.type ∨ e.type = .byproduct ∧ e'.type = .fromTechnosphere)
  weigh : ∃ (rp rp' : Exchange) (k s s' : ℚ), Spec.refs d = [rp] ∧ Spec.refs d' = [rp'] ∧ 0 < k ∧ (s = 1 ∨ s = -1) ∧ (s' = 1 ∨ s' = -1) ∧
    (d.type ≠ .market → s = 1 ∧ s' = 1) ∧ rp'.name = g rp.name ∧ rp'.amount = s * k * rp.amount ∧
    ∀ w : Weight, Balanced w →
      ((∀ t n c, n ≠ g rp.name → w t n c = 0) → weigh w d'.exchanges = s * k * weigh (fun t n c => w t (g n) c) d.exchanges) ∧
      ((∀ t c, w t (g rp.name) c = 0) → weigh w d'.exchanges = s' * k * weigh (fun t n c => w t (g n) c) d.exchanges) ∧
      (s = s' → weigh w d'.exchanges = s * k * weigh (fun t n c => w t (g n) c) d.exchanges)

theorem weigh_signs {s s' : ℚ} {p : String} {l r : List Exchange}
    (h : List.Forall₂ (fun e e' => (e.name = p → ScaledBy s e e') ∧ (e.name ≠ p → ScaledBy s' e e')) l r) (w : Weight) :
    ((∀ t n c, n ≠ p → w t n c = 0) → weigh w r = s * weigh w l) ∧ ((∀ t c, w t p c = 0) → weigh w r = s' * weigh w l) ∧
      (s = s' → weigh w r = s * weigh w l) := by
  induction h with
  | nil => simp [weigh]
  | @cons e e' l r hab _ ih =>
    rw [weigh_cons, weigh_cons]
    by_cases hn : e.name = p
    · have hs := hab.1 hn
      refine ⟨fun hw => ?_, fun hw => ?_, fun hss => ?_⟩
      · rw [ih.1 hw, hs]; ring
      · rw [ih.2.1 hw, hs, hn, hw]; ring
      · rw [ih.2.2 hss, hs]; ring
    · have hs := hab.2 hn
      refine ⟨fun hw => ?_, fun hw => ?_, fun hss => ?_⟩
      · rw [ih.1 hw, hs, hw _ _ _ hn]; ring
      · rw [ih.2.1 hw, hs]; ring
      · rw [ih.2.2 hss, hs, hss]; ring

theorem weigh_flip {l r : List Exchange} (h : List.Forall₂ (fun e e' : Exchange => e'.name = e.name ∧ e'.compartment = e.compartment ∧ e'.code = e.code ∧
    ((e.type = .byproduct ∧ e'.type = .fromTechnosphere ∧ e'.amount = -e.amount) ∨ (e'.type = e.type ∧ e'.amount = e.amount))) l r) {w : Weight} (hw : Balanced w) :
    weigh w r = weigh w l := by
  induction h with
  | nil => rfl
  | @cons e e' l r hab _ ih =>
    rw [weigh_cons, weigh_cons, ih, hab.1, hab.2.1]
    rcases hab.2.2.2 with ⟨h1, h2, h3⟩ | ⟨h1, h2⟩
    · rw [h1, h2, h3, hw]; ring
    · rw [h1, h2]

theorem refs_scaled {s s' : ℚ} {d d' : Dataset} {rp : Exchange} (hr : refs d = [rp])
    (h : List.Forall₂ (fun e e' => (e.name = rp.name → ScaledBy s e e') ∧ (e.name ≠ rp.name → ScaledBy s' e e')) d.exchanges d'.exchanges) :
    ∃ rp', refs d' = [rp'] ∧ ScaledBy s rp rp' := by
  have hF : List.Forall₂ (fun e e' => (e.name = rp.name → ScaledBy s e e') ∧ (e.name ≠ rp.name → ScaledBy s' e e')) (refs d) (refs d') := by
    refine forall₂_filter_rel h ?_
    intro a b hab
    by_cases hn : a.name = rp.name
    · rw [(hab.1 hn).type]
    · rw [(hab.2 hn).type]
  rw [hr] at hF
  obtain ⟨x, l, h1, h2, h3⟩ := List.forall₂_cons_left_iff.mp hF
  cases h2
  exact ⟨x, h3, h1.1 rfl⟩

theorem finish_one {M : MathEnv} {d d1 d2 d' : Dataset}
    (h1 : mapE flipExchange (d.exchanges.map fun e => { e with name := stripRc e.name }) = .ok d1.exchanges)
    (hd1 : d1 = { d with exchanges := d1.exchanges, refProduct := d.refProduct.map stripRc })
    (h2 : normalize M d1 = .ok d2) (h3 : adjustMarketSigns M d2 = .ok d') : Finished stripRc d d' := by
  have hflip : List.Forall₂ (fun e e' : Exchange => e'.name = e.name ∧ e'.compartment = e.compartment ∧ e'.code = e.code ∧
      ((e.type = .byproduct ∧ e'.type = .fromTechnosphere ∧ e'.amount = -e.amount) ∨ (e'.type = e.type ∧ e'.amount = e.amount)))
      (d.exchanges.map fun e => { e with name := stripRc e.name }) d1.exchanges := by
    refine (mapE_ok_iff.mp h1).imp fun e e' he => ?_
    rcases flipExchange_inv he with ⟨hn, rfl⟩ | ⟨-, rfl, -⟩
    · exact ⟨rfl, rfl, rfl, Or.inl ⟨hn.1, rfl, rfl⟩⟩
    · exact ⟨rfl, rfl, rfl, Or.inr ⟨rfl, rfl⟩⟩
  have hrefs1 : refs d1 = (refs d).map fun e => { e with name := stripRc e.name } := by
    have : ∀ (l r : List Exchange), mapE flipExchange (l.map fun e => { e with name := stripRc e.name }) = .ok r →
        r.filter (fun e => e.type == .referenceProduct) = (l.filter fun e => e.type == .referenceProduct).map fun e => { e with name := stripRc e.name } := by
      intro l
      induction l with
      | nil => intro r h; cases h; rfl
      | cons e l ih =>
        intro r h
        rw [List.map_cons] at h
        simp only [mapE] at h
        obtain ⟨x, hx, h⟩ := bind_eq_ok.mp h
        obtain ⟨rs, hrs, h⟩ := bind_eq_ok.mp h
        cases h
        rw [List.filter_cons, List.filter_cons, ih rs hrs]
        rcases flipExchange_inv hx with ⟨hn, rfl⟩ | ⟨-, rfl, -⟩
        · have : e.type = .byproduct := hn.1
          simp [this]
        · simp only
          split <;> rfl
    exact this _ _ h1
  obtain ⟨rp1, k, g1, g2, g3, g4, g5, -⟩ := C10_normalize_result M d1 d2 h2
  have hrefs2 : ∃ rp2, refs d2 = [rp2] ∧ ScaledBy k rp1 rp2 :=
    refs_scaled (s' := k) g1 (g5.imp fun _ _ h => ⟨fun _ => h, fun _ => h⟩)
  obtain ⟨rp2, k1, k2⟩ := hrefs2
  obtain ⟨s, s', hs, hs', hm, hd', hF⟩ := signs_uniform h3 k1
  obtain ⟨rp3, m1, m2⟩ := refs_scaled k1 hF
  rw [hrefs1] at g1
  obtain ⟨rp, hrp, hrpe⟩ := List.map_eq_singleton_iff.mp g1
  have hname : rp2.name = stripRc rp.name := by rw [k2.name, ← hrpe]
  have ht1 : d2.type = d.type := by rw [g4, hd1]
  refine ⟨by rw [hd', g4, hd1], by rw [hd', g4, hd1], by rw [hd', g4, hd1], by rw [hd', g4, hd1], by rw [hd', g4, hd1], ?_,
    rp, rp3, k, s, s', hrp, m1, g3, hs, hs', fun h => hm (ht1 ▸ h), m2.name.trans hname, ?_, ?_⟩
  · intro e' he'
    obtain ⟨e2, he2, p1, p2⟩ := forall₂_mem_right hF he'
    obtain ⟨e1, he1, p3⟩ := forall₂_mem_right g5 he2
    obtain ⟨e0, he0, p4, -, p5, p6⟩ := forall₂_mem_right hflip he1
    obtain ⟨e, he, rfl⟩ := List.mem_map.mp he0
    have : ∃ f, ScaledBy f e2 e' := by
      by_cases hn : e2.name = rp2.name
      · exact ⟨_, p1 hn⟩
      · exact ⟨_, p2 hn⟩
    obtain ⟨f, hf⟩ := this
    refine ⟨e, he, hf.name.trans (p3.name.trans p4), hf.code.trans (p3.code.trans p5), ?_⟩
    have ht : e'.type = e1.type := hf.type.trans p3.type
    rw [ht]
    rcases p6 with ⟨q1, q2, -⟩ | ⟨q1, -⟩
    · exact Or.inr ⟨q1, q2⟩
    · exact Or.inl q1
  · rw [m2.amount, k2.amount, ← hrpe]
    ring
  · intro w hw
    have hk : weigh w d2.exchanges = k * weigh (fun t n c => w t (stripRc n) c) d.exchanges := by
      rw [weigh_scaled g5, weigh_flip hflip hw]
      congr 1
      unfold weigh
      rw [List.map_map]
      rfl
    obtain ⟨q1, q2, q3⟩ := weigh_signs hF w
    rw [hname] at q1 q2
    refine ⟨fun h => ?_, fun h => ?_, fun h => ?_⟩
    · rw [q1 h, hk]; ring
    · rw [q2 h, hk]; ring
    · rw [q3 h, hk]; ring

theorem finish_all (P : PipelineEnv) (data : List Dataset) (out : List Item)
    (h : foldE (fun d (s : Step) => s.run P d) (data.map .ds)
      [.renameRecycledAfterLinking, .flipNonAllocatableByproducts, .normalize, .adjustMarketSigns] = .ok out) :
    ∃ r : List Dataset, out = r.map .ds ∧ ∀ d' ∈ r, ∃ d ∈ data, Finished stripRc d d' := by
  simp only [foldE] at h
  obtain ⟨i3, h3, h⟩ := bind_eq_ok.mp h
  obtain ⟨d3, hd3, rfl⟩ := onDatasets_map.mp h3
  obtain ⟨i4, h4, h⟩ := bind_eq_ok.mp h
  obtain ⟨d4, hd4, rfl⟩ := onDatasets_map.mp h4
  obtain ⟨i5, h5, h⟩ := bind_eq_ok.mp h
  obtain ⟨d5, hd5, rfl⟩ := onDatasets_map.mp h5
  obtain ⟨i6, h6, h⟩ := bind_eq_ok.mp h
  obtain ⟨d6, hd6, rfl⟩ := onDatasets_map.mp h6
  cases h
  rw [wrapNormalize_eq] at hd5
  refine ⟨d6, rfl, fun d' hd' => ?_⟩
  obtain ⟨x5, hx5, s6⟩ := mapE_mem hd6 hd'
  obtain ⟨x4, hx4, s5⟩ := mapE_mem hd5 hx5
  obtain ⟨x3, hx3, s4⟩ := mapE_mem hd4 hx4
  cases hd3
  obtain ⟨d, hd, rfl⟩ := List.mem_map.mp hx3
  obtain ⟨ex, hex, rfl⟩ := flip_one s4
  exact ⟨d, hd, finish_one (d1 := { d with exchanges := ex, refProduct := d.refProduct.map stripRc }) hex rfl s5 s6⟩

/-! ## The beginning -/

/-- The label is the name of the only reference product. -/
def Labelled (d : Dataset) : Prop := ∃ rp, refs d = [rp] ∧ d.refProduct = some rp.name

theorem Labelled.same {d d' : Dataset} (h : Labelled d) (hp : d'.refProduct = d.refProduct) (he : List.Forall₂ SameExc d.exchanges d'.exchanges) :
    Labelled d' := by
  obtain ⟨rp, h4, h5⟩ := h
  have hr := refPairs_same he
  unfold refPairs at hr
  rw [h4] at hr
  obtain ⟨x, hx, hxe⟩ := List.map_eq_singleton_iff.mp hr
  have hn : x.name = rp.name := (Prod.ext_iff.mp hxe).1
  exact ⟨x, hx, by rw [hp, h5, hn]⟩

/-- The function keeps the labels right. -/
def KeepsLabels (f : List Dataset → Except Err (List Dataset)) : Prop :=
  ∀ data out, f data = .ok out → (∀ d ∈ data, Labelled d) → ∀ d ∈ out, Labelled d

theorem labels_label (data out : List Dataset) (h : labelReferenceProduct data = .ok out) : ∀ d ∈ out, Labelled d := by
  intro d' hd'
  obtain ⟨d, hd, hdd⟩ := mapE_mem h hd'
  obtain ⟨e, he, hdd⟩ := bind_eq_ok.mp hdd
  cases hdd
  exact ⟨e, getSingle_ok.mp he, rfl⟩

theorem sameExc_refl_all (l : List Exchange) : List.Forall₂ SameExc l l := List.forall₂_same.mpr fun e _ => .refl e

theorem labels_whitelist : KeepsLabels deleteWhitelistedMarkets := by
  intro data out h hl d hd
  unfold deleteWhitelistedMarkets at h
  obtain ⟨_, -, h⟩ := bind_eq_ok.mp h
  cases h
  exact hl d (List.mem_filter.mp hd).1

theorem labels_fakePv : KeepsLabels assignFakePvToConfidential := by
  intro data out h hl d' hd'
  obtain ⟨d, hd, hdd⟩ := mapE_mem h hd'
  unfold assignFakePv at hdd
  split at hdd
  · obtain ⟨rp, -, hdd⟩ := bind_eq_ok.mp hdd
    obtain ⟨_, -, hdd⟩ := bind_eq_ok.mp hdd
    cases hdd
    refine (hl d hd).same rfl ?_
    rw [List.forall₂_map_right_iff]
    refine List.forall₂_same.mpr fun e _ => ?_
    unfold mapRefVolume
    split
    · exact .refl _
    · exact .refl _
  · cases hdd; exact hl _ hd

theorem labels_pipeline : KeepsLabels (fun d => .ok (correctPipelineLocation d)) := by
  intro data out h hl d' hd'
  cases h
  obtain ⟨d, hd, rfl⟩ := List.mem_map.mp hd'
  refine (hl d hd).same ?_ ?_
  · split <;> rfl
  · split <;> exact sameExc_refl_all _

theorem labels_relabel : KeepsLabels relabelGlobalToRow := by
  intro data out h hl d' hd'
  rw [C38_relabel data out h] at hd'
  obtain ⟨d, hd, rfl⟩ := List.mem_map.mp hd'
  refine (hl d hd).same ?_ ?_
  · split <;> rfl
  · split
    · unfold asRow restVolume
      rw [List.forall₂_map_right_iff]
      refine List.forall₂_same.mpr fun e _ => ?_
      split
      · exact .refl _
      · exact .refl _
    · exact sameExc_refl_all _

theorem labels_rowGroups : KeepsLabels checkNoRowMarketGroups := by
  intro data out h hl
  unfold checkNoRowMarketGroups at h
  split at h
  · cases h
  · cases h; exact hl

theorem labels_codes (lower md5 : String → String) : KeepsLabels (addUniqueCodes lower md5) := by
  intro data out h hl d' hd'
  rw [(C49_unique lower md5 data out h).1] at hd'
  obtain ⟨d, hd, rfl⟩ := List.mem_map.mp hd'
  exact (hl d hd).same rfl (sameExc_refl_all _)

theorem coded_labelled (P : PipelineEnv) (pre : List Step) (data coded : List Dataset)
    (h : foldE (fun d (s : Step) => s.run P d) (data.map .ds) (pre ++ [.labelReferenceProduct, .deleteWhitelistedMarkets, .assignFakePv,
      .correctPipelineLocation, .relabelGlobalToRow, .checkNoRowMarketGroups, .addUniqueCodes]) = .ok (coded.map .ds)) :
    (∀ d ∈ coded, Labelled d) ∧ ((∀ s, P.md5 s ≠ "") → ∀ d ∈ coded, d.code ≠ some "") := by
  obtain ⟨mid, -, h⟩ := foldE_split.mp h
  simp only [foldE] at h
  obtain ⟨i1, h1, h⟩ := bind_eq_ok.mp h
  obtain ⟨l, d1, -, hd1, rfl⟩ := onDatasets_ok h1
  obtain ⟨i2, h2, h⟩ := bind_eq_ok.mp h
  obtain ⟨d2, hd2, rfl⟩ := onDatasets_map.mp h2
  obtain ⟨i3, h3, h⟩ := bind_eq_ok.mp h
  obtain ⟨d3, hd3, rfl⟩ := onDatasets_map.mp h3
  obtain ⟨i4, h4, h⟩ := bind_eq_ok.mp h
  obtain ⟨d4, hd4, rfl⟩ := onDatasets_map.mp h4
  obtain ⟨i5, h5, h⟩ := bind_eq_ok.mp h
  obtain ⟨d5, hd5, rfl⟩ := onDatasets_map.mp h5
  obtain ⟨i6, h6, h⟩ := bind_eq_ok.mp h
  obtain ⟨d6, hd6, rfl⟩ := onDatasets_map.mp h6
  obtain ⟨i7, h7, h⟩ := bind_eq_ok.mp h
  obtain ⟨d7, hd7, rfl⟩ := onDatasets_map.mp h7
  have : d7 = coded := List.map_injective_iff.mpr (fun x y hxy => by cases hxy; rfl) (Except.ok.inj h)
  subst this
  refine ⟨labels_codes _ _ _ _ hd7 (labels_rowGroups _ _ hd6 (labels_relabel _ _ hd5 (labels_pipeline _ _ hd4 (labels_fakePv _ _ hd3
    (labels_whitelist _ _ hd2 (labels_label _ _ hd1)))))), ?_⟩
  intro hmd d hd hc
  rw [(C49_unique _ _ _ _ hd7).1] at hd
  obtain ⟨x, -, rfl⟩ := List.mem_map.mp hd
  exact hmd _ (Option.some.inj hc)

theorem coded_labelled_consequential (P : PipelineEnv) (pre : List Step) (data coded : List Dataset)
    (h : foldE (fun d (s : Step) => s.run P d) (data.map .ds) (pre ++ [.labelReferenceProduct, .deleteWhitelistedMarkets, .assignFakePv,
      .relabelGlobalToRow, .addUniqueCodes]) = .ok (coded.map .ds)) :
    (∀ d ∈ coded, Labelled d) ∧ ((∀ s, P.md5 s ≠ "") → ∀ d ∈ coded, d.code ≠ some "") := by
  obtain ⟨mid, -, h⟩ := foldE_split.mp h
  simp only [foldE] at h
  obtain ⟨i1, h1, h⟩ := bind_eq_ok.mp h
  obtain ⟨l, d1, -, hd1, rfl⟩ := onDatasets_ok h1
  obtain ⟨i2, h2, h⟩ := bind_eq_ok.mp h
  obtain ⟨d2, hd2, rfl⟩ := onDatasets_map.mp h2
  obtain ⟨i3, h3, h⟩ := bind_eq_ok.mp h
  obtain ⟨d3, hd3, rfl⟩ := onDatasets_map.mp h3
  obtain ⟨i5, h5, h⟩ := bind_eq_ok.mp h
  obtain ⟨d5, hd5, rfl⟩ := onDatasets_map.mp h5
  obtain ⟨i7, h7, h⟩ := bind_eq_ok.mp h
  obtain ⟨d7, hd7, rfl⟩ := onDatasets_map.mp h7
  have : d7 = coded := List.map_injective_iff.mpr (fun x y hxy => by cases hxy; rfl) (Except.ok.inj h)
  subst this
  refine ⟨labels_codes _ _ _ _ hd7 (labels_relabel _ _ hd5 (labels_fakePv _ _ hd3 (labels_whitelist _ _ hd2 (labels_label _ _ hd1)))), ?_⟩
  intro hmd d hd hc
  rw [(C49_unique _ _ _ _ hd7).1] at hd
  obtain ⟨x, -, rfl⟩ := List.mem_map.mp hd
  exact hmd _ (Option.some.inj hc)

/-- Normalisation of the linked dataset `d`. -/
theorem normalize_finished (P : PipelineEnv) (data : List Dataset) (out : List Item)
    (h : foldE (fun d (s : Step) => s.run P d) (data.map .ds) [.normalize] = .ok out) :
    ∃ r : List Dataset, out = r.map .ds ∧ ∀ d' ∈ r, ∃ d ∈ data, ∃ k : ℚ, 0 < k ∧ d' = { d with exchanges := d'.exchanges } ∧
      List.Forall₂ (ScaledBy k) d.exchanges d'.exchanges := by
  simp only [foldE] at h
  obtain ⟨i1, h1, h⟩ := bind_eq_ok.mp h
  cases h
  obtain ⟨d1, hd1, rfl⟩ := onDatasets_map.mp h1
  rw [wrapNormalize_eq] at hd1
  refine ⟨d1, rfl, fun d' hd' => ?_⟩
  obtain ⟨d, hd, hdd⟩ := mapE_mem hd1 hd'
  obtain ⟨rp, k, -, -, g3, g4, g5, -⟩ := C10_normalize_result P.M d d' hdd
  exact ⟨d, hd, k, g3, g4, g5⟩

end Ocelot
