import Verif.Proofs.OrderLinks

/-! Deletions and suppliers of market groups, on the same datasets in another order. -/

namespace Ocelot
open Spec

/-! ## Deletions -/

/-- A dataset of this kind in the rest of the world that has no volume is the only one for its product there. -/
def LoneRow (kind : DsType) (s : List Dataset) : Prop :=
  ∀ d ∈ s, d.type = kind → d.location = "RoW" → originalVolume d = 0 →
    ∀ d' ∈ s, d'.type = kind → d'.location = "RoW" → d'.refProduct = d.refProduct → d'.code = d.code

theorem shuffled_original {d d' : Dataset} (h : Shuffled d d') : originalVolume d' = originalVolume d := by
  have : refs d' = refs d := h.refs
  unfold originalVolume
  rw [this]

theorem stable_lone (kind : DsType) : Stable (LoneRow kind) := by
  rintro a b (h | h) ha
  · exact fun d hd h1 h2 h3 d' hd' => ha d (h.mem_iff.mpr hd) h1 h2 h3 d' (h.mem_iff.mpr hd')
  · intro d hd h1 h2 h3 d' hd' k1 k2 k3
    obtain ⟨x, hx, hxd⟩ := forall₂_mem_right h.each hd
    obtain ⟨x', hx', hxd'⟩ := forall₂_mem_right h.each hd'
    rw [hxd.codeEq, hxd'.codeEq]
    rw [hxd.type] at h1
    rw [hxd.location] at h2
    rw [shuffled_original hxd] at h3
    rw [hxd'.type] at k1
    rw [hxd'.location] at k2
    rw [hxd.refProduct, hxd'.refProduct] at k3
    exact ha x hx h1 h2 h3 x' hx' k1 k2 k3

theorem lone_next {kind : DsType} {a r : List Dataset} (ha : LoneRow kind a)
    (h : ∀ d' ∈ r, ∃ d ∈ a, d'.code = d.code ∧ d'.type = d.type ∧ d'.location = d.location ∧ d'.refProduct = d.refProduct ∧
      (d.type = kind → originalVolume d' = originalVolume d)) : LoneRow kind r := by
  intro x hx h1 h2 h3 y hy k1 k2 k3
  obtain ⟨d, hd, e1, e2, e3, e4, e5⟩ := h x hx
  obtain ⟨d', hd', f1, f2, f3, f4, -⟩ := h y hy
  rw [e1, f1]
  exact ha d hd (e2 ▸ h1) (e3 ▸ h2) (by rw [← e5 (e2 ▸ h1)]; exact h3) d' hd' (f2 ▸ k1) (f3 ▸ k2) (by rw [← f4, ← e4]; exact k3)

theorem lone_market {s : List Dataset} (h : Apart s) : LoneRow .market s := by
  intro d hd h1 h2 _ d' hd' k1 k2 k3
  exact h d' hd' d hd ⟨k1.trans h1.symm, k3, k2.trans h2.symm, fun h0 => by rw [k1] at h0; cases h0⟩

theorem superfluous_iff {K : Known} {kind : DsType} {s : List Dataset} (hb : Base K s) (hl : LoneRow kind s) {d : Dataset} (hd : d ∈ s) :
    Superfluous kind s d ↔ d.type = kind ∧ d.location = "RoW" ∧ originalVolume d = 0 ∧ 2 ≤ (productGroup kind s d).length := by
  constructor
  · rintro ⟨h1, h2, h3, h4, -⟩
    exact ⟨h1, h2, h3, h4⟩
  · rintro ⟨h1, h2, h3, h4⟩
    refine ⟨h1, h2, h3, h4, ?_⟩
    have hall : ∀ x ∈ (productGroup kind s d).filter fun o => o.location == "RoW", x = d := by
      intro x hx
      obtain ⟨hx, hxl⟩ := List.mem_filter.mp hx
      obtain ⟨hx, hxp⟩ := List.mem_filter.mp hx
      obtain ⟨k1, k2⟩ := of_decide_eq_true hxp
      exact code_inj hb.self.nodup hx hd (hl d hd h1 h2 h3 x hx k1 (by simpa using hxl) k2)
    have hmem : d ∈ (productGroup kind s d).filter fun o => o.location == "RoW" :=
      List.mem_filter.mpr ⟨List.mem_filter.mpr ⟨hd, decide_eq_true ⟨h1, rfl⟩⟩, by simpa using h2⟩
    cases hf : (productGroup kind s d).filter fun o => o.location == "RoW" with
    | nil => rw [hf] at hmem; cases hmem
    | cons x l => rw [hf] at hall; rw [hall x (by simp)]; rfl

theorem perm_deleteGlobal {K : Known} (hK : K.loose = false) (kind : DsType) (a b r : List Dataset) (hp : a.Perm b) (ha : Base K a) (hl : LoneRow kind a)
    (h : deleteGlobalZeroPv kind a = .ok r) : ∃ r', deleteGlobalZeroPv kind b = .ok r' ∧ Chain r r' := by
  have hb := stable_base hK a b (Or.inl hp) ha
  have hl' := stable_lone kind a b (Or.inl hp) hl
  obtain ⟨r', hr'⟩ := C51_total kind b (by
    intro d hd _
    obtain ⟨_, p, -, h2, -⟩ := (hb.good d hd).code
    rw [h2]
    rfl)
  refine ⟨r', hr', .single (Or.inl ?_)⟩
  rw [C51_exact kind a r h, C51_exact kind b r' hr']
  have : b.filter (fun d => decide (¬ Superfluous kind b d)) = b.filter fun d => decide (¬ Superfluous kind a d) := by
    apply List.filter_congr
    intro d hd
    rw [decide_eq_decide, superfluous_iff hb hl' hd, superfluous_iff ha hl (hp.mem_iff.mpr hd)]
    unfold productGroup
    rw [(hp.filter _).length_eq]
  rw [this]
  exact hp.filter _

/-! ## Suppliers of market groups -/

theorem nodup_locations {K : Known} {s l : List Dataset} (hb : Base K s) (hl : l.Nodup) {kind : DsType} (hk : kind ≠ .transforming) {r : String}
    (hm : ∀ d ∈ l, d ∈ s ∧ d.type = kind ∧ d.refProduct = some r) : (l.map (·.location)).Nodup := by
  refine hl.map_on ?_
  intro d hd d' hd' hloc
  obtain ⟨h1, h2, h3⟩ := hm d hd
  obtain ⟨k1, k2, k3⟩ := hm d' hd'
  exact hb.eq h1 k1 ⟨h2.trans k2.symm, h3.trans k3.symm, hloc, fun h0 => absurd (h2.symm.trans h0) hk⟩

theorem placesOf_perm {K : Known} {a b : List Dataset} (hp : a.Perm b) (ha : Base K a) {kind : DsType} (hk : kind ≠ .transforming) {r : String} {m : List (String × Dataset)}
    (h : placesOf kind r a = .ok m) : ∃ m', placesOf kind r b = .ok m' ∧ (m.map (·.1)).Perm (m'.map (·.1)) ∧ (∀ k, m'.lookup k = m.lookup k) ∧
      ∀ k d, m.lookup k = some d → d ∈ a ∧ d.refProduct = some r := by
  unfold placesOf at h ⊢
  obtain ⟨l, h1, h2⟩ := bind_eq_ok.mp h
  cases h2
  obtain ⟨l', h3, h4⟩ := mapE_perm (hp.filter _) h1
  rw [h3, ebind_ok]
  have hq := (h4.filter fun p => p.1 == r).map (·.2)
  obtain ⟨rfl, hsome⟩ := withRefProduct_mapE h1
  have hmem : ∀ d ∈ (List.filter (fun p => p.1 == r) ((a.filter fun ds => ds.type == kind).map fun d => (d.refProduct.getD "", d))).map (·.2),
      d ∈ a ∧ d.type = kind ∧ d.refProduct = some r := by
    intro d hd
    obtain ⟨⟨n, x⟩, hx, rfl⟩ := List.mem_map.mp hd
    obtain ⟨hx, hn⟩ := List.mem_filter.mp hx
    obtain ⟨y, hy, he⟩ := List.mem_map.mp hx
    cases he
    obtain ⟨hy1, hy2⟩ := List.mem_filter.mp hy
    refine ⟨hy1, by simpa using hy2, ?_⟩
    obtain ⟨z, hz⟩ := Option.isSome_iff_exists.mp (hsome x hy)
    have : x.refProduct.getD "" = r := by simpa using hn
    rw [hz] at this ⊢
    exact congrArg some this
  have hnd : ((List.filter (fun p => p.1 == r) ((a.filter fun ds => ds.type == kind).map fun d => (d.refProduct.getD "", d))).map (·.2)).Nodup := by
    have : (List.filter (fun p => p.1 == r) ((a.filter fun ds => ds.type == kind).map fun d => (d.refProduct.getD "", d))).map (·.2) =
        (a.filter fun ds => ds.type == kind).filter fun d => d.refProduct.getD "" == r := by
      rw [List.filter_map, List.map_map]
      exact List.map_id _
    rw [this]
    exact (ha.nodup.filter _).filter _
  have hloc := nodup_locations ha hnd hk hmem
  refine ⟨_, rfl, byLocation_keys_perm hq, fun k => byLocation_lookup_perm hloc hq k, ?_⟩
  intro k d hkd
  have := hmem d ((dictOf_lookup_iff hloc k d).mp hkd).1
  exact ⟨this.1, this.2.2⟩

theorem candidateAt_perm {m m' g g' : List (String × Dataset)} (hm : (m.map (·.1)).Perm (m'.map (·.1))) (hml : ∀ k, m'.lookup k = m.lookup k)
    (hgl : ∀ k, g'.lookup k = g.lookup k) (s : String) : candidateAt m' g' s = candidateAt m g s := by
  unfold candidateAt
  rw [hml, hgl]
  by_cases hc : s ∈ m.map (·.1)
  · rw [if_pos hc, if_pos (hm.mem_iff.mp hc)]
  · rw [if_neg hc, if_neg (fun h0 => hc (hm.mem_iff.mpr h0))]

theorem chooseStep_perm {T : Topology} {row : Finset ℕ} {m m' : List (String × Dataset)} (hm : (m.map (·.1)).Perm (m'.map (·.1))) (loc : String) :
    chooseStep T row m' loc = chooseStep T row m loc := by
  funext found c
  unfold chooseStep
  simp only [hm.mem_iff]

theorem ordered_perm {T : Topology} {m m' g g' : List (String × Dataset)} (hm : (m.map (·.1)).Perm (m'.map (·.1))) (hg : (g.map (·.1)).Perm (g'.map (·.1)))
    (row : Option (Finset ℕ)) : T.orderedDependencies (m'.map (·.1) ++ g'.map (·.1)) row = T.orderedDependencies (m.map (·.1) ++ g.map (·.1)) row :=
  C36_independent T _ _ row fun s => by rw [List.mem_append, List.mem_append, hm.mem_iff, hg.mem_iff]

theorem linkMarketGroup_perm {K : Known} {T : Topology} {a b : List Dataset} (hp : a.Perm b) (ha : Base K a) {r : String} {d e : Dataset}
    (h : linkMarketGroup T a r d = .ok e) : linkMarketGroup T b r d = .ok e ∧ e = { d with suppliers := e.suppliers } ∧
      ∀ l, e.suppliers = some l → ∀ s ∈ l, ∃ x ∈ a, x.refProduct = some r ∧ s.code = x.code := by
  unfold linkMarketGroup at h ⊢
  obtain ⟨m, h1, h2⟩ := bind_eq_ok.mp h
  obtain ⟨g, h3, h4⟩ := bind_eq_ok.mp h2
  obtain ⟨row, h5, h6⟩ := bind_eq_ok.mp h4
  obtain ⟨ordered, h7, h8⟩ := bind_eq_ok.mp h6
  obtain ⟨found, h9, h10⟩ := bind_eq_ok.mp h8
  obtain ⟨chosen, h11, h12⟩ := bind_eq_ok.mp h10
  obtain ⟨entries, h13, h14⟩ := bind_eq_ok.mp h12
  obtain ⟨m', hm1, hm2, hm3, hm4⟩ := placesOf_perm hp ha (by decide) h1
  obtain ⟨g', hg1, hg2, hg3, hg4⟩ := placesOf_perm hp ha (by decide) h3
  refine ⟨?_, ?_, ?_⟩
  · rw [hm1, ebind_ok, hg1, ebind_ok, marketsRow_perm hm2 h5, ebind_ok, ordered_perm hm2 hg2, h7, ebind_ok, chooseStep_perm hm2, h9, ebind_ok,
      mapE_congr (fun s _ => candidateAt_perm hm2 hm3 hg3 s), h11, ebind_ok, h13, ebind_ok]
    exact h14
  · cases h14; rfl
  · cases h14
    intro l hl s hs
    simp only at hl
    split at hl
    · cases hl
    · cases hl
      unfold groupEntries at h13
      obtain ⟨keyed, k1, k2⟩ := bind_eq_ok.mp h13
      obtain ⟨⟨c, x⟩, k3, k4⟩ := mapE_mem k2 hs
      have k5 := (List.perm_insertionSort _ keyed).mem_iff.mp k3
      obtain ⟨y, k6, k7⟩ := mapE_mem k1 k5
      obtain ⟨c', k8, k9⟩ := bind_eq_ok.mp k7
      cases k9
      obtain ⟨f, -, k10⟩ := mapE_mem h11 k6
      have hx : x ∈ a ∧ x.refProduct = some r := by
        unfold candidateAt at k10
        split at k10
        · exact hm4 _ _ (getKey_eq_ok.mp k10)
        · exact hg4 _ _ (getKey_eq_ok.mp k10)
      refine ⟨x, hx.1, hx.2, ?_⟩
      obtain ⟨rp, -, k12⟩ := bind_eq_ok.mp k4
      cases k12
      unfold annotateExchange
      rw [getKey_eq_ok.mp k8]
      rfl

theorem checkGroupNames_perm {a b : List Dataset} (hp : a.Perm b) {u : Unit} (h : checkGroupNames a = .ok u) : checkGroupNames b = .ok u := by
  unfold checkGroupNames at h ⊢
  obtain ⟨l, h1, h2⟩ := bind_eq_ok.mp h
  obtain ⟨l', h3, h4⟩ := mapE_perm (hp.filter _) h1
  rw [h3, ebind_ok]
  split at h2
  · next hall =>
    rw [if_pos]
    · exact h2
    · rw [List.all_eq_true] at hall ⊢
      rintro ⟨k, g⟩ hg
      obtain ⟨x, hx, hk⟩ := (groupBy_keys_mem _ l' k).mp (List.mem_map.mpr ⟨_, hg, rfl⟩)
      obtain ⟨⟨k1, g1⟩, hg1, rfl⟩ := List.mem_map.mp ((groupBy_keys_mem (fun p : String × Dataset => p.1) l k).mpr ⟨x, h4.mem_iff.mpr hx, hk⟩)
      have := hall _ hg1
      rw [groupBy_mem hg]
      rw [groupBy_mem hg1] at this
      simp only [beq_iff_eq] at this ⊢
      rw [← this]
      exact (((h4.filter _).map _).dedup.length_eq).symm
  · cases h2

theorem mapE_zipIdx_fst {α β : Type} (g : α → Except Err β) (l : List α) (k : ℕ) : mapE (fun p : α × ℕ => g p.1) (l.zipIdx k) = mapE g l := by
  induction l generalizing k with
  | nil => rfl
  | cons a l ih => rw [List.zipIdx_cons]; simp only [mapE]; rw [ih]

theorem not_shadowed {K : Known} {s : List Dataset} (hb : Base K s) {p : Dataset × ℕ} (hp : p ∈ s.zipIdx) (ht : p.1.type = .marketGroup) : isShadowed s p.2 p.1 = false := by
  rw [Bool.eq_false_iff]
  intro h
  unfold isShadowed at h
  rw [List.any_eq_true] at h
  obtain ⟨x, hx, hxp⟩ := h
  simp only [Bool.and_eq_true, beq_iff_eq] at hxp
  obtain ⟨⟨h1, h2⟩, h3⟩ := hxp
  obtain ⟨d, i⟩ := p
  have hi : s[i]? = some d := List.mk_mem_zipIdx_iff_getElem?.mp hp
  obtain ⟨hlt, hget⟩ := List.getElem?_eq_some_iff.mp hi
  have hd : d ∈ s := hget ▸ List.getElem_mem hlt
  have : x = d := hb.eq (List.mem_of_mem_drop hx) hd ⟨h1.trans ht.symm, h2, h3, fun h0 => by rw [h1] at h0; cases h0⟩
  subst this
  have hdr : s.drop i = x :: s.drop (i + 1) := by rw [← hget]; exact List.drop_eq_getElem_cons hlt
  have := (List.drop_sublist i s).nodup hb.nodup
  rw [hdr] at this
  exact (List.nodup_cons.mp this).1 hx

theorem linkGroups_iff {K : Known} {T : Topology} {s r : List Dataset} (hb : Base K s) :
    linkMarketGroupSuppliers T s = .ok r ↔ checkGroupNames s = .ok () ∧
      mapE (fun d : Dataset => if d.type = .marketGroup then getKey d.refProduct >>= fun q => linkMarketGroup T s q d else .ok d) s = .ok r := by
  unfold linkMarketGroupSuppliers
  have : mapE (fun p : Dataset × ℕ => if p.1.type = .marketGroup ∧ isShadowed s p.2 p.1 = false then do
      let r ← getKey p.1.refProduct
      linkMarketGroup T s r p.1
    else .ok p.1) s.zipIdx = mapE (fun d : Dataset => if d.type = .marketGroup then getKey d.refProduct >>= fun q => linkMarketGroup T s q d else .ok d) s := by
    rw [← mapE_zipIdx_fst _ s 0]
    apply mapE_congr
    intro p hp
    by_cases ht : p.1.type = .marketGroup
    · rw [if_pos ⟨ht, not_shadowed hb hp ht⟩, if_pos ht]
    · rw [if_neg (fun h => ht h.1), if_neg ht]
  rw [this]
  constructor
  · intro h
    obtain ⟨u, h1, h2⟩ := bind_eq_ok.mp h
    exact ⟨h1, h2⟩
  · rintro ⟨h1, h2⟩
    exact bind_eq_ok.mpr ⟨(), h1, h2⟩

theorem perm_linkGroups {K : Known} (hK : K.loose = false) {T : Topology} (a b r : List Dataset) (hp : a.Perm b) (ha : Base K a) (h : linkMarketGroupSuppliers T a = .ok r) :
    ∃ r', linkMarketGroupSuppliers T b = .ok r' ∧ Chain r r' := by
  rw [linkGroups_iff ha] at h
  obtain ⟨r', h1, h2⟩ := chain_mapE a b r hp (mapE_ok_weaken (g := fun d : Dataset => if d.type = .marketGroup then getKey d.refProduct >>= fun q => linkMarketGroup T b q d else .ok d)
    h.2 (by
      intro d _ e he
      split at he
      · next ht =>
        rw [if_pos ht]
        obtain ⟨q, k1, k2⟩ := bind_eq_ok.mp he
        rw [k1, ebind_ok]
        exact (linkMarketGroup_perm hp ha k2).1
      · next ht => rw [if_neg ht]; exact he))
  exact ⟨r', (linkGroups_iff (stable_base hK a b (Or.inl hp) ha)).mpr ⟨checkGroupNames_perm hp h.1, h1⟩, h2⟩

/-- Suppliers of a market group belong to its product. -/
def GroupSuppliers (s : List Dataset) : Prop :=
  ∀ d ∈ s, d.type = .marketGroup → ∀ l, d.suppliers = some l → ∀ e ∈ l, ∃ c, e.code = some c ∧ ∀ x ∈ s, x.code = some c → x.refProduct = d.refProduct

theorem stable_groupSuppliers : Stable GroupSuppliers := by
  rintro a b (h | h) ha
  · intro d hd ht l hl e he
    obtain ⟨c, h1, h2⟩ := ha d (h.mem_iff.mpr hd) ht l hl e he
    exact ⟨c, h1, fun x hx => h2 x (h.mem_iff.mpr hx)⟩
  · intro d' hd' ht l' hl' e he
    obtain ⟨d, hd, hdd⟩ := forall₂_mem_right h.each hd'
    have hs := hdd.suppliers
    rw [hl'] at hs
    cases hds : d.suppliers with
    | none => rw [hds] at hs; cases hs
    | some l =>
      rw [hds] at hs
      cases hs with
      | some hpl =>
        obtain ⟨c, h1, h2⟩ := ha d hd (hdd.type ▸ ht) l hds e (hpl.mem_iff.mpr he)
        refine ⟨c, h1, fun x' hx' hc => ?_⟩
        obtain ⟨x, hx, hxx⟩ := forall₂_mem_right h.each hx'
        rw [hdd.refProduct, hxx.refProduct]
        exact h2 x hx (hxx.codeEq ▸ hc)

theorem groupSuppliers_after {K : Known} {T : Topology} (a r : List Dataset) (ha : Base K a) (h : linkMarketGroupSuppliers T a = .ok r) : GroupSuppliers r := by
  have hF := mapE_ok_iff.mp ((linkGroups_iff ha).mp h).2
  have hid : ∀ d e : Dataset, (if d.type = .marketGroup then getKey d.refProduct >>= fun q => linkMarketGroup T a q d else .ok d) = .ok e →
      e = { d with suppliers := e.suppliers } := by
    intro d e he
    split at he
    · obtain ⟨q, k1, k2⟩ := bind_eq_ok.mp he
      exact (linkMarketGroup_perm (.refl a) ha k2).2.1
    · cases he; rfl
  intro d' hd' ht l hl e he
  obtain ⟨d, hd, hdd⟩ := forall₂_mem_right hF hd'
  have h0 := hid d d' hdd
  have ht0 : d.type = .marketGroup := by rw [h0] at ht; exact ht
  have hr0 : d'.refProduct = d.refProduct := by rw [h0]
  rw [if_pos ht0] at hdd
  obtain ⟨q, k1, k2⟩ := bind_eq_ok.mp hdd
  obtain ⟨x, hx, hxr, hxc⟩ := (linkMarketGroup_perm (.refl a) ha k2).2.2 l hl e he
  obtain ⟨c, _, hc, -⟩ := (ha.good x hx).code
  refine ⟨c, by rw [hxc, hc], fun y' hy' hyc => ?_⟩
  obtain ⟨y, hy, hyy⟩ := forall₂_mem_right hF hy'
  have h1 := hid y y' hyy
  have : y = x := code_inj ha.self.nodup hy hx (by rw [hc, ← hyc, h1])
  subst this
  rw [hr0, getKey_eq_ok.mp k1, ← hxr, h1]

end Ocelot
