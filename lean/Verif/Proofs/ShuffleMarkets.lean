import Verif.Proofs.ShuffleSteps

/-! Suppliers of markets in another order. -/

namespace Ocelot
open Spec

/-- A supplier of set orders that returns the elements of the set. -/
def Permutes (σ : Dataset → String → List String → List String) : Prop := ∀ c n l, (σ c n l).Perm l

theorem forall₂_filterMap_eq {α β γ : Type} {R : α → β → Prop} {l : List α} {l' : List β} (h : List.Forall₂ R l l') {f : α → Option γ} {g : β → Option γ}
    (hfg : ∀ a b, R a b → f a = g b) : l.filterMap f = l'.filterMap g := by
  induction h with
  | nil => rfl
  | cons h1 _ ih => rw [List.filterMap_cons, List.filterMap_cons, hfg _ _ h1, ih]

theorem keeping_groups {κ τ : Type} [DecidableEq κ] {key : Dataset → Option κ} {prep prep' : κ → List Dataset → Except Err τ}
    {upd upd' : τ → Dataset → Except Err Dataset} {R : τ → τ → Prop} (hkey : ∀ d d', Shuffled d d' → key d = key d')
    (hprep : ∀ k l l' t, List.Forall₂ Shuffled l l' → prep k l = .ok t → ∃ t', prep' k l' = .ok t' ∧ R t t')
    (hupd : ∀ t t' d d' e, R t t' → Shuffled d d' → upd t d = .ok e → ∃ e', upd' t' d' = .ok e' ∧ Shuffled e e' ∧ e.code = d.code)
    {data data' out : List Dataset} (h : ShufD data data') (ho : foldE (groupStep key prep upd) data (groupKeys key data) = .ok out) :
    ∃ out', foldE (groupStep key prep' upd') data' (groupKeys key data') = .ok out' ∧ ShufD out out' := by
  have hk : groupKeys key data' = groupKeys key data := by
    unfold groupKeys
    rw [forall₂_filterMap_eq h.each fun a b hab => hkey a b hab]
  rw [hk]
  refine foldE_rel (R := ShufD) h ho ?_
  intro st st' k _ hst t ht
  obtain ⟨u, h1, h2⟩ := bind_eq_ok.mp ht
  obtain ⟨u', h1', hu⟩ := hprep k _ (st'.filter fun ds => decide (key ds = some k)) u
    (forall₂_filter hst.each fun a b hab => by rw [hkey a b hab]) h1
  obtain ⟨out', h3, h4⟩ := keeping_each (f' := fun ds => if key ds = some k then upd' u' ds else .ok ds) (by
    intro d d' hd e he
    rw [← hkey d d' hd]
    split at he
    · next hc => rw [if_pos hc]; exact hupd u u' d d' e hu hd he
    · next hc => rw [if_neg hc]; cases he; exact ⟨d', rfl, hd, rfl⟩) st st' t hst h2
  exact ⟨out', bind_eq_ok.mpr ⟨u', h1', h3⟩, h4⟩

theorem locations_eq {l l' : List Dataset} (h : List.Forall₂ Shuffled l l') : l'.map (·.location) = l.map (·.location) :=
  (forall₂_map_eq' h fun _ _ hab => hab.location.symm).symm

theorem noOverlaps_eq (T : Topology) {l l' : List Dataset} (h : List.Forall₂ Shuffled l l') : noOverlaps T l' = noOverlaps T l := by
  unfold noOverlaps
  rw [locations_eq h, h.length_eq]

theorem noGeoDuplicates_eq {l l' : List Dataset} (h : List.Forall₂ Shuffled l l') : noGeoDuplicates l' = noGeoDuplicates l := by
  unfold noGeoDuplicates
  rw [locations_eq h, h.length_eq]

theorem byLocation_rel {l l' : List Dataset} (h : List.Forall₂ Shuffled l l') :
    List.Forall₂ (fun (g g' : String × Dataset) => g.1 = g'.1 ∧ Shuffled g.2 g'.2) (byLocation l) (byLocation l') :=
  dictOf_rel (fun _ _ hab => hab.location.symm) h

theorem byLocation_keys {l l' : List Dataset} (h : List.Forall₂ Shuffled l l') : (byLocation l').map (·.1) = (byLocation l).map (·.1) :=
  (forall₂_map_eq' (byLocation_rel h) fun _ _ hab => hab.1).symm

theorem supplierEntry_code {d d' : Dataset} (h : Shuffled d d') {e : Exchange} (he : supplierEntry d = .ok e) : e.code.getD "" ≠ "" := by
  obtain ⟨rp, -, h2⟩ := bind_eq_ok.mp he
  cases h2
  unfold annotateExchange
  have := h.code
  cases hc : d.code with
  | none => rw [hc] at this; exact absurd rfl this
  | some c => rw [hc] at this; simpa using this

theorem suppliersOfGroup_rel {T : Topology} {σ σ' : Dataset → String → List String → List String} (hσ : Permutes σ) (hσ' : Permutes σ') {c c' : Dataset}
    {loc : Loc} {name : String} {group group' : List Dataset} (h : List.Forall₂ Shuffled group group') {r : List Exchange}
    (hr : suppliersOfGroup T σ c loc name group = .ok r) :
    (∃ r', suppliersOfGroup T σ' c' loc name group' = .ok r' ∧ r.Perm r') ∧ ∀ s ∈ r, s.code.getD "" ≠ "" := by
  unfold suppliersOfGroup at hr ⊢
  rw [noOverlaps_eq T h, locations_eq h]
  obtain ⟨b, h1, h2⟩ := bind_eq_ok.mp hr
  obtain ⟨row, h3, h4⟩ := bind_eq_ok.mp h2
  obtain ⟨inside, h5, h6⟩ := bind_eq_ok.mp h4
  rw [h1, ebind_ok, h3, ebind_ok, h5, ebind_ok]
  simp only at h6 ⊢
  have hany : ∀ k, ((byLocation group').any fun p => p.1 == k) = (byLocation group).any fun p => p.1 == k := by
    intro k
    have e1 : ∀ l : List (String × Dataset), (l.any fun p => p.1 == k) = (l.map (·.1)).any fun x => x == k := fun l => by rw [List.any_map]; rfl
    rw [e1, e1, byLocation_keys h]
  simp only [hany]
  refine ⟨?_, ?_⟩
  · refine mapE_perm ((hσ _ _ _).trans (hσ' c' name _).symm) (mapE_ok_weaken h6 ?_)
    intro k _ e he
    obtain ⟨d, h7, h8⟩ := bind_eq_ok.mp he
    obtain ⟨d', h9, h10⟩ := lookup_rel (byLocation_rel h) (getKey_eq_ok.mp h7)
    exact bind_eq_ok.mpr ⟨d', getKey_eq_ok.mpr h9, by rw [h10.entry]; exact h8⟩
  · intro s hs
    obtain ⟨k, -, he⟩ := mapE_mem h6 hs
    obtain ⟨d, h7, h8⟩ := bind_eq_ok.mp he
    obtain ⟨d', h9, h10⟩ := lookup_rel (byLocation_rel h) (getKey_eq_ok.mp h7)
    exact supplierEntry_code h10 h8

theorem shufS_getD {s s' : Option (List Exchange)} (h : ShufS s s') : (s.getD []).Perm (s'.getD []) := by
  cases h with
  | none => exact .nil
  | some h => exact h

theorem supplyConsumer_rel {T : Topology} {σ σ' : Dataset → String → List String → List String} (hσ : Permutes σ) (hσ' : Permutes σ') {c c' : Dataset}
    {row : Finset ℕ} {sup sup' : List Dataset} (h : List.Forall₂ Shuffled sup sup') (hc : Shuffled c c') {e : Dataset}
    (he : supplyConsumer T σ row sup c = .ok e) : ∃ e', supplyConsumer T σ' row sup' c' = .ok e' ∧ Shuffled e e' ∧ e.code = c.code := by
  unfold supplyConsumer at he ⊢
  rw [hc.location]
  simp only at he ⊢
  obtain ⟨new, h1, h2⟩ := bind_eq_ok.mp he
  cases h2
  have hg := groupBy_rel (κ := String) (R := Shuffled) (key := fun d : Dataset => d.name) (key' := fun d : Dataset => d.name) (fun _ _ hab => hab.name.symm) h
  obtain ⟨new', h3, h4⟩ := flatMapE_rel_perm (f' := fun g => suppliersOfGroup T σ' c' (if c.location = "RoW" then Loc.faces row else Loc.name c.location) g.1 g.2) hg h1 fun a a' haa b hb => by
    obtain ⟨⟨r', h5, h6⟩, -⟩ := suppliersOfGroup_rel hσ hσ' (c' := c') haa.2 hb
    exact ⟨r', by rw [← haa.1]; exact h5, h6⟩
  rw [h3]
  have hcodes : ∀ s ∈ new, s.code.getD "" ≠ "" := by
    intro s hs
    obtain ⟨g, hg1, r, h5, h6⟩ := flatMapE_mem h1 hs
    obtain ⟨g', -, hgg⟩ := forall₂_mem_left hg hg1
    exact (suppliersOfGroup_rel hσ hσ' (c' := c') hgg.2 h5).2 s h6
  refine ⟨_, rfl, ?_, rfl⟩
  obtain ⟨a, b, rfl⟩ := hc.inv
  refine ⟨rfl, hc.exchanges, .some ((shufS_getD hc.suppliers).append h4), ?_, hc.code⟩
  intro l hl s hs
  cases hl
  rcases List.mem_append.mp hs with hs | hs
  · cases hcs : c.suppliers with
    | none => rw [hcs] at hs; cases hs
    | some l => rw [hcs] at hs; exact hc.codes l hcs s hs
  · exact hcodes s hs

/-- What two runs prepare for the consumers of one product. -/
def ApportionRel : Option Apportion → Option Apportion → Prop :=
  Option.Rel fun a a' => (∀ d d', Shuffled d d' → a.isConsumer d = a'.isConsumer d') ∧ a.row = a'.row ∧ List.Forall₂ Shuffled a.suppliers a'.suppliers

theorem apportionPrep_rel {T : Topology} {p : Dataset → Bool} (hp : ∀ d d', Shuffled d d' → p d = p d') {c c' s s' : List Dataset}
    (hc : List.Forall₂ Shuffled c c') (hs : List.Forall₂ Shuffled s s') {t : Option Apportion} (h : apportionPrep T p c s = .ok t) :
    ∃ t', apportionPrep T p c' s' = .ok t' ∧ ApportionRel t t' := by
  unfold apportionPrep at h ⊢
  rw [noGeoDuplicates_eq hc, locations_eq hc]
  obtain ⟨_, h1, h2⟩ := bind_eq_ok.mp h
  obtain ⟨row, h3, h4⟩ := bind_eq_ok.mp h2
  rw [h1, ebind_ok, h3, ebind_ok]
  cases h4
  exact ⟨_, rfl, .some ⟨hp, rfl, hs⟩⟩

theorem apportionUpd_rel {T : Topology} {σ σ' : Dataset → String → List String → List String} (hσ : Permutes σ) (hσ' : Permutes σ')
    {a a' : Option Apportion} {d d' e : Dataset} (ha : ApportionRel a a') (hd : Shuffled d d') (he : apportionUpd T σ a d = .ok e) :
    ∃ e', apportionUpd T σ' a' d' = .ok e' ∧ Shuffled e e' ∧ e.code = d.code := by
  unfold apportionUpd at he ⊢
  cases ha with
  | none => cases he; exact ⟨d', rfl, hd, rfl⟩
  | @some a a' h1 =>
    simp only at he ⊢
    rw [← h1.1 d d' hd, ← h1.2.1]
    split at he
    · next hc => rw [if_pos hc]; exact supplyConsumer_rel hσ hσ' h1.2.2 hd he
    · next hc => rw [if_neg hc]; cases he; exact ⟨d', rfl, hd, rfl⟩

theorem withRefProduct_rel {l l' : List Dataset} (h : List.Forall₂ Shuffled l l') {r : List (String × Dataset)} (hr : mapE withRefProduct l = .ok r) :
    ∃ r', mapE withRefProduct l' = .ok r' ∧ List.Forall₂ (fun p p' => p.1 = p'.1 ∧ Shuffled p.2 p'.2) r r' := by
  refine mapE_rel h hr fun a a' _ _ haa b hb => ?_
  unfold withRefProduct at hb ⊢
  rw [haa.refProduct]
  obtain ⟨x, h1, h2⟩ := bind_eq_ok.mp hb
  cases h2
  rw [h1]
  exact ⟨_, rfl, rfl, haa⟩

theorem productIf_rel {p : Dataset → Bool} (hp : ∀ d d', Shuffled d d' → p d = p d') (d d' : Dataset) (h : Shuffled d d') : productIf p d = productIf p d' := by
  unfold productIf; rw [hp d d' h, h.refProduct]

theorem recycledContentDatasets_rel {l l' : List Dataset} (h : List.Forall₂ Shuffled l l') {r : List Dataset} (hr : recycledContentDatasets l = .ok r) :
    ∃ r', recycledContentDatasets l' = .ok r' ∧ List.Forall₂ Shuffled r r' := by
  unfold recycledContentDatasets at hr ⊢
  refine filterE_rel h hr ?_
  intro a a' haa b hb
  rw [haa.type, haa.refProduct]
  exact hb

theorem keeping_recycledSuppliers {T : Topology} {σ σ' : Dataset → String → List String → List String} (hσ : Permutes σ) (hσ' : Permutes σ') :
    Keeping (addRecycledContentSuppliers T σ) (addRecycledContentSuppliers T σ') := by
  intro data data' out h ho
  unfold addRecycledContentSuppliers at ho ⊢
  simp only at ho ⊢
  obtain ⟨m, h1, h2⟩ := bind_eq_ok.mp ho
  obtain ⟨rc, h3, h4⟩ := bind_eq_ok.mp h2
  have hp : ∀ d d', Shuffled d d' → (d.type == DsType.market) = (d'.type == DsType.market) := fun d d' hd => by rw [hd.type]
  obtain ⟨m', h1', -⟩ := withRefProduct_rel (forall₂_filter h.each hp) h1
  obtain ⟨rc', h3', hrc⟩ := recycledContentDatasets_rel h.each h3
  obtain ⟨out', h5, h6⟩ := keeping_groups (R := ApportionRel) (prep' := recycledPrep T rc') (upd' := apportionUpd T σ') (productIf_rel hp) (by
    intro k l l' t hl ht
    unfold recycledPrep at ht ⊢
    simp only at ht ⊢
    rw [noOverlaps_eq T hl]
    obtain ⟨b, h5, h6⟩ := bind_eq_ok.mp ht
    rw [h5, ebind_ok]
    have hs : List.Forall₂ Shuffled (rc.filter fun ds => ds.refProduct == some (k ++ rcString)) (rc'.filter fun ds => ds.refProduct == some (k ++ rcString)) :=
      forall₂_filter hrc fun a b hab => by rw [hab.refProduct]
    have hiff := hs.length_eq
    split at h6
    · next hn =>
      cases h6
      rw [hn] at hiff
      rw [if_pos (List.length_eq_zero_iff.mp hiff.symm)]
      exact ⟨none, rfl, .none⟩
    · next hn =>
      rw [if_neg (fun h0 => hn (List.length_eq_zero_iff.mp (by rw [hiff, h0]; rfl)))]
      exact apportionPrep_rel (fun _ _ _ => rfl) hl hs h6)
    (fun t t' d d' e ht hd he => apportionUpd_rel hσ hσ' ht hd he) h h4
  exact ⟨out', bind_eq_ok.mpr ⟨m', h1', bind_eq_ok.mpr ⟨rc', h3', h5⟩⟩, h6⟩

theorem wantsSuppliers_rel (to_ : DsType) (d d' : Dataset) (h : Shuffled d d') : wantsSuppliers to_ d = wantsSuppliers to_ d' := by
  unfold wantsSuppliers
  rw [h.type]
  have := (shufS_getD h.suppliers).isEmpty_eq
  rw [this]

theorem keeping_suppliers {T : Topology} {σ σ' : Dataset → String → List String → List String} (hσ : Permutes σ) (hσ' : Permutes σ') (from_ to_ : DsType) :
    Keeping (addSuppliersToMarkets T σ from_ to_) (addSuppliersToMarkets T σ' from_ to_) := by
  intro data data' out h ho
  unfold addSuppliersToMarkets at ho ⊢
  simp only at ho ⊢
  obtain ⟨m, h1, h2⟩ := bind_eq_ok.mp ho
  have hp : ∀ d d', Shuffled d d' → (d.type == from_ || d.type == to_) = (d'.type == from_ || d'.type == to_) := fun d d' hd => by rw [hd.type]
  obtain ⟨m', h1', -⟩ := withRefProduct_rel (forall₂_filter h.each hp) h1
  obtain ⟨out', h5, h6⟩ := keeping_groups (R := ApportionRel) (prep' := fun _ => addSuppliersPrep T from_ to_) (upd' := apportionUpd T σ') (productIf_rel hp) (by
    intro k l l' t hl ht
    unfold addSuppliersPrep at ht ⊢
    simp only at ht ⊢
    have hs : List.Forall₂ Shuffled (l.filter fun ds => ds.type == from_) (l'.filter fun ds => ds.type == from_) :=
      forall₂_filter hl fun a b hab => by rw [hab.type]
    have hc : List.Forall₂ Shuffled (l.filter (wantsSuppliers to_)) (l'.filter (wantsSuppliers to_)) := forall₂_filter hl (wantsSuppliers_rel to_)
    have hiff := hc.length_eq
    split at ht
    · next hn =>
      cases ht
      rw [hn] at hiff
      rw [if_pos (List.length_eq_zero_iff.mp hiff.symm)]
      exact ⟨none, rfl, .none⟩
    · next hn =>
      rw [if_neg (fun h0 => hn (List.length_eq_zero_iff.mp (by rw [hiff, h0]; rfl)))]
      split at ht
      · next hto =>
        rw [if_pos hto, noOverlaps_eq T hc]
        obtain ⟨b, h5, h6⟩ := bind_eq_ok.mp ht
        rw [h5, ebind_ok]
        exact apportionPrep_rel (wantsSuppliers_rel to_) hc hs h6
      · next hto =>
        rw [if_neg hto]
        exact apportionPrep_rel (wantsSuppliers_rel to_) hc hs ht)
    (fun t t' d d' e ht hd he => apportionUpd_rel hσ hσ' ht hd he) h h2
  exact ⟨out', bind_eq_ok.mpr ⟨m', h1', h5⟩, h6⟩

/-! ## Allocation among suppliers, volumes, technology levels -/

theorem shufS_getKey {s s' : Option (List Exchange)} (h : ShufS s s') {l : List Exchange} (hl : getKey s = .ok l) : ∃ l', getKey s' = .ok l' ∧ l.Perm l' := by
  rw [getKey_eq_ok.mp hl] at h
  cases h with
  | some h => exact ⟨_, rfl, h⟩

theorem marketInput_linked {a t : ℚ} {s e : Exchange} {l : List Exchange} (hs : s.code.getD "" ≠ "") (h : marketInput a t s = .ok l) (he : e ∈ l) : LinkedInput e := by
  unfold marketInput at h
  obtain ⟨p, h1, h2⟩ := bind_eq_ok.mp h
  simp only at h2
  split at h2
  · cases h2; cases he
  · obtain ⟨c, h3, h4⟩ := bind_eq_ok.mp h2
    obtain ⟨lo, h5, h6⟩ := bind_eq_ok.mp h4
    cases h6
    rw [List.mem_singleton] at he
    subst he
    rw [getKey_eq_ok.mp h3] at hs
    exact ⟨rfl, hs⟩

theorem Shuffled.allocate {d d' : Dataset} (h : Shuffled d d') {f : Exchange → Except Err (List Exchange)} {sup sup' : List Exchange} (hp : sup.Perm sup')
    (hf : ∀ s ∈ sup, ∀ l, f s = .ok l → ∀ e ∈ l, LinkedInput e) {new : List Exchange} (hn : flatMapE f sup = .ok new) :
    ∃ new', flatMapE f sup' = .ok new' ∧ ShufE (d.exchanges ++ new) (d'.exchanges ++ new') := by
  obtain ⟨new', h1, h2⟩ := flatMapE_perm hp hn
  have hl : ∀ e ∈ new, LinkedInput e := by
    intro e he
    obtain ⟨s, hs, l, h3, h4⟩ := flatMapE_mem hn he
    exact hf s hs l h3 e h4
  refine ⟨new', h1, h.exchanges.append ?_⟩
  have := Shuf.block (S := LinkedInput) (g := _root_.id) hl (fun e he => hl e (h2.mem_iff.mpr he)) (by simpa using h2) Shuf.nil
  simpa using this

theorem keeping_allocate (kind : DsType) : Keeping (allocateAllMarketSuppliers kind) (allocateAllMarketSuppliers kind) := by
  refine keeping_each ?_
  intro d d' h e he
  rw [h.type]
  split at he
  · next ht =>
    rw [if_pos ht]
    unfold allocateSuppliers at he ⊢
    rw [h.single]
    obtain ⟨exc, h1, h2⟩ := bind_eq_ok.mp he
    obtain ⟨sup, h3, h4⟩ := bind_eq_ok.mp h2
    obtain ⟨vols, h5, h6⟩ := bind_eq_ok.mp h4
    obtain ⟨sup', h3', hp⟩ := shufS_getKey h.suppliers h3
    obtain ⟨vols', h5', hv⟩ := mapE_perm hp h5
    have hcodes := h.codes sup (getKey_eq_ok.mp h3)
    rw [h1, ebind_ok, h3', ebind_ok, h5', ebind_ok, ← hv.sum_eq]
    split at h6
    · next hz =>
      rw [if_pos hz]
      rw [← hp.length_eq]
      split at h6
      · next hl => rw [if_pos hl]; cases h6; exact ⟨_, rfl, h, rfl⟩
      · next hl =>
        rw [if_neg hl]
        obtain ⟨rp, h7, h8⟩ := bind_eq_ok.mp h6
        obtain ⟨locs, h9, h10⟩ := bind_eq_ok.mp h8
        obtain ⟨locs', h9', -⟩ := mapE_perm hp h9
        obtain ⟨new, h11, h12⟩ := bind_eq_ok.mp h10
        cases h12
        obtain ⟨new', h13, h14⟩ := h.allocate (hp.map defaultVolume) (fun s hs l hl e he => by
          obtain ⟨s0, hs0, rfl⟩ := List.mem_map.mp hs
          exact marketInput_linked (s := defaultVolume s0) (hcodes s0 hs0) hl he) h11
        rw [h.refProduct, h7, ebind_ok, h9', ebind_ok]
        simp only
        rw [h13]
        refine ⟨_, rfl, ?_, trivial⟩
        obtain ⟨a, b, rfl⟩ := h.inv
        refine ⟨rfl, h14, .some (hp.map defaultVolume), ?_, h.code⟩
        intro l hl s hs
        cases hl
        obtain ⟨s0, hs0, rfl⟩ := List.mem_map.mp hs
        exact hcodes s0 hs0
    · next hz =>
      rw [if_neg hz]
      obtain ⟨new, h11, h12⟩ := bind_eq_ok.mp h6
      cases h12
      obtain ⟨new', h13, h14⟩ := h.allocate hp (fun s hs l hl e he => marketInput_linked (hcodes s hs) hl he) h11
      rw [h13]
      refine ⟨_, rfl, ?_, rfl⟩
      obtain ⟨a, b, rfl⟩ := h.inv
      exact ⟨rfl, h14, h.suppliers, h.codes, h.code⟩
  · next ht =>
    rw [if_neg ht]
    cases he
    exact ⟨_, rfl, h, rfl⟩

theorem bestSuppliers_rel {l l' : List Exchange} (hp : l.Perm l') (levels : List String) {r : List Exchange} (h : bestSuppliers l levels = .ok r) :
    ∃ r', bestSuppliers l' levels = .ok r' ∧ r.Perm r' := by
  induction levels with
  | nil => cases h
  | cons a levels ih =>
    simp only [bestSuppliers] at h ⊢
    obtain ⟨found, h1, h2⟩ := bind_eq_ok.mp h
    unfold suppliersAt at h1 ⊢
    obtain ⟨found', h1', hf⟩ := filterE_perm hp h1
    rw [h1', ebind_ok]
    split at h2
    · next hn =>
      subst hn
      rw [if_pos (List.nil_perm.mp hf)]
      exact ih h2
    · next hn =>
      cases h2
      rw [if_neg (fun h0 => hn (by rw [h0] at hf; exact List.perm_nil.mp hf))]
      exact ⟨_, rfl, hf⟩

theorem bestSuppliers_mem {l : List Exchange} {levels : List String} {r : List Exchange} (h : bestSuppliers l levels = .ok r) : ∀ s ∈ r, s ∈ l := by
  induction levels with
  | nil => cases h
  | cons a levels ih =>
    simp only [bestSuppliers] at h
    obtain ⟨found, h1, h2⟩ := bind_eq_ok.mp h
    split at h2
    · exact ih h2
    · cases h2
      exact fun s hs => filterE_subset h1 s hs

theorem keeping_prune : Keeping pruneByTechnologyLevel pruneByTechnologyLevel := by
  refine keeping_each ?_
  intro d d' h e he
  unfold pruneSuppliers at he ⊢
  have hp := shufS_getD h.suppliers
  have hne : d'.suppliers.getD [] ≠ [] ↔ d.suppliers.getD [] ≠ [] := by
    rw [not_iff_not]
    exact ⟨fun h0 => by rw [h0] at hp; exact List.perm_nil.mp hp, fun h0 => by rw [h0] at hp; exact List.nil_perm.mp hp⟩
  split at he
  · next hc =>
    rw [if_pos (by rw [h.type, hne]; exact hc)]
    obtain ⟨best, h1, h2⟩ := bind_eq_ok.mp he
    cases h2
    obtain ⟨best', h1', hb⟩ := bestSuppliers_rel hp _ h1
    rw [h1']
    refine ⟨_, rfl, ?_, rfl⟩
    obtain ⟨a, b, rfl⟩ := h.inv
    refine ⟨rfl, h.exchanges, .some hb, ?_, h.code⟩
    intro l hl s hs
    cases hl
    have := bestSuppliers_mem h1 s hs
    cases hd : d.suppliers with
    | none => rw [hd] at this; cases this
    | some l => rw [hd] at this; exact h.codes l hd s this
  · next hc =>
    rw [if_neg (by rw [h.type, hne]; exact hc)]
    cases he
    exact ⟨_, rfl, h, rfl⟩

theorem updateMarketVolume_rel {d d' e : Dataset} (h : Shuffled d d') (he : updateMarketVolume d = .ok e) :
    ∃ e', updateMarketVolume d' = .ok e' ∧ Shuffled e e' ∧ e.code = d.code := by
  unfold updateMarketVolume at he ⊢
  rw [h.single]
  obtain ⟨rp, h1, h2⟩ := bind_eq_ok.mp he
  obtain ⟨sup, h3, h4⟩ := bind_eq_ok.mp h2
  obtain ⟨orig, h5, h6⟩ := bind_eq_ok.mp h4
  obtain ⟨pv, h7, h8⟩ := bind_eq_ok.mp h6
  obtain ⟨vols, h9, h10⟩ := bind_eq_ok.mp h8
  cases h10
  obtain ⟨sup', h3', hp⟩ := shufS_getKey h.suppliers h3
  obtain ⟨orig', h5', ho⟩ := mapE_perm hp h5
  obtain ⟨vols', h9', hv⟩ := mapE_perm hp h9
  rw [h1, ebind_ok, h3', ebind_ok, h5', ebind_ok, h7, ebind_ok, h9', ebind_ok, ← ho.sum_eq, ← hv.sum_eq]
  refine ⟨_, rfl, h.mapPure ?_, rfl⟩
  intro x hx
  unfold mapRefVolume
  rw [if_neg (by rw [hx.1]; decide)]
  exact hx

end Ocelot
