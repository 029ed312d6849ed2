import Verif.Proofs.OrderConsumers

/-! The functions of the cut-off model after codes are given, one after the other. -/

namespace Ocelot
open Spec

/-! ## Volumes of activities -/

theorem originalVolume_exchanges {l l' : List Exchange} (h : List.Forall₂ (fun e e' : Exchange => e'.type = e.type ∧ e'.pv = e.pv) l l') (d d' : Dataset)
    (hd : d.exchanges = l) (hd' : d'.exchanges = l') : originalVolume d' = originalVolume d := by
  have hF : List.Forall₂ (fun e e' : Exchange => e'.type = e.type ∧ e'.pv = e.pv) (refs d) (refs d') := by
    unfold refs
    rw [hd, hd']
    exact forall₂_filter h fun e e' he => by rw [he.1]
  unfold originalVolume
  cases hr : refs d with
  | nil => rw [hr] at hF; rw [List.forall₂_nil_left_iff.mp hF]
  | cons x t =>
    rw [hr] at hF
    cases hr' : refs d' with
    | nil => rw [hr'] at hF; cases hF
    | cons x' t' =>
      rw [hr'] at hF
      cases hF with
      | cons hx ht =>
        cases ht with
        | nil => simp only [hx.2]
        | cons => rfl

theorem lone_of_forall {kind : DsType} {a r : List Dataset} (ha : LoneRow kind a)
    (h : List.Forall₂ (fun d d' : Dataset => d'.code = d.code ∧ d'.type = d.type ∧ d'.location = d.location ∧ d'.refProduct = d.refProduct ∧
      (d.type = kind → originalVolume d' = originalVolume d)) a r) : LoneRow kind r :=
  lone_next ha fun _ hd' => forall₂_mem_right h hd'

theorem lone_actualize {kind : DsType} (a r : List Dataset) (ha : LoneRow kind a) (h : actualizeActivityLinks a = .ok r) : LoneRow kind r := by
  refine lone_of_forall ha ((mapE_ok_iff.mp h).imp fun d d' hd => ?_)
  obtain ⟨ex, h1, h2⟩ := bind_eq_ok.mp hd
  cases h2
  refine ⟨rfl, rfl, rfl, rfl, fun _ => originalVolume_exchanges (l := d.exchanges) (l' := ex) ((mapE_ok_iff.mp h1).imp fun e e' he => ?_) _ _ rfl rfl⟩
  unfold actualizeLink at he
  split at he
  · cases he; exact ⟨rfl, rfl⟩
  · simp only at he
    split at he
    · cases he
    · obtain ⟨refs, -, he⟩ := bind_eq_ok.mp he
      unfold linkToOnly at he
      split at he
      · obtain ⟨c, -, he⟩ := bind_eq_ok.mp he
        cases he
        exact ⟨rfl, rfl⟩
      · cases he; exact ⟨rfl, rfl⟩

theorem lone_groups {kind : DsType} {T : Topology} {σ : Dataset → String → List String → List String} {p : Dataset → Bool} (hpt : ∀ d s, p { d with suppliers := s } = p d)
    {prep : String → List Dataset → Except Err (Option Apportion)} {a r : List Dataset} (ha : LoneRow kind a)
    (h : foldE (groupStep (productIf p) prep (apportionUpd T σ)) a (groupKeys (productIf p) a) = .ok r) : LoneRow kind r := by
  have hkey : ∀ t ds ds', apportionUpd T σ t ds = .ok ds' → productIf p ds' = productIf p ds := by
    intro t ds ds' hu
    rw [apportionUpd_product hu]
    unfold productIf
    rw [hpt]
  rw [groupLoop_iff hkey] at h
  refine lone_of_forall ha ((mapE_ok_iff.mp h).imp fun d d' hd => ?_)
  have : d' = { d with suppliers := d'.suppliers } := by
    unfold groupTurn at hd
    split at hd
    · cases hd; rfl
    · obtain ⟨t, -, hd⟩ := bind_eq_ok.mp hd
      exact apportionUpd_product hd
  rw [this]
  exact ⟨rfl, rfl, rfl, rfl, fun _ => rfl⟩

theorem lone_addRecycled {kind : DsType} {T : Topology} {σ : Dataset → String → List String → List String} (a r : List Dataset) (ha : LoneRow kind a)
    (h : addRecycledContentSuppliers T σ a = .ok r) : LoneRow kind r := by
  unfold addRecycledContentSuppliers at h
  simp only at h
  obtain ⟨m, h1, h2⟩ := bind_eq_ok.mp h
  obtain ⟨rc, h3, h4⟩ := bind_eq_ok.mp h2
  exact lone_groups (fun _ _ => rfl) ha h4

theorem lone_addSuppliers {kind : DsType} {T : Topology} {σ : Dataset → String → List String → List String} {from_ to_ : DsType} (a r : List Dataset) (ha : LoneRow kind a)
    (h : addSuppliersToMarkets T σ from_ to_ a = .ok r) : LoneRow kind r := by
  unfold addSuppliersToMarkets at h
  simp only at h
  obtain ⟨m, h1, h2⟩ := bind_eq_ok.mp h
  exact lone_groups (fun _ _ => rfl) ha h2

theorem lone_marketVolumes {T : Topology} (a r : List Dataset) (ha : LoneRow .transforming a)
    (h : updateMarketProductionVolumes T .market a = .ok r) : LoneRow .transforming r := by
  unfold updateMarketProductionVolumes at h
  rw [if_neg (by decide)] at h
  refine lone_of_forall ha ((mapE_ok_iff.mp h).imp fun d d' hd => ?_)
  split at hd
  · next ht =>
    have := (update_same hd).1
    refine ⟨by rw [this], by rw [this], by rw [this], by rw [this], fun h0 => by rw [ht] at h0; cases h0⟩
  · cases hd; exact ⟨rfl, rfl, rfl, rfl, fun _ => rfl⟩

theorem lone_deleteGlobal {kind k : DsType} (a r : List Dataset) (ha : LoneRow kind a) (h : deleteGlobalZeroPv k a = .ok r) : LoneRow kind r := by
  rw [C51_exact k a r h]
  exact lone_next ha fun d hd => ⟨d, (List.mem_filter.mp hd).1, rfl, rfl, rfl, rfl, fun _ => rfl⟩

/-! ## The steps -/

/-- Results of these steps on linked states are linked. -/
def Runs (P : PipelineEnv) (I : List Dataset → Prop) (steps : List Step) : Prop :=
  ∀ a b, Chain a b → I a → ∀ out, foldE (fun d (s : Step) => s.run P d) (a.map .ds) steps = .ok out →
    ∃ r r', out = r.map .ds ∧ foldE (fun d (s : Step) => s.run P d) (b.map .ds) steps = .ok (r'.map .ds) ∧ Chain r r'

theorem Runs.nil (P : PipelineEnv) (I : List Dataset → Prop) : Runs P I [] := by
  intro a b hc _ out h
  cases h
  exact ⟨a, b, rfl, rfl, hc⟩

theorem Runs.cons {P : PipelineEnv} {I J : List Dataset → Prop} {s : Step} {steps : List Step} {f : List Dataset → Except Err (List Dataset)} (hs : s.run P = onDatasets f)
    (hI : Stable I) (hf : OrderFree I J f) (ht : Runs P J steps) : Runs P I (s :: steps) := by
  intro a b hc hi out h
  simp only [foldE] at h ⊢
  obtain ⟨m, h1, h2⟩ := bind_eq_ok.mp h
  rw [hs] at h1 ⊢
  unfold onDatasets at h1 ⊢
  rw [asDatasets_map, ebind_ok] at h1 ⊢
  obtain ⟨r, h3, h4⟩ := bind_eq_ok.mp h1
  cases h4
  obtain ⟨r', h5, h6⟩ := hf.chain hI hc hi r h3
  rw [h5]
  exact ht r r' h6 (hf.next a r hi h3) out h2

theorem base_allocate {K : Known} (kind : DsType) (a r : List Dataset) (ha : Base K a) (h : allocateAllMarketSuppliers kind a = .ok r) : Base K r := by
  obtain ⟨h1, h2, h3⟩ := stock_allocateAll kind h ha.good ha.gas
  refine ⟨h1, h2, apart_next ha.apart fun d' hd' => ?_, keeping_self (keeping_allocate kind) ha.self h⟩
  obtain ⟨d, hd, hs⟩ := h3 d' hd'
  exact ⟨d, hd, hs.code, hs.type, hs.name, hs.location, hs.product⟩

theorem orderFree_each {f : Dataset → Except Err Dataset} (hk : Keeping (mapE f) (mapE f)) : OrderFree (fun _ => True) (fun _ => True) (mapE f) :=
  ⟨fun a b r hp _ h => chain_mapE a b r hp h, fun _ _ _ _ => trivial, hk⟩

theorem orderFree_map {f : Dataset → Dataset} (hk : Keeping (fun d => .ok (d.map f)) (fun d => .ok (d.map f))) : OrderFree (fun _ => True) (fun _ => True) (fun d => .ok (d.map f)) :=
  ⟨fun a b r hp _ h => by cases h; exact ⟨b.map f, rfl, .single (Or.inl (hp.map f))⟩, fun _ _ _ _ => trivial, hk⟩

theorem orderFree_normalize (M : MathEnv) : OrderFree (fun _ => True) (fun _ => True) (wrapAll (normalizeList M)) :=
  ⟨fun a b r hp _ h => by
    obtain ⟨r', h1, h2⟩ := chain_mapE a b r hp (wrapAll_normalize.mp h)
    exact ⟨r', wrapAll_normalize.mpr h1, h2⟩, fun _ _ _ _ => trivial, keeping_normalize M⟩

theorem runs_end (P : PipelineEnv) : Runs P (fun _ => True) cutoffEnd :=
  .cons rfl stable_true (orderFree_each keeping_refCodes) <|
  .cons rfl stable_true (orderFree_map keeping_unlinked) <|
  .cons rfl stable_true (orderFree_map keeping_rename) <|
  .cons rfl stable_true (orderFree_each keeping_flip) <|
  .cons rfl stable_true (orderFree_normalize P.M) <|
  .cons rfl stable_true (orderFree_each (keeping_signs P.M)) <|
  .nil P _

theorem runs_linking (P : PipelineEnv) (hσ : Permutes P.σ) {K : Known} (hr : K.rc = true) (hl : K.loose = false) (hk : ∀ x ∈ K.pairs, x.1 ≠ "") :
    Runs P (fun s => Base K s ∧ LoneRow .transforming s) (cutoffLinking ++ cutoffEnd) := by
  have s0 : Stable fun s => Base K s ∧ LoneRow .transforming s := (stable_base hl).and (stable_lone _)
  have s1 : Stable (Base K) := stable_base hl
  have s2 : Stable fun s => Base K s ∧ GroupSuppliers s := (stable_base hl).and stable_groupSuppliers
  refine .cons rfl s0 (J := fun s => Base K s ∧ LoneRow .transforming s) ⟨fun a b r hp _ h => perm_actualize a b r hp h, fun a r ha h =>
    ⟨base_flow hr hk flow_actualize keeping_actualize a r ha.1 h, lone_actualize a r ha.2 h⟩, keeping_actualize⟩ ?_
  refine .cons rfl s0 (J := fun s => Base K s ∧ LoneRow .transforming s) ⟨fun a b r hp ha h => perm_addRecycled hσ a b r hp ha.1 h, fun a r ha h =>
    ⟨base_flow hr hk (flow_addRecycled _ _) (keeping_recycledSuppliers hσ hσ) a r ha.1 h, lone_addRecycled a r ha.2 h⟩, keeping_recycledSuppliers hσ hσ⟩ ?_
  refine .cons rfl s0 (J := fun s => Base K s ∧ LoneRow .transforming s) ⟨fun a b r hp ha h => perm_addSuppliers hσ a b r hp ha.1 h, fun a r ha h =>
    ⟨base_flow hr hk (flow_addSuppliers _ _ _ _) (keeping_suppliers hσ hσ _ _) a r ha.1 h, lone_addSuppliers a r ha.2 h⟩, keeping_suppliers hσ hσ _ _⟩ ?_
  refine .cons rfl s0 (J := fun s => Base K s ∧ LoneRow .transforming s) ⟨fun a b r hp ha h => ?_, fun a r ha h =>
    ⟨base_flow hr hk (flow_updateVolumes _ _) (keeping_volumes _ _) a r ha.1 h, lone_marketVolumes a r ha.2 h⟩, keeping_volumes _ _⟩ ?_
  · unfold updateMarketProductionVolumes at h ⊢
    rw [if_neg (by decide)] at h ⊢
    exact chain_mapE a b r hp h
  refine .cons rfl s0 (J := fun s => Base K s ∧ LoneRow .transforming s) ⟨fun a b r hp ha h => perm_deleteGlobal hl _ a b r hp ha.1 (lone_market ha.1.apart) h, fun a r ha h =>
    ⟨base_flow hr hk (flow_deleteGlobal _) (keeping_zeroPv _) a r ha.1 h, lone_deleteGlobal a r ha.2 h⟩, keeping_zeroPv _⟩ ?_
  refine .cons rfl s0 (J := Base K) ⟨fun a b r hp ha h => perm_deleteGlobal hl _ a b r hp ha.1 ha.2 h, fun a r ha h =>
    base_flow hr hk (flow_deleteGlobal _) (keeping_zeroPv _) a r ha.1 h, keeping_zeroPv _⟩ ?_
  refine .cons rfl s1 (J := Base K) ⟨fun a b r hp _ h => chain_mapE a b r hp h, fun a r ha h => base_allocate _ a r ha h, keeping_allocate _⟩ ?_
  refine .cons rfl s1 (J := fun s => Base K s ∧ GroupSuppliers s) ⟨fun a b r hp ha h => perm_linkGroups hl a b r hp ha h, fun a r ha h =>
    ⟨base_flow hr hk (flow_linkGroups _) (keeping_groupSuppliers _) a r ha h, groupSuppliers_after a r ha h⟩, keeping_groupSuppliers _⟩ ?_
  refine .cons rfl s2 (J := Base K) ⟨fun a b r hp ha h => perm_groupVolumes a b r hp ha.1 ha.2 h, fun a r ha h =>
    base_flow hr hk (flow_updateVolumes _ _) (keeping_volumes _ _) a r ha.1 h, keeping_volumes _ _⟩ ?_
  refine .cons rfl s1 (J := Base K) ⟨fun a b r hp _ h => chain_mapE a b r hp h, fun a r ha h => base_allocate _ a r ha h, keeping_allocate _⟩ ?_
  refine .cons rfl s1 (J := Base K) ⟨fun a b r hp _ h => perm_linkRecycled a b r hp h, fun a r ha h =>
    base_flow hr hk flow_linkRecycled keeping_recycled a r ha h, keeping_recycled⟩ ?_
  refine .cons rfl s1 (J := fun _ => True) ⟨fun a b r hp ha h => perm_consumers hl hk a b r hp ha h, fun _ _ _ _ => trivial, keeping_consumers _ _⟩ ?_
  exact runs_end P

/-! ## Linked states -/

theorem Spec.Reordered.refl (d : Dataset) : Reordered d d := by
  refine ⟨.refl _, ?_, rfl⟩
  cases d.suppliers with
  | none => exact .none
  | some l => exact .some (.refl l)

theorem Spec.Reordered.trans {a b c : Dataset} (h : Reordered a b) (h' : Reordered b c) : Reordered a c := by
  refine ⟨h.1.trans h'.1, ?_, h.2.2.trans h'.2.2⟩
  have h1 := h.2.1
  have h2 := h'.2.1
  cases ha : a.suppliers with
  | none =>
    rw [ha] at h1
    cases hb : b.suppliers with
    | none =>
      rw [hb] at h2
      cases hc : c.suppliers with
      | none => exact .none
      | some z => rw [hc] at h2; cases h2
    | some y => rw [hb] at h1; cases h1
  | some x =>
    rw [ha] at h1
    cases hb : b.suppliers with
    | none => rw [hb] at h1; cases h1
    | some y =>
      rw [hb] at h1 h2
      cases hc : c.suppliers with
      | none => rw [hc] at h2; cases h2
      | some z =>
        rw [hc] at h2
        cases h1 with
        | some h1 =>
          cases h2 with
          | some h2 => exact .some (h1.trans h2)

theorem forall₂_perm_right {α β : Type} {R : α → β → Prop} {a : List α} {b c : List β} (h : List.Forall₂ R a b) (hp : b.Perm c) : ∃ m, a.Perm m ∧ List.Forall₂ R m c := by
  have := List.perm_comp_forall₂ (r := fun y x => R x y) hp.symm h.flip
  obtain ⟨m, h1, h2⟩ := this
  exact ⟨m, h2.symm, h1.flip⟩

theorem chain_reordered {a b : List Dataset} (h : Chain a b) : ∃ m, a.Perm m ∧ List.Forall₂ Reordered m b := by
  induction h with
  | refl => exact ⟨a, .refl _, List.forall₂_same.mpr fun d _ => .refl d⟩
  | tail _ hl ih =>
    obtain ⟨m, h1, h2⟩ := ih
    rcases hl with hl | hl
    · obtain ⟨m', h3, h4⟩ := forall₂_perm_right h2 hl
      exact ⟨m', h1.trans h3, h4⟩
    · exact ⟨m, h1, forall₂_trans' h2 (hl.each.imp fun _ _ h => reordered_of h) fun _ _ _ => Spec.Reordered.trans⟩

end Ocelot
