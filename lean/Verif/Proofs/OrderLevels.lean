import Verif.Proofs.OrderConstrained
import Verif.Proofs.PipelineInventory

/-! The functions of the consequential model after codes are given, one after the other. -/

namespace Ocelot
open Spec

/-- Functions that only link keep the state good, also when no recycled content is supplied. -/
theorem base_flow' {K : Known} (hK : ∀ x ∈ K.pairs, x.1 ≠ "") {f : List Dataset → Except Err (List Dataset)} (hf : Flow false f) (hk : Keeping f f) (a r : List Dataset) (ha : Base K a)
    (h : f a = .ok r) : Base K r := by
  obtain ⟨h1, h2, -⟩ := hf K (by simp) hK a r h ha.good ha.gas
  refine ⟨h1, hf.gas (by simp) hK h ha.good ha.gas, apart_next ha.apart fun d' hd' => ?_, keeping_self hk ha.self h⟩
  obtain ⟨d, hd, hs⟩ := h2 d' hd'
  exact ⟨d, hd, hs.code, hs.type, hs.name, hs.location, hs.product⟩

theorem locatedByName_market {K : Known} {s l : List Dataset} (hb : Base K s) (hl : l.Nodup) (hm : ∀ d ∈ l, d ∈ s ∧ d.type = .market)
    (hr : ∀ d ∈ l, ∀ d' ∈ l, d.refProduct = d'.refProduct) : LocatedByName l := by
  intro n
  refine (hl.filter _).map_on ?_
  intro d hd d' hd' hloc
  obtain ⟨hd, -⟩ := List.mem_filter.mp hd
  obtain ⟨hd', -⟩ := List.mem_filter.mp hd'
  refine hb.eq (hm d hd).1 (hm d' hd').1 ⟨(hm d hd).2.trans (hm d' hd').2.symm, hr d hd d' hd', hloc, fun ht => ?_⟩
  rw [(hm d hd).2] at ht
  cases ht

theorem perm_addToGroups {K : Known} {T : Topology} {σ : Dataset → String → List String → List String} (hσ : Permutes σ) (a b r : List Dataset) (hp : a.Perm b)
    (ha : Base K a) (h : addSuppliersToMarkets T σ .market .marketGroup a = .ok r) : ∃ r', addSuppliersToMarkets T σ .market .marketGroup b = .ok r' ∧ Chain r r' := by
  have hself := keeping_self (keeping_suppliers hσ hσ _ _) ha.self h
  unfold addSuppliersToMarkets at h ⊢
  simp only at h ⊢
  obtain ⟨m, h1, h2⟩ := bind_eq_ok.mp h
  obtain ⟨m', h1', -⟩ := mapE_perm (hp.filter _) h1
  rw [h1', ebind_ok]
  refine perm_groups (fun _ _ => rfl) hp ?_ hself h2
  intro k t ht
  unfold addSuppliersPrep at ht ⊢
  simp only at ht ⊢
  have hg := hp.filter fun d => decide (productIf (fun ds : Dataset => ds.type == .market || ds.type == .marketGroup) d = some k)
  have hs := hg.filter fun ds => ds.type == .market
  have hc := hg.filter (wantsSuppliers .marketGroup)
  split at ht
  · next hn =>
    cases ht
    rw [hn] at hc
    rw [if_pos (List.nil_perm.mp hc)]
    exact ⟨none, rfl, .none⟩
  · next hn =>
    rw [if_neg (fun h0 => hn (by rw [h0] at hc; exact List.perm_nil.mp hc)), if_neg (by decide)]
    rw [if_neg (by decide)] at ht
    refine apportionPrep_perm hc hs (locatedByName_market ha ((ha.nodup.filter _).filter _) ?_ ?_) ht
    · intro d hd
      obtain ⟨hd, hty⟩ := List.mem_filter.mp hd
      exact ⟨(List.mem_filter.mp hd).1, by simpa using hty⟩
    · intro d hd d' hd'
      have h7 := of_decide_eq_true (List.mem_filter.mp (List.mem_filter.mp hd).1).2
      have h8 := of_decide_eq_true (List.mem_filter.mp (List.mem_filter.mp hd').1).2
      unfold productIf at h7 h8
      split at h7
      · split at h8
        · rw [h7, h8]
        · cases h8
      · cases h7

/-- Suppliers belong to the product, if nothing supplies recycled content. -/
theorem base_groupSuppliers {K : Known} (hr : K.rc = false) (hf : ∀ c p p', (c, p) ∈ K.pairs → (c, p') ∈ K.pairs → p = p') {s : List Dataset} (hb : Base K s) : GroupSuppliers s := by
  intro d hd _ l hl e he
  have hne := (List.forall₂_same.mp hb.self.each d hd).codes l hl e he
  obtain ⟨h1, n, hn, h2⟩ := (hb.good d hd).sup l hl e he
  cases hc : e.code with
  | none => rw [hc] at hne; exact absurd rfl hne
  | some c =>
    refine ⟨c, rfl, fun x hx hxc => ?_⟩
    obtain ⟨c', p, h3, h4, h5⟩ := (hb.good x hx).code
    rw [hxc] at h3
    cases h3
    have hname : e.name = n := by
      rcases h2 with h2 | ⟨h2, -⟩
      · exact h2
      · rw [hr] at h2; cases h2
    rw [h4, hn, hf c p e.name h5 (h1 c hc), hname]

theorem runs_levels (P : PipelineEnv) (hσ : Permutes P.σ) {K : Known} (hr : K.rc = false) (hl : K.loose = false) (hk : ∀ x ∈ K.pairs, x.1 ≠ "")
    (hf : ∀ c p p', (c, p) ∈ K.pairs → (c, p') ∈ K.pairs → p = p') : Runs P (Base K) consequentialAfter := by
  have s1 : Stable (Base K) := stable_base hl
  refine .cons rfl s1 (J := Base K) ⟨fun a b r hp _ h => perm_actualize a b r hp h, fun a r ha h => base_flow' hk flow_actualize keeping_actualize a r ha h, keeping_actualize⟩ ?_
  refine .cons rfl s1 (J := Base K) ⟨fun a b r hp ha h => perm_addSuppliers hσ a b r hp ha h, fun a r ha h =>
    base_flow' hk (flow_addSuppliers _ _ _ _) (keeping_suppliers hσ hσ _ _) a r ha h, keeping_suppliers hσ hσ _ _⟩ ?_
  refine .cons rfl s1 (J := Base K) ⟨fun a b r hp _ h => chain_mapE a b r hp h, fun a r ha h => base_flow' hk flow_prune keeping_prune a r ha h, keeping_prune⟩ ?_
  refine .cons rfl s1 (J := Base K) ⟨fun a b r hp _ h => ?_, fun a r ha h => base_flow' hk (flow_updateVolumes _ _) (keeping_volumes _ _) a r ha h, keeping_volumes _ _⟩ ?_
  · unfold updateMarketProductionVolumes at h ⊢
    rw [if_neg (by decide)] at h ⊢
    exact chain_mapE a b r hp h
  refine .cons rfl s1 (J := Base K) ⟨fun a b r hp ha h => perm_addToGroups hσ a b r hp ha h, fun a r ha h =>
    base_flow' hk (flow_addSuppliers _ _ _ _) (keeping_suppliers hσ hσ _ _) a r ha h, keeping_suppliers hσ hσ _ _⟩ ?_
  refine .cons rfl s1 (J := Base K) ⟨fun a b r hp ha h => perm_groupVolumes a b r hp ha (base_groupSuppliers hr hf ha) h, fun a r ha h =>
    base_flow' hk (flow_updateVolumes _ _) (keeping_volumes _ _) a r ha h, keeping_volumes _ _⟩ ?_
  refine .cons rfl s1 (J := Base K) ⟨fun a b r hp _ h => chain_mapE a b r hp h, fun a r ha h => base_allocate _ a r ha h, keeping_allocate _⟩ ?_
  refine .cons rfl s1 (J := Base K) ⟨fun a b r hp _ h => ?_, fun a r ha h => base_flow' hk flow_deleteSuppliers keeping_deleteList a r ha h, keeping_deleteList⟩ ?_
  · cases h
    exact ⟨_, rfl, .single (Or.inl (hp.map _))⟩
  refine .cons rfl s1 (J := fun _ => True) ⟨fun a b r hp ha h => perm_consumers hl hk a b r hp ha h, fun _ _ _ _ => trivial, keeping_consumers _ _⟩ ?_
  exact .cons rfl stable_true (orderFree_map keeping_unlinked) <| .cons rfl stable_true (orderFree_normalize P.M) <| .nil P _

end Ocelot
