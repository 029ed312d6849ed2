import Verif.Proofs.PartsStart
import Verif.Proofs.OrderVolumes

/-! The functions that link markets work on the parts of a database separately. -/

namespace Ocelot
namespace Parts
open Spec

variable {c : Cut} {J : Option (String → Bool)}

/-! ## `RoW` and codes -/

theorem keep_relabel {regional : ℚ} {d d' : Dataset} (h : relabelGlobal regional d = .ok d') : Keep c J d d' := by
  unfold relabelGlobal at h
  obtain ⟨_, -, h⟩ := bind_eq_ok.mp h
  obtain ⟨_, -, h⟩ := bind_eq_ok.mp h
  cases h
  refine Keep.trans (b := { d with exchanges := d.exchanges.map (relabelVolume regional) }) (.mapExchanges (fun e => ?_) d) (.frame rfl rfl rfl rfl rfl rfl)
  unfold relabelVolume
  split <;> rfl

theorem local_relabel : Local c J relabelGlobalToRow := by
  intro X X' hX h
  unfold relabelGlobalToRow at h ⊢
  obtain ⟨st, hst, h⟩ := bind_eq_ok.mp h
  obtain ⟨st', hst', h⟩ := bind_eq_ok.mp h
  cases h
  have hkey : ∀ d p, withRowKey d = .ok p → p.2 = d ∧ p.1.1 = d.name := by
    intro d p hp
    unfold withRowKey at hp
    obtain ⟨k, hk, hp⟩ := bind_eq_ok.mp hp
    cases hp
    unfold rowGrouper at hk
    obtain ⟨l, -, hk⟩ := bind_eq_ok.mp hk
    cases hk
    exact ⟨rfl, rfl⟩
  let s : (String × List String) × Dataset → Bool := fun p => c.name p.1.1
  let D : List ((String × List String) × Dataset) → Prop := fun st => ∀ p ∈ st, Whole c J (c.name p.1.1) p.2
  have hD : D st := by
    intro p hp
    obtain ⟨d, hd, hpd⟩ := mapE_mem hst hp
    obtain ⟨rfl, h2⟩ := hkey d p hpd
    rw [h2]
    exact hX _ hd
  have hpart : mapE withRowKey (c.part X) = .ok (st.filter s) := mapE_filter_of hst (fun d _ p hp => by rw [show s p = c.name p.1.1 from rfl, (hkey d p hp).2]) fun _ _ _ _ h => h
  have hmember : ∀ k regional p p', relabelMember k regional p = .ok p' → p'.1 = p.1 ∧ Keep c J p.2 p'.2 ∧ (p.1 ≠ k → p' = p) := by
    intro k regional p p' h
    unfold relabelMember at h
    split at h
    · next hc =>
      obtain ⟨d, hd, h⟩ := bind_eq_ok.mp h
      cases h
      exact ⟨hc.1.symm, keep_relabel hd, fun hne => absurd hc.1 hne⟩
    · cases h; exact ⟨rfl, .refl _, fun _ => rfl⟩
  have hmapD : ∀ k regional st st', D st → mapE (relabelMember k regional) st = .ok st' → D st' := by
    intro k regional st st' hD h p' hp'
    obtain ⟨p, hp, hm⟩ := mapE_mem h hp'
    obtain ⟨h1, h2, -⟩ := hmember k regional p p' hm
    rw [h1]
    exact h2 _ (hD p hp)
  obtain ⟨hD', hfold⟩ := fold_local (s := s) (D := D) (step := relabelGroup) (step' := relabelGroup) (side := fun k => c.name k.1) (by
    intro k _ hk st st' hD h
    unfold relabelGroup at h ⊢
    have hgrp : ((st.filter s).filter fun p => decide (p.1 = k)) = st.filter fun p => decide (p.1 = k) := by
      rw [List.filter_filter]
      refine List.filter_congr fun p _ => ?_
      by_cases hp : p.1 = k
      · show (decide (p.1 = k) && c.name p.1.1) = decide (p.1 = k)
        rw [hp, hk, Bool.and_true]
      · simp [hp]
    rw [hgrp]
    simp only at h ⊢
    split at h
    · next h1 => cases h; exact ⟨hD, by rw [if_pos h1]⟩
    · next h1 =>
      split at h
      · next h2 =>
        rw [if_neg h1, if_pos h2]
        obtain ⟨u, hu, h⟩ := bind_eq_ok.mp h
        refine ⟨hmapD _ _ _ _ hD h, ?_⟩
        rw [hu]
        exact mapE_filter_of h (fun p _ p' hp => by rw [show s p' = c.name p'.1.1 from rfl, (hmember _ _ p p' hp).1]) fun _ _ _ _ h => h
      · next h2 => cases h; exact ⟨hD, by rw [if_neg h1, if_neg h2]⟩) (by
    intro k _ hk st st' hD h
    unfold relabelGroup at h
    simp only at h
    split at h
    · cases h; exact ⟨hD, rfl⟩
    · split at h
      · obtain ⟨u, hu, h⟩ := bind_eq_ok.mp h
        refine ⟨hmapD _ _ _ _ hD h, ?_⟩
        have := mapE_filter_of (f' := fun p => .ok p) (q := s) h (fun p _ p' hp => by rw [show s p' = c.name p'.1.1 from rfl, (hmember _ _ p p' hp).1]) (by
          intro p _ hs p' hp
          rw [(hmember _ _ p p' hp).2.2 (fun he => by rw [he] at hs; rw [hs] at hk; cases hk)])
        have hid := mapE_pure (fun p : (String × List String) × Dataset => p) (st.filter fun p => c.name p.1.1)
        rw [List.map_id'] at hid
        rw [hid] at this
        exact (Except.ok.inj this).symm
      · cases h; exact ⟨hD, rfl⟩) hD hst'
  refine ⟨?_, ?_⟩
  · intro d hd
    obtain ⟨p, hp, rfl⟩ := List.mem_map.mp hd
    exact (hD' p hp).self
  · rw [hpart]
    simp only [ebind_ok]
    have hk : (groupBy (·.1) (st.filter s)).map (·.1) = ((groupBy (·.1) st).map (·.1)).filter fun k => c.name k.1 := by
      rw [groupBy_filter (p := s) (q := fun k : String × List String => c.name k.1) st (fun _ _ => rfl), List.filter_map]
      rfl
    rw [hk, hfold]
    simp only [ebind_ok, epure, Except.ok.injEq]
    unfold Cut.part
    rw [List.filter_map]
    congr 1
    refine List.filter_congr fun p hp => ?_
    exact (hD' p hp).name.symm

theorem addCodes_part {hash : Dataset → String} {X X' : List Dataset} {seen seen' : List String} (hs : ∀ x ∈ seen', x ∈ seen) (h : addCodesFrom hash seen X = .ok X') :
    addCodesFrom hash seen' (c.part X) = .ok (c.part X') := by
  induction X generalizing X' seen seen' with
  | nil => cases h; rfl
  | cons d X ih =>
    unfold addCodesFrom at h
    split at h
    · cases h
    · next hn =>
      obtain ⟨r, hr, h⟩ := bind_eq_ok.mp h
      cases h
      unfold Cut.part
      cases hd : c.name d.name with
      | true =>
        rw [List.filter_cons_of_pos (by simpa using hd), List.filter_cons_of_pos (by simpa using hd)]
        unfold addCodesFrom
        rw [if_neg (fun h => hn (hs _ h))]
        have := ih (seen' := hash d :: seen') (by
          intro x hx
          rcases List.mem_cons.mp hx with rfl | hx
          · exact List.mem_cons_self
          · exact List.mem_cons_of_mem _ (hs x hx)) hr
        unfold Cut.part at this
        rw [this]
        rfl
      | false =>
        rw [List.filter_cons_of_neg (by simp [hd]), List.filter_cons_of_neg (by simp [hd])]
        exact ih (fun x hx => List.mem_cons_of_mem _ (hs x hx)) hr

/-- After this function the codes tell the parts apart. -/
theorem codes_part {lower md5 : String → String} {X X' : List Dataset} (hX : Divided c none X) (hn : ∀ d ∈ X, d.suppliers = none) (h : addUniqueCodes lower md5 X = .ok X') :
    ∃ j : String → Bool, Divided c (some j) X' ∧ (X'.map (·.code)).Nodup ∧ addUniqueCodes lower md5 (c.part X) = .ok (c.part X') := by
  obtain ⟨hc, hnd⟩ := C49_unique lower md5 X X' h
  refine ⟨fun k => X'.any fun d => d.code == some k && c.name d.name, ?_, hnd, addCodes_part (fun _ h => h) h⟩
  intro d' hd'
  have hd0 := hd'
  rw [hc] at hd'
  obtain ⟨d, hd, rfl⟩ := List.mem_map.mp hd'
  have hw := hX d hd
  refine ⟨rfl, hw.id, hw.exs, hw.ref, hw.sup, ?_⟩
  intro j hj
  cases hj
  refine ⟨⟨_, rfl, ?_⟩, fun l hl => ?_⟩
  · cases hs : c.name d.name with
    | true =>
      refine List.any_eq_true.mpr ⟨_, hd0, ?_⟩
      simpa using hs
    | false =>
      rw [Bool.eq_false_iff]
      intro hany
      obtain ⟨x, hx, hx'⟩ := List.any_eq_true.mp hany
      simp only [Bool.and_eq_true, beq_iff_eq] at hx'
      have := List.inj_on_of_nodup_map hnd hx hd0 hx'.1
      rw [this] at hx'
      rw [hs] at hx'
      cases hx'.2
  · have : d.suppliers = some l := hl
    rw [hn d hd] at this
    cases this

/-! ## Links -/

theorem keep_mapExchanges {f : Exchange → Except Err Exchange} (hf : ∀ e e', f e = .ok e' → labelOf e' = labelOf e) {d d' : Dataset} (h : mapExchangesE f d = .ok d') : Keep c J d d' := by
  unfold mapExchangesE at h
  obtain ⟨ex, hex, h⟩ := bind_eq_ok.mp h
  cases h
  exact .mapExchangesE hf hex rfl

theorem linkToOnly_label {e e' : Exchange} {l : List Dataset} (h : linkToOnly e l = .ok e') : labelOf e' = labelOf e := by
  unfold linkToOnly at h
  split at h
  · obtain ⟨_, -, h⟩ := bind_eq_ok.mp h
    cases h
    rfl
  · cases h; rfl

theorem mapExchangesE_congr {f g : Exchange → Except Err Exchange} {d d' : Dataset} (h : mapExchangesE f d = .ok d') (hfg : ∀ e ∈ d.exchanges, f e = g e) : mapExchangesE g d = .ok d' := by
  unfold mapExchangesE at h ⊢
  rw [← mapE_congr hfg]
  exact h

theorem local_actualize : Local c J actualizeActivityLinks := by
  refine local_mapE_of (g := fun X => mapExchangesE (actualizeLink X)) (fun X _ d _ d' h => keep_mapExchanges (fun e e' he => ?_) h) (fun X hX d hd hs d' h => mapExchangesE_congr h fun e he => ?_)
  · unfold actualizeLink at he
    split at he
    · cases he; rfl
    · simp only at he
      split at he
      · cases he
      · obtain ⟨_, -, he⟩ := bind_eq_ok.mp he
        exact linkToOnly_label he
  · unfold actualizeLink
    split
    · rfl
    · next hne =>
      have : ((c.part X).filter fun ds => decide (some ds.id = e.activityLink)) = X.filter fun ds => decide (some ds.id = e.activityLink) := by
        refine filter_part fun x hx hp => ?_
        have hp : some x.id = e.activityLink := by simpa using hp
        have h1 := ((hX d hd).exs e he).2 x.id hp.symm (by rw [← hp] at hne; exact hne)
        rw [(hX x hx).id, hs] at h1
        exact h1
      rw [this]

theorem filterE_part {p : Dataset → Except Err Bool} {X r : List Dataset} (h : filterE p X = .ok r) : filterE p (c.part X) = .ok (c.part r) := by
  induction X generalizing r with
  | nil => cases h; rfl
  | cons d X ih =>
    obtain ⟨b, r', h1, h2, rfl⟩ := filterE_cons_ok.mp h
    have hi := ih h2
    unfold Cut.part at hi ⊢
    cases hd : c.name d.name with
    | true =>
      rw [List.filter_cons_of_pos (by simpa using hd)]
      refine filterE_cons_ok.mpr ⟨b, _, h1, hi, ?_⟩
      cases b
      · rfl
      · simp only [if_true]
        rw [List.filter_cons_of_pos (by simpa using hd)]
    | false =>
      rw [List.filter_cons_of_neg (by simp [hd]), hi]
      cases b
      · rfl
      · simp only [if_true]
        rw [List.filter_cons_of_neg (by simp [hd])]

theorem filterE_sub {α : Type} {p : α → Except Err Bool} {X r : List α} (h : filterE p X = .ok r) : ∀ d ∈ r, d ∈ X := fun _ hd => (filterE_mem h hd).1

theorem local_linkRecycled : Local c J linkRecycledContent := by
  intro X X' hX h
  unfold linkRecycledContent at h ⊢
  obtain ⟨rc, hrc, h⟩ := bind_eq_ok.mp h
  rw [filterE_part hrc, ebind_ok]
  have hk : ∀ d d', mapExchangesE (linkRecycledInput rc) d = .ok d' → Keep c J d d' := by
    intro d d' h
    refine keep_mapExchanges (fun e e' he => ?_) h
    unfold linkRecycledInput at he
    split at he
    · exact linkToOnly_label he
    · cases he; rfl
  refine ⟨?_, ?_⟩
  · intro d' hd'
    obtain ⟨d, hd, hg⟩ := mapE_mem h hd'
    exact (hk d d' hg _ (hX d hd)).self
  · refine mapE_filter_of h (fun d hd d' hg => (hk d d' hg _ (hX d hd)).name.symm) (fun d hd hs d' hg => mapExchangesE_congr hg fun e he => ?_)
    unfold linkRecycledInput
    split
    · next hu =>
      have ht : e.type = .fromTechnosphere := by
        unfold isUnlinked at hu
        simp only [Bool.and_eq_true, beq_iff_eq] at hu
        exact hu.1
      have hn : c.name e.name = true := by rw [((hX d hd).exs e he).named (by rw [ht]; rfl)]; exact hs
      rw [filter_part]
      intro x hx hp
      have := (hX x (filterE_sub hrc x hx)).ref e.name (by simpa using hp)
      rw [← this, hn]
    · rfl

/-! ## Suppliers -/

theorem entry_side {b : Bool} {d : Dataset} (h : Whole c J b d) {e : Exchange} (he : supplierEntry d = .ok e) :
    c.name e.name = b ∧ ∀ j, J = some j → ∀ k, e.code = some k → j k = b := by
  unfold supplierEntry at he
  obtain ⟨rp, hrp, he⟩ := bind_eq_ok.mp he
  cases he
  refine ⟨show c.name rp.name = b from h.product hrp, ?_⟩
  intro j hj k hk
  obtain ⟨⟨k', h1, h2⟩, -⟩ := h.code j hj
  unfold annotateExchange at hk
  simp only [h1, Option.orElse_some, Option.some.injEq] at hk
  rw [← hk]
  exact h2

/-- New suppliers. -/
theorem Whole.setSup {b : Bool} {d d' : Dataset} {l : Option (List Exchange)} (hd : d' = { d with suppliers := l }) (h : Whole c J b d)
    (hl : ∀ l', l = some l' → ∀ e ∈ l', c.name e.name = b ∧ ∀ j, J = some j → ∀ k, e.code = some k → j k = b) : Whole c J b d' := by
  subst hd
  exact ⟨h.name, h.id, h.exs, h.ref, fun l' h' e he => (hl l' h' e he).1, fun j hj => ⟨(h.code j hj).1, fun l' h' e he => (hl l' h' e he).2 j hj⟩⟩

theorem sup_of {b : Bool} {d : Dataset} (h : Whole c J b d) {l : List Exchange} (hl : d.suppliers = some l) : ∀ e ∈ l, c.name e.name = b ∧ ∀ j, J = some j → ∀ k, e.code = some k → j k = b :=
  fun e he => ⟨h.sup l hl e he, fun j hj => (h.code j hj).2 l hl e he⟩

theorem supply_keep {T : Topology} {σ : Dataset → String → List String → List String} {row : Finset ℕ} {sup : List Dataset} {b : Bool} (hs : ∀ x ∈ sup, Whole c J b x)
    {d d' : Dataset} (hd : Whole c J b d) (h : supplyConsumer T σ row sup d = .ok d') : Whole c J b d' := by
  unfold supplyConsumer at h
  obtain ⟨new, hnew, h⟩ := bind_eq_ok.mp h
  cases h
  refine hd.setSup rfl ?_
  intro l' hl' e he
  cases hl'
  rcases List.mem_append.mp he with he | he
  · cases hsup : d.suppliers with
    | none => rw [hsup] at he; cases he
    | some l => rw [hsup] at he; exact sup_of hd hsup e he
  · obtain ⟨g, hg, r, hr, he⟩ := flatMapE_mem hnew he
    unfold suppliersOfGroup at hr
    obtain ⟨_, -, hr⟩ := bind_eq_ok.mp hr
    obtain ⟨_, -, hr⟩ := bind_eq_ok.mp hr
    obtain ⟨_, -, hr⟩ := bind_eq_ok.mp hr
    obtain ⟨k, -, hk⟩ := mapE_mem hr he
    obtain ⟨x, hx, hk⟩ := bind_eq_ok.mp hk
    refine entry_side (hs x ?_) hk
    obtain ⟨y, hy, -, rfl⟩ := dictOf_mem_src (mem_of_lookup (getKey_eq_ok.mp hx))
    rw [groupBy_mem (k := g.1) (g := g.2) hg] at hy
    exact (List.mem_filter.mp hy).1

/-- What a loop over products does to one dataset. -/
theorem local_groups {τ : Type} {key : Dataset → Option String} {prep : List Dataset → String → List Dataset → Except Err τ} {upd : τ → Dataset → Except Err Dataset}
    (hkey : ∀ t d d', upd t d = .ok d' → key d' = key d) (hk : ∀ d k, key d = some k → d.refProduct = some k)
    (hprep : ∀ X, Divided c J X → ∀ k, c.name k = true → ∀ G t, prep X k G = .ok t → prep (c.part X) k G = .ok t)
    (hupd : ∀ X, Divided c J X → ∀ k G t, (∀ d ∈ G, Whole c J (c.name k) d) → prep X k G = .ok t → ∀ d d', Whole c J (c.name k) d → upd t d = .ok d' → Whole c J (c.name k) d') :
    Local c J (fun X => foldE (groupStep key (prep X) upd) X (groupKeys key X)) := by
  intro X X' hX h
  simp only at h ⊢
  rw [groupLoop_iff hkey] at h ⊢
  have hside : ∀ d ∈ X, ∀ k, key d = some k → c.name k = c.name d.name := fun d hd k hdk => (hX d hd).ref k (hk d k hdk)
  refine local_mapE_of (g := fun X d => groupTurn key (prep X) upd X d) (c := c) (J := J) ?_ ?_ X X' hX h
  · intro X hX d hd d' h b hw
    unfold groupTurn at h
    split at h
    · cases h; exact hw
    · next k hdk =>
      obtain ⟨t, ht, h⟩ := bind_eq_ok.mp h
      have hb : b = c.name k := hw.name.symm.trans ((hX d hd).ref k (hk d k hdk)).symm
      subst hb
      refine hupd X hX k _ t ?_ ht d d' hw h
      intro x hx
      obtain ⟨h1, h2⟩ := List.mem_filter.mp hx
      rw [(hX x h1).ref k (hk x k (by simpa using h2))]
      exact hX x h1
  · intro X hX d hd hs d' h
    unfold groupTurn at h ⊢
    split
    · next h0 => rw [h0] at h; exact h
    · next k hdk =>
      rw [hdk] at h
      have hkn : c.name k = true := by rw [(hX d hd).ref k (hk d k hdk)]; exact hs
      obtain ⟨t, ht, h⟩ := bind_eq_ok.mp h
      rw [filter_part]
      · exact bind_eq_ok.mpr ⟨t, hprep X hX k hkn _ t ht, h⟩
      · intro x hx hp
        have := (hX x hx).ref k (hk x k (by simpa using hp))
        rw [← this, hkn]

theorem productIf_ref {p : Dataset → Bool} {d : Dataset} {k : String} (h : productIf p d = some k) : d.refProduct = some k := by
  unfold productIf at h
  split at h
  · exact h
  · cases h

theorem apportion_key {T : Topology} {σ : Dataset → String → List String → List String} {p : Dataset → Bool} (hp : ∀ d (s : Option (List Exchange)), p { d with suppliers := s } = p d)
    (t : Option Apportion) (d d' : Dataset) (h : apportionUpd T σ t d = .ok d') : productIf p d' = productIf p d := by
  unfold apportionUpd at h
  split at h
  · cases h; rfl
  · split at h
    · unfold supplyConsumer at h
      obtain ⟨_, -, h⟩ := bind_eq_ok.mp h
      cases h
      unfold productIf
      rw [hp]
    · cases h; rfl

theorem apportion_keep {T : Topology} {σ : Dataset → String → List String → List String} {b : Bool} {t : Option Apportion} (ht : ∀ a, t = some a → ∀ x ∈ a.suppliers, Whole c J b x)
    {d d' : Dataset} (hd : Whole c J b d) (h : apportionUpd T σ t d = .ok d') : Whole c J b d' := by
  unfold apportionUpd at h
  split at h
  · cases h; exact hd
  · next a =>
    split at h
    · exact supply_keep (ht a rfl) hd h
    · cases h; exact hd

theorem apportionPrep_suppliers {T : Topology} {p : Dataset → Bool} {cs s : List Dataset} {t : Option Apportion} (h : apportionPrep T p cs s = .ok t) : ∀ a, t = some a → a.suppliers = s := by
  unfold apportionPrep at h
  obtain ⟨_, -, h⟩ := bind_eq_ok.mp h
  obtain ⟨_, -, h⟩ := bind_eq_ok.mp h
  cases h
  intro a ha
  cases ha
  rfl

theorem local_check {α : Type} {g : Dataset → Except Err α} {p : Dataset → Bool} {f : List Dataset → Except Err (List Dataset)} (hf : Local c J f) :
    Local c J (fun X => mapE g (X.filter p) >>= fun _ => f X) := by
  intro X X' hX h
  obtain ⟨u, hu, h⟩ := bind_eq_ok.mp h
  obtain ⟨a1, a2⟩ := hf X X' hX h
  obtain ⟨u', hu'⟩ := mapE_part (q := fun d => c.name d.name) hu
  exact ⟨a1, bind_eq_ok.mpr ⟨u', hu', a2⟩⟩

theorem local_addSuppliers {T : Topology} {σ : Dataset → String → List String → List String} (from_ to_ : DsType) : Local c J (addSuppliersToMarkets T σ from_ to_) := by
  refine local_check (g := withRefProduct) (p := fun ds : Dataset => ds.type == from_ || ds.type == to_)
    (local_groups (key := productIf fun ds : Dataset => ds.type == from_ || ds.type == to_) (prep := fun _ _ => addSuppliersPrep T from_ to_) (upd := apportionUpd T σ)
      (apportion_key fun _ _ => rfl) (fun _ _ h => productIf_ref h) (fun _ _ _ _ _ _ h => h) ?_)
  intro X hX k G t hG ht d d' hd h
  refine apportion_keep ?_ hd h
  intro a ha x hx
  unfold addSuppliersPrep at ht
  simp only at ht
  split at ht
  · cases ht; cases ha
  · have : a.suppliers = G.filter fun ds => ds.type == from_ := by
      split at ht
      · obtain ⟨_, -, ht⟩ := bind_eq_ok.mp ht
        exact apportionPrep_suppliers ht a ha
      · exact apportionPrep_suppliers ht a ha
    rw [this] at hx
    exact hG x (List.mem_filter.mp hx).1

theorem name_rc (hc : c.Proper) (s : String) : c.name (s ++ rcString) = c.name s := by
  have := hc.recycled s ""
  rw [String.append_empty, String.append_empty] at this
  exact this

theorem local_addRecycled (hc : c.Proper) {T : Topology} {σ : Dataset → String → List String → List String} : Local c J (addRecycledContentSuppliers T σ) := by
  have hloop : Local c J (fun X => foldE (groupStep (productIf fun ds : Dataset => ds.type == .market) (fun k G => recycledContentDatasets X >>= fun rc => recycledPrep T rc k G) (apportionUpd T σ)) X
      (groupKeys (productIf fun ds : Dataset => ds.type == .market) X)) := by
    refine local_groups (key := productIf fun ds : Dataset => ds.type == .market) (prep := fun X k G => recycledContentDatasets X >>= fun rc => recycledPrep T rc k G) (upd := apportionUpd T σ)
      (apportion_key fun _ _ => rfl) (fun _ _ h => productIf_ref h) ?_ ?_
    · intro X hX k hk G t ht
      obtain ⟨rc, hrc, ht⟩ := bind_eq_ok.mp ht
      refine bind_eq_ok.mpr ⟨c.part rc, filterE_part hrc, ?_⟩
      unfold recycledPrep at ht ⊢
      rw [filter_part]
      · exact ht
      · intro x hx hp
        have := (hX x (filterE_sub hrc x hx)).ref (k ++ rcString) (by simpa using hp)
        rw [← this, name_rc hc, hk]
    · intro X hX k G t hG ht d d' hd h
      refine apportion_keep ?_ hd h
      intro a ha x hx
      obtain ⟨rc, hrc, ht⟩ := bind_eq_ok.mp ht
      unfold recycledPrep at ht
      obtain ⟨_, -, ht⟩ := bind_eq_ok.mp ht
      split at ht
      · cases ht; cases ha
      · rw [apportionPrep_suppliers ht a ha] at hx
        obtain ⟨hx, hp⟩ := List.mem_filter.mp hx
        have hX' := hX x (filterE_sub hrc x hx)
        have := hX'.ref (k ++ rcString) (by simpa using hp)
        rw [name_rc hc] at this
        rw [this]
        exact hX'
  intro X X' hX h
  unfold addRecycledContentSuppliers at h ⊢
  obtain ⟨u, hu, h⟩ := bind_eq_ok.mp h
  obtain ⟨rc, hrc, h⟩ := bind_eq_ok.mp h
  obtain ⟨a1, a2⟩ := hloop X X' hX (by simp only [hrc, ebind_ok]; exact h)
  obtain ⟨u', hu'⟩ := mapE_part (q := fun d => c.name d.name) hu
  have hrc' := filterE_part (c := c) hrc
  refine ⟨a1, bind_eq_ok.mpr ⟨u', hu', bind_eq_ok.mpr ⟨_, hrc', ?_⟩⟩⟩
  simp only [show recycledContentDatasets (c.part X) = .ok (c.part rc) from hrc', ebind_ok] at a2
  exact a2

/-! ## Volumes and shares -/

theorem keep_volume {d d' : Dataset} (h : updateMarketVolume d = .ok d') : Keep c J d d' := by
  unfold updateMarketVolume at h
  obtain ⟨_, -, h⟩ := bind_eq_ok.mp h
  obtain ⟨_, -, h⟩ := bind_eq_ok.mp h
  obtain ⟨_, -, h⟩ := bind_eq_ok.mp h
  obtain ⟨_, -, h⟩ := bind_eq_ok.mp h
  obtain ⟨_, -, h⟩ := bind_eq_ok.mp h
  cases h
  refine .mapExchanges (fun e => ?_) d
  unfold mapRefVolume
  split <;> rfl

theorem local_marketVolumes {T : Topology} {kind : DsType} (hk : kind ≠ .marketGroup) : Local c J (updateMarketProductionVolumes T kind) := by
  intro X X' hX h
  unfold updateMarketProductionVolumes at h ⊢
  rw [if_neg hk] at h ⊢
  refine local_mapE (fun d d' h => ?_) X X' hX h
  split at h
  · exact keep_volume h
  · cases h; exact .refl d

theorem input_side {b : Bool} {amount total : ℚ} {s : Exchange} (hs : c.name s.name = b) {l : List Exchange} (h : marketInput amount total s = .ok l) : ∀ e ∈ l, OkE c b e := by
  unfold marketInput at h
  obtain ⟨_, -, h⟩ := bind_eq_ok.mp h
  simp only at h
  split at h
  · cases h; intro e he; cases he
  · obtain ⟨_, -, h⟩ := bind_eq_ok.mp h
    obtain ⟨_, -, h⟩ := bind_eq_ok.mp h
    cases h
    intro e he
    rw [List.mem_singleton] at he
    subst he
    exact ⟨.inr hs, fun k hk => by cases hk⟩

theorem inputs_side {b : Bool} {amount total : ℚ} {sup new : List Exchange} (hs : ∀ s ∈ sup, c.name s.name = b) (h : flatMapE (marketInput amount total) sup = .ok new) : ∀ e ∈ new, OkE c b e := by
  intro e he
  obtain ⟨s, hs', l, hl, he⟩ := flatMapE_mem h he
  exact input_side (hs s hs') hl e he

theorem Whole.addEx {b : Bool} {d : Dataset} (h : Whole c J b d) {new : List Exchange} (hn : ∀ e ∈ new, OkE c b e) : Whole c J b { d with exchanges := d.exchanges ++ new } :=
  ⟨h.name, h.id, fun e he => (List.mem_append.mp he).elim (h.exs e) (hn e), h.ref, h.sup, h.code⟩

theorem keep_allocate {d d' : Dataset} (h : allocateSuppliers d = .ok d') : Keep c J d d' := by
  intro b hd
  unfold allocateSuppliers at h
  obtain ⟨exc, -, h⟩ := bind_eq_ok.mp h
  obtain ⟨sup, hsup, h⟩ := bind_eq_ok.mp h
  obtain ⟨vols, -, h⟩ := bind_eq_ok.mp h
  have hs := sup_of hd (getKey_eq_ok.mp hsup)
  simp only at h
  split at h
  · split at h
    · cases h; exact hd
    · obtain ⟨_, -, h⟩ := bind_eq_ok.mp h
      obtain ⟨_, -, h⟩ := bind_eq_ok.mp h
      obtain ⟨new, hnew, h⟩ := bind_eq_ok.mp h
      cases h
      have hd' : ∀ e ∈ sup.map defaultVolume, c.name e.name = b ∧ ∀ j, J = some j → ∀ k, e.code = some k → j k = b := by
        intro e he
        obtain ⟨e0, h0, rfl⟩ := List.mem_map.mp he
        exact hs e0 h0
      exact Whole.addEx (Whole.setSup rfl hd (l := some (sup.map defaultVolume)) (fun l' hl' => by cases hl'; exact hd')) (inputs_side (fun s h => (hd' s h).1) hnew)
  · obtain ⟨new, hnew, h⟩ := bind_eq_ok.mp h
    cases h
    exact hd.addEx (inputs_side (fun s h => (hs s h).1) hnew)

theorem local_allocate (kind : DsType) : Local c J (allocateAllMarketSuppliers kind) := by
  refine local_mapE (fun d d' h => ?_)
  split at h
  · exact keep_allocate h
  · cases h; exact .refl d

theorem local_deleteSuppliers : Local c J (fun X => .ok (deleteSuppliersList X)) := by
  refine local_map (fun d b hd => ?_)
  exact Whole.setSup rfl hd (fun l' hl' => by cases hl')

end Parts
end Ocelot
