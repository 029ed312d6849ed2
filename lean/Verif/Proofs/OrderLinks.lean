import Verif.Proofs.OrderTopology

/-! The functions that run after `add_unique_codes`, on the same datasets in another order. -/

namespace Ocelot

namespace Spec

/-- Same kind, product and location; for activities, also the same name. -/
def SamePlace (d d' : Dataset) : Prop :=
  d.type = d'.type ∧ d.refProduct = d'.refProduct ∧ d.location = d'.location ∧ (d.type = .transforming → d.name = d'.name)

instance (d d' : Dataset) : Decidable (SamePlace d d') := by unfold SamePlace; infer_instance

end Spec

open Spec

/-! ## States of two runs -/

/-- One step from one state to another: the datasets in another order, or suppliers and linked inputs in another order. -/
def Link (a b : List Dataset) : Prop := a.Perm b ∨ ShufD a b

/-- The states of two runs. -/
abbrev Chain : List Dataset → List Dataset → Prop := Relation.ReflTransGen Link

/-- Datasets in different places have different codes. -/
def Apart (s : List Dataset) : Prop := ∀ d ∈ s, ∀ d' ∈ s, SamePlace d d' → d.code = d'.code

/-- What holds after codes are given. -/
structure Base (K : Known) (s : List Dataset) : Prop where
  good : GoodAll K s
  gas : GasOk K s
  apart : Apart s
  self : ShufD s s

/-- A function whose results on linked states are linked. -/
structure OrderFree (I J : List Dataset → Prop) (f : List Dataset → Except Err (List Dataset)) : Prop where
  perm : ∀ a b r, a.Perm b → I a → f a = .ok r → ∃ r', f b = .ok r' ∧ Chain r r'
  next : ∀ a r, I a → f a = .ok r → J r
  keep : Keeping f f

/-- A property of states that linked states share. -/
def Stable (I : List Dataset → Prop) : Prop := ∀ a b, Link a b → I a → I b

theorem Stable.and {I J : List Dataset → Prop} (h : Stable I) (h' : Stable J) : Stable fun s => I s ∧ J s :=
  fun a b hab hi => ⟨h a b hab hi.1, h' a b hab hi.2⟩

theorem OrderFree.chain {I J : List Dataset → Prop} {f : List Dataset → Except Err (List Dataset)} (hf : OrderFree I J f) (hI : Stable I) {a b : List Dataset} (h : Chain a b) :
    I a → ∀ r, f a = .ok r → ∃ r', f b = .ok r' ∧ Chain r r' := by
  induction h using Relation.ReflTransGen.head_induction_on with
  | refl => exact fun _ r hr => ⟨r, hr, .refl⟩
  | head hac _ ih =>
    intro hi r hr
    rename_i a c _
    obtain ⟨r1, h1, h2⟩ : ∃ r1, f c = .ok r1 ∧ Chain r r1 := by
      rcases hac with hac | hac
      · exact hf.perm a c r hac hi hr
      · obtain ⟨r1, h1, h2⟩ := hf.keep a c r hac hr
        exact ⟨r1, h1, .single (Or.inr h2)⟩
    obtain ⟨r2, h3, h4⟩ := ih (hI a c hac hi) r1 h1
    exact ⟨r2, h3, h2.trans h4⟩

theorem stable_true : Stable fun _ => True := fun _ _ _ _ => trivial

theorem Shuffled.right {d d' : Dataset} (h : Shuffled d d') : Shuffled d' d' := by
  refine ⟨rfl, .refl _, ?_, h.codes', by rw [h.codeEq]; exact h.code⟩
  cases d'.suppliers with
  | none => exact .none
  | some l => exact .some (.refl l)

theorem GoodD.shuffled {K : Known} {d d' : Dataset} (hd : GoodD K d) (h : Shuffled d d') : GoodD K d' := by
  have hp := h.exchanges.perm
  simp only [List.map_id] at hp
  refine ⟨by rw [h.codeEq, h.refProduct]; exact hd.code, ?_, ?_, ?_⟩
  · have : refs d' = refs d := h.refs
    rw [this, h.refProduct]
    exact hd.ref
  · exact fun e he => hd.exc e (hp.mem_iff.mpr he)
  · rw [h.refProduct]
    intro l hl s hs
    have hsup := h.suppliers
    rw [hl] at hsup
    cases hds : d.suppliers with
    | none => rw [hds] at hsup; cases hsup
    | some m =>
      rw [hds] at hsup
      cases hsup with
      | some hpm => exact hd.sup m hds s (hpm.mem_iff.mpr hs)

theorem stable_apart : Stable Apart := by
  rintro a b (h | h) ha
  · exact fun d hd d' hd' => ha d (h.mem_iff.mpr hd) d' (h.mem_iff.mpr hd')
  · intro d hd d' hd' hs
    obtain ⟨x, hx, hxd⟩ := forall₂_mem_right h.each hd
    obtain ⟨x', hx', hxd'⟩ := forall₂_mem_right h.each hd'
    rw [hxd.codeEq, hxd'.codeEq]
    refine ha x hx x' hx' ?_
    unfold SamePlace at hs ⊢
    rw [hxd.type, hxd'.type, hxd.refProduct, hxd'.refProduct, hxd.location, hxd'.location, hxd.name, hxd'.name] at hs
    exact hs

theorem stable_base {K : Known} (hK : K.loose = false) : Stable (Base K) := by
  rintro a b h ⟨h1, h2, h3, h4⟩
  refine ⟨?_, ?_, stable_apart a b h h3, ?_⟩
  · rcases h with h | h
    · exact fun d hd => h1 d (h.mem_iff.mpr hd)
    · intro d hd
      obtain ⟨x, hx, hxd⟩ := forall₂_mem_right h.each hd
      exact (h1 x hx).shuffled hxd
  · rcases h2 with ⟨d, hd, hs, hl⟩ | h2 | ⟨h2, -⟩
    · left
      rcases h with h | h
      · exact ⟨d, h.mem_iff.mp hd, hs, hl⟩
      · obtain ⟨x, hx, hxd⟩ := forall₂_mem_left h.each hd
        refine ⟨x, hx, ?_, by rw [hxd.location]; exact hl⟩
        unfold Sells
        rw [hxd.type, hxd.refProduct]
        exact hs
    · right
      left
      rcases h with h | h
      · exact fun d hd => h2 d (h.mem_iff.mpr hd)
      · intro d hd e he
        obtain ⟨x, hx, hxd⟩ := forall₂_mem_right h.each hd
        have hp := hxd.exchanges.perm
        simp only [List.map_id] at hp
        exact h2 x hx e (hp.mem_iff.mpr he)
    · rw [hK] at h2; cases h2
  · rcases h with h | h
    · exact ⟨List.forall₂_same.mpr fun d hd => List.forall₂_same.mp h4.each d (h.mem_iff.mpr hd), (h.map _).nodup_iff.mp h4.nodup⟩
    · refine ⟨List.forall₂_same.mpr fun d hd => ?_, h.nodup'⟩
      obtain ⟨x, hx, hxd⟩ := forall₂_mem_right h.each hd
      exact hxd.right

theorem Base.nodup {K : Known} {s : List Dataset} (h : Base K s) : s.Nodup := .of_map _ h.self.nodup

theorem Base.eq {K : Known} {s : List Dataset} (h : Base K s) {d d' : Dataset} (hd : d ∈ s) (hd' : d' ∈ s) (hs : SamePlace d d') : d = d' :=
  code_inj h.self.nodup hd hd' (h.apart d hd d' hd' hs)

theorem keeping_self {f : List Dataset → Except Err (List Dataset)} (hf : Keeping f f) {a r : List Dataset} (ha : ShufD a a) (hr : f a = .ok r) : ShufD r r := by
  obtain ⟨r', h1, h2⟩ := hf a a r ha hr
  rw [hr] at h1
  cases h1
  exact h2

theorem apart_next {a r : List Dataset} (ha : Apart a)
    (h : ∀ d' ∈ r, ∃ d ∈ a, d'.code = d.code ∧ d'.type = d.type ∧ d'.name = d.name ∧ d'.location = d.location ∧ d'.refProduct = d.refProduct) : Apart r := by
  intro x hx y hy hs
  obtain ⟨d, hd, h1, h2, h3, h4, h5⟩ := h x hx
  obtain ⟨d', hd', k1, k2, k3, k4, k5⟩ := h y hy
  rw [h1, k1]
  refine ha d hd d' hd' ?_
  unfold SamePlace at hs ⊢
  rw [h2, h3, h4, h5, k2, k3, k4, k5] at hs
  exact hs

/-- Functions that only link keep the state good. -/
theorem base_flow {K : Known} (hr : K.rc = true) (hK : ∀ x ∈ K.pairs, x.1 ≠ "") {b : Bool} {f : List Dataset → Except Err (List Dataset)} (hf : Flow b f) (hk : Keeping f f) (a r : List Dataset) (ha : Base K a)
    (h : f a = .ok r) : Base K r := by
  obtain ⟨h1, h2, -⟩ := hf K (fun _ => hr) hK a r h ha.good ha.gas
  refine ⟨h1, hf.gas (fun _ => hr) hK h ha.good ha.gas, apart_next ha.apart fun d' hd' => ?_, keeping_self hk ha.self h⟩
  obtain ⟨d, hd, hs⟩ := h2 d' hd'
  exact ⟨d, hd, hs.code, hs.type, hs.name, hs.location, hs.product⟩

/-! ## Functions that treat datasets one by one -/

theorem chain_mapE {f : Dataset → Except Err Dataset} (a b r : List Dataset) (hp : a.Perm b) (h : mapE f a = .ok r) : ∃ r', mapE f b = .ok r' ∧ Chain r r' := by
  obtain ⟨r', h1, h2⟩ := mapE_perm hp h
  exact ⟨r', h1, .single (Or.inl h2)⟩

theorem linkToOnly_perm {l l' : List Dataset} (hp : l.Perm l') (e : Exchange) : linkToOnly e l' = linkToOnly e l := by
  rcases l with _ | ⟨x, _ | ⟨y, l⟩⟩
  · rw [List.nil_perm.mp hp]
  · rw [List.singleton_perm.mp hp]
  · have hl := hp.length_eq
    rcases l' with _ | ⟨x', _ | ⟨y', l'⟩⟩
    · simp at hl
    · simp at hl
    · rfl

theorem actualizeLink_perm {a b : List Dataset} (hp : a.Perm b) {e e' : Exchange} (h : actualizeLink a e = .ok e') : actualizeLink b e = .ok e' := by
  unfold actualizeLink at h ⊢
  split at h
  · next h1 => rw [if_pos h1]; exact h
  · next h1 =>
    rw [if_neg h1]
    simp only at h ⊢
    have hf := hp.filter fun ds => decide (some ds.id = e.activityLink)
    split at h
    · cases h
    · next h2 =>
      rw [if_neg (fun h0 => h2 (by rw [h0] at hf; exact List.perm_nil.mp hf))]
      obtain ⟨r, h3, h4⟩ := bind_eq_ok.mp h
      obtain ⟨r', h5, h6⟩ := filterE_perm hf h3
      rw [h5, ebind_ok, linkToOnly_perm h6]
      exact h4

theorem mapExchangesE_weaken {f g : Exchange → Except Err Exchange} (hfg : ∀ e e', f e = .ok e' → g e = .ok e') {d d' : Dataset} (h : mapExchangesE f d = .ok d') :
    mapExchangesE g d = .ok d' := by
  obtain ⟨ex, h1, h2⟩ := bind_eq_ok.mp h
  exact bind_eq_ok.mpr ⟨ex, mapE_ok_weaken h1 fun a _ b hb => hfg a b hb, h2⟩

theorem perm_actualize (a b r : List Dataset) (hp : a.Perm b) (h : actualizeActivityLinks a = .ok r) : ∃ r', actualizeActivityLinks b = .ok r' ∧ Chain r r' :=
  chain_mapE a b r hp (mapE_ok_weaken h fun _ _ _ hd => mapExchangesE_weaken (fun _ _ he => actualizeLink_perm hp he) hd)

theorem perm_linkRecycled (a b r : List Dataset) (hp : a.Perm b) (h : linkRecycledContent a = .ok r) : ∃ r', linkRecycledContent b = .ok r' ∧ Chain r r' := by
  unfold linkRecycledContent at h ⊢
  obtain ⟨rc, h1, h2⟩ := bind_eq_ok.mp h
  obtain ⟨rc', h3, h4⟩ := filterE_perm hp h1
  rw [h3, ebind_ok]
  refine chain_mapE a b r hp (mapE_ok_weaken h2 fun _ _ _ hd => mapExchangesE_weaken (fun e e' he => ?_) hd)
  unfold linkRecycledInput at he ⊢
  rw [linkToOnly_perm (h4.filter _)]
  exact he

/-! ## Suppliers of markets -/

/-- What two runs prepare for the consumers of one product. -/
def ApportionPerm : Option Apportion → Option Apportion → Prop :=
  Option.Rel fun x y => x.isConsumer = y.isConsumer ∧ x.row = y.row ∧ x.suppliers.Perm y.suppliers ∧ LocatedByName x.suppliers

theorem apportionPrep_perm {T : Topology} {p : Dataset → Bool} {c c' s s' : List Dataset} (hc : c.Perm c') (hs : s.Perm s') (hn : LocatedByName s) {t : Option Apportion}
    (h : apportionPrep T p c s = .ok t) : ∃ t', apportionPrep T p c' s' = .ok t' ∧ ApportionPerm t t' := by
  unfold apportionPrep at h ⊢
  obtain ⟨u, h1, h2⟩ := bind_eq_ok.mp h
  obtain ⟨row, h3, h4⟩ := bind_eq_ok.mp h2
  cases h4
  rw [noGeoDuplicates_perm hc, h1, ebind_ok, resolveRow_perm (hc.map _) h3, ebind_ok]
  exact ⟨_, rfl, .some ⟨rfl, rfl, hs, hn⟩⟩

theorem apportionUpd_product {T : Topology} {σ : Dataset → String → List String → List String} {t : Option Apportion} {ds ds' : Dataset}
    (hu : apportionUpd T σ t ds = .ok ds') : ds' = { ds with suppliers := ds'.suppliers } := by
  unfold apportionUpd at hu
  rcases t with _ | a
  · cases hu; rfl
  · simp only at hu
    split at hu
    · unfold supplyConsumer at hu
      obtain ⟨new, -, hu⟩ := bind_eq_ok.mp hu
      cases hu
      rfl
    · cases hu; rfl

theorem perm_groups {T : Topology} {σ : Dataset → String → List String → List String} {p : Dataset → Bool} (hpt : ∀ d s, p { d with suppliers := s } = p d)
    {prep prep' : String → List Dataset → Except Err (Option Apportion)} {a b r : List Dataset} (hp : a.Perm b) 
    (hprep : ∀ k t, prep k (a.filter fun d => decide (productIf p d = some k)) = .ok t →
      ∃ t', prep' k (b.filter fun d => decide (productIf p d = some k)) = .ok t' ∧ ApportionPerm t t')
    (hself : ShufD r r)
    (h : foldE (groupStep (productIf p) prep (apportionUpd T σ)) a (groupKeys (productIf p) a) = .ok r) :
    ∃ r', foldE (groupStep (productIf p) prep' (apportionUpd T σ)) b (groupKeys (productIf p) b) = .ok r' ∧ Chain r r' := by
  have hkey : ∀ t ds ds', apportionUpd T σ t ds = .ok ds' → productIf p ds' = productIf p ds := by
    intro t ds ds' hu
    rw [apportionUpd_product hu]
    unfold productIf
    rw [hpt]
  rw [groupLoop_iff hkey] at h
  simp only [groupLoop_iff hkey]
  obtain ⟨r1, h1, h2⟩ := mapE_perm hp h
  have hself1 : ShufD r1 r1 := ⟨List.forall₂_same.mpr fun d hd => List.forall₂_same.mp hself.each d (h2.mem_iff.mpr hd), (h2.map _).nodup_iff.mp hself.nodup⟩
  obtain ⟨r2, h3, h4⟩ := mapE_rel (f' := groupTurn (productIf p) prep' (apportionUpd T σ) b) (Q := fun x y => x = y)
    (R := fun d d' => ∃ s', d' = { d with suppliers := s' } ∧ ShufS d.suppliers s') (List.forall₂_same.mpr fun _ _ => rfl) h1 (by
    rintro d _ hd - rfl e he
    have hrefl : ShufS d.suppliers d.suppliers := by
      cases d.suppliers with
      | none => exact .none
      | some l => exact .some (.refl l)
    unfold groupTurn at he ⊢
    cases hk : productIf p d with
    | none => rw [hk] at he; cases he; exact ⟨d, rfl, d.suppliers, rfl, hrefl⟩
    | some k =>
      rw [hk] at he
      obtain ⟨t, h5, h6⟩ := bind_eq_ok.mp he
      obtain ⟨t', h7, h8⟩ := hprep k t h5
      simp only
      rw [h7, ebind_ok]
      unfold apportionUpd at h6 ⊢
      cases h8 with
      | none => cases h6; exact ⟨d, rfl, d.suppliers, rfl, hrefl⟩
      | @some x y hxy =>
        simp only at h6 ⊢
        rw [← hxy.1, ← hxy.2.1]
        split at h6
        · next hc =>
          rw [if_pos hc]
          obtain ⟨e', new, new', g1, g2, rfl, rfl⟩ := supplyConsumer_perm hxy.2.2.1 hxy.2.2.2 h6
          exact ⟨_, g1, _, rfl, .some (g2.append_left _)⟩
        · next hc => rw [if_neg hc]; cases h6; exact ⟨d, rfl, d.suppliers, rfl, hrefl⟩)
  refine ⟨r2, h3, .trans (.single (Or.inl h2)) (.single (Or.inr ⟨?_, hself1.nodup⟩))⟩
  refine (forall₂_with_mem h4).imp ?_
  rintro d d' ⟨hd, s', rfl, hs⟩
  have := List.forall₂_same.mp hself1.each d hd
  exact ⟨rfl, .refl _, hs, this.codes, this.code⟩

theorem locatedByName_of {K : Known} {s l : List Dataset} (hb : Base K s) (hl : l.Nodup) (hm : ∀ d ∈ l, d ∈ s ∧ d.type = .transforming)
    (hr : ∀ d ∈ l, ∀ d' ∈ l, d.refProduct = d'.refProduct) : LocatedByName l := by
  intro n
  refine (hl.filter _).map_on ?_
  intro d hd d' hd' hloc
  obtain ⟨hd, hdn⟩ := List.mem_filter.mp hd
  obtain ⟨hd', hdn'⟩ := List.mem_filter.mp hd'
  refine hb.eq (hm d hd).1 (hm d' hd').1 ⟨(hm d hd).2.trans (hm d' hd').2.symm, hr d hd d' hd', hloc, fun _ => ?_⟩
  rw [of_decide_eq_true hdn, of_decide_eq_true hdn']

theorem filterE_sublist {α : Type} {p : α → Except Err Bool} {l r : List α} (h : filterE p l = .ok r) : r.Sublist l := by
  induction l generalizing r with
  | nil => cases h; exact .refl _
  | cons a l ih =>
    obtain ⟨b, r1, -, h2, rfl⟩ := filterE_cons_ok.mp h
    cases b
    · exact (ih h2).cons a
    · exact (ih h2).cons_cons a

theorem perm_addRecycled {K : Known} {T : Topology} {σ : Dataset → String → List String → List String} (hσ : Permutes σ) (a b r : List Dataset) (hp : a.Perm b)
    (ha : Base K a) (h : addRecycledContentSuppliers T σ a = .ok r) : ∃ r', addRecycledContentSuppliers T σ b = .ok r' ∧ Chain r r' := by
  have hself := keeping_self (keeping_recycledSuppliers hσ hσ) ha.self h
  unfold addRecycledContentSuppliers at h ⊢
  simp only at h ⊢
  obtain ⟨m, h1, h2⟩ := bind_eq_ok.mp h
  obtain ⟨rc, h3, h4⟩ := bind_eq_ok.mp h2
  obtain ⟨m', h1', -⟩ := mapE_perm (hp.filter _) h1
  obtain ⟨rc', h3', hrc⟩ := filterE_perm hp h3
  rw [h1', ebind_ok, show recycledContentDatasets b = .ok rc' from h3', ebind_ok]
  refine perm_groups (fun _ _ => rfl) hp ?_ hself h4
  intro k t ht
  unfold recycledPrep at ht ⊢
  simp only at ht ⊢
  have hg := hp.filter fun d => decide (productIf (fun ds : Dataset => ds.type == .market) d = some k)
  have hs := hrc.filter fun ds => ds.refProduct == some (k ++ rcString)
  obtain ⟨o, h5, h6⟩ := bind_eq_ok.mp ht
  rw [noOverlaps_perm hg h5, ebind_ok]
  split at h6
  · next hn =>
    cases h6
    rw [hn] at hs
    rw [if_pos (List.nil_perm.mp hs)]
    exact ⟨none, rfl, .none⟩
  · next hn =>
    rw [if_neg (fun h0 => hn (by rw [h0] at hs; exact List.perm_nil.mp hs))]
    refine apportionPrep_perm hg hs (locatedByName_of ha ?_ ?_ ?_) h6
    · exact ((filterE_sublist h3).nodup ha.nodup).filter _
    · intro d hd
      obtain ⟨h7, h8⟩ := filterE_mem h3 d (List.mem_filter.mp hd).1
      refine ⟨h7, ?_⟩
      split at h8
      · next hty => exact hty
      · cases h8
    · intro d hd d' hd'
      have h7 := (List.mem_filter.mp hd).2
      have h8 := (List.mem_filter.mp hd').2
      simp only [beq_iff_eq] at h7 h8
      rw [h7, h8]

theorem perm_addSuppliers {K : Known} {T : Topology} {σ : Dataset → String → List String → List String} (hσ : Permutes σ) (a b r : List Dataset) (hp : a.Perm b)
    (ha : Base K a) (h : addSuppliersToMarkets T σ .transforming .market a = .ok r) : ∃ r', addSuppliersToMarkets T σ .transforming .market b = .ok r' ∧ Chain r r' := by
  have hself := keeping_self (keeping_suppliers hσ hσ _ _) ha.self h
  unfold addSuppliersToMarkets at h ⊢
  simp only at h ⊢
  obtain ⟨m, h1, h2⟩ := bind_eq_ok.mp h
  obtain ⟨m', h1', -⟩ := mapE_perm (hp.filter _) h1
  rw [h1', ebind_ok]
  refine perm_groups (fun _ _ => rfl) hp ?_ hself h2
  intro k t ht
  unfold addSuppliersPrep at ht ⊢
  simp only at ht ⊢
  have hg := hp.filter fun d => decide (productIf (fun ds : Dataset => ds.type == .transforming || ds.type == .market) d = some k)
  have hs := hg.filter fun ds => ds.type == .transforming
  have hc := hg.filter (wantsSuppliers .market)
  split at ht
  · next hn =>
    cases ht
    rw [hn] at hc
    rw [if_pos (List.nil_perm.mp hc)]
    exact ⟨none, rfl, .none⟩
  · next hn =>
    rw [if_neg (fun h0 => hn (by rw [h0] at hc; exact List.perm_nil.mp hc)), if_pos trivial]
    rw [if_pos trivial] at ht
    obtain ⟨o, h5, h6⟩ := bind_eq_ok.mp ht
    rw [noOverlaps_perm hc h5, ebind_ok]
    refine apportionPrep_perm hc hs (locatedByName_of ha ((ha.nodup.filter _).filter _) ?_ ?_) h6
    · intro d hd
      obtain ⟨hd, hty⟩ := List.mem_filter.mp hd
      exact ⟨(List.mem_filter.mp hd).1, by simpa using hty⟩
    · intro d hd d' hd'
      have h7 := of_decide_eq_true (List.mem_filter.mp (List.mem_filter.mp hd).1).2
      have h8 := of_decide_eq_true (List.mem_filter.mp (List.mem_filter.mp hd').1).2
      unfold productIf at h7 h8
      split at h7
      · split at h8
        · rw [h7, h8]
        · cases h8
      · cases h7

end Ocelot
