import Verif.Proofs.PipelineRun

/-! What the functions after `add_unique_codes` do with flows: amounts per type, name and compartment, and names of linked
products. -/

namespace Ocelot
open Spec

/-- A linear functional of the exchanges: weights by type, name and compartment. -/
abbrev Weight := ExcType → String → Option (String × String) → ℚ

def weigh (w : Weight) (l : List Exchange) : ℚ := (l.map fun e => w e.type e.name e.compartment * e.amount).sum

theorem weigh_append (w : Weight) (a b : List Exchange) : weigh w (a ++ b) = weigh w a + weigh w b := by
  unfold weigh; rw [List.map_append, List.sum_append]

theorem weigh_nil (w : Weight) : weigh w [] = 0 := rfl

theorem weigh_cons (w : Weight) (e : Exchange) (l : List Exchange) : weigh w (e :: l) = w e.type e.name e.compartment * e.amount + weigh w l := by
  unfold weigh; rw [List.map_cons, List.sum_cons]

/-- Same flow and amount. -/
def SameExc (e e' : Exchange) : Prop :=
  e'.type = e.type ∧ e'.name = e.name ∧ e'.compartment = e.compartment ∧ e'.amount = e.amount ∧ e'.id = e.id

theorem SameExc.refl (e : Exchange) : SameExc e e := ⟨rfl, rfl, rfl, rfl, rfl⟩

theorem SameExc.trans {a b c : Exchange} (h : SameExc a b) (h' : SameExc b c) : SameExc a c :=
  ⟨h'.1.trans h.1, h'.2.1.trans h.2.1, h'.2.2.1.trans h.2.2.1, h'.2.2.2.1.trans h.2.2.2.1, h'.2.2.2.2.trans h.2.2.2.2⟩

theorem weigh_same {l r : List Exchange} (h : List.Forall₂ SameExc l r) (w : Weight) : weigh w r = weigh w l := by
  induction h with
  | nil => rfl
  | cons hab _ ih => rw [weigh_cons, weigh_cons, ih, hab.1, hab.2.1, hab.2.2.1, hab.2.2.2.1]

/-- The reference products as names and amounts. -/
def refPairs (d : Dataset) : List (String × ℚ) := (refs d).map fun e => (e.name, e.amount)

theorem refPairs_same {d d' : Dataset} (h : List.Forall₂ SameExc d.exchanges d'.exchanges) : refPairs d' = refPairs d := by
  unfold refPairs
  have : List.Forall₂ SameExc (refs d) (refs d') := forall₂_filter_rel h fun a b hab => by rw [hab.1]
  exact (forall₂_map_eq' this fun a b hab => by rw [hab.2.1, hab.2.2.2.1]).symm

/-- The codes with the names of the products; are there suppliers of recycled content; may links of refinery gas be wrong? -/
structure Known where
  pairs : List (String × String)
  rc : Bool
  loose : Bool

/-- A link with the code `c` of an exchange called `n`. -/
def Known.Link (K : Known) (c n : String) : Prop :=
  (c, n) ∈ K.pairs ∨ K.loose = true ∧ n = "refinery gas" ∧ ∃ p, (c, p) ∈ K.pairs

theorem Known.Link.ne {K : Known} (hK : ∀ x ∈ K.pairs, x.1 ≠ "") {c n : String} (h : K.Link c n) : c ≠ "" := by
  rcases h with h | ⟨-, -, p, h⟩
  · exact hK _ h
  · exact hK _ h

/-- The ids of the inputs of refinery gas that are not linked. -/
def gasIds (d : Dataset) : List String :=
  (d.exchanges.filter fun e => decide (e.type = .fromTechnosphere ∧ e.code = none ∧ e.name = "refinery gas")).map (·.id)

/-- Supplier entries for the product `p`. -/
def GoodSup (K : Known) (p : Option String) (sup : Option (List Exchange)) : Prop :=
  ∀ l, sup = some l → ∀ s ∈ l, (∀ c, s.code = some c → (c, s.name) ∈ K.pairs) ∧ ∃ n, p = some n ∧ (s.name = n ∨ K.rc = true ∧ s.name = n ++ rcString)

/-- `K` are the codes with the names of the products. -/
structure GoodD (K : Known) (d : Dataset) : Prop where
  code : ∃ c p, d.code = some c ∧ d.refProduct = some p ∧ (c, p) ∈ K.pairs
  ref : ∃ rp, refs d = [rp] ∧ d.refProduct = some rp.name
  exc : ∀ e ∈ d.exchanges, ∀ c, e.code = some c → K.Link c e.name
  sup : GoodSup K d.refProduct d.suppliers

def GoodAll (K : Known) (data : List Dataset) : Prop := ∀ d ∈ data, GoodD K d

theorem GoodD.codeOf {K : Known} {d : Dataset} (h : GoodD K d) {c p : String} (hc : d.code = some c) (hp : d.refProduct = some p) :
    (c, p) ∈ K.pairs := by
  obtain ⟨c', p', h1, h2, h3⟩ := h.code
  rw [hc] at h1; rw [hp] at h2
  cases h1; cases h2
  exact h3

/-- Nothing but links and volumes changes. -/
structure Same (d d' : Dataset) : Prop where
  code : d'.code = d.code
  type : d'.type = d.type
  name : d'.name = d.name
  location : d'.location = d.location
  product : d'.refProduct = d.refProduct
  refs : refPairs d' = refPairs d
  unlinked : ∀ e' ∈ d'.exchanges, e'.type = .fromTechnosphere → e'.code = none →
    ∃ e ∈ d.exchanges, e.type = .fromTechnosphere ∧ e.code = none ∧ e.name = e'.name
  old : ∀ e' ∈ d'.exchanges, ∃ e ∈ d.exchanges, e.type = e'.type ∧ e.name = e'.name
  gas : (gasIds d').Sublist (gasIds d)
  weigh : ∀ w, weigh w d'.exchanges = weigh w d.exchanges

theorem Same.refl (d : Dataset) : Same d d :=
  ⟨rfl, rfl, rfl, rfl, rfl, rfl, fun e he h1 h2 => ⟨e, he, h1, h2, rfl⟩, fun e he => ⟨e, he, rfl, rfl⟩, .refl _, fun _ => rfl⟩

theorem Same.trans {a b c : Dataset} (h : Same a b) (h' : Same b c) : Same a c :=
  ⟨h'.code.trans h.code, h'.type.trans h.type, h'.name.trans h.name, h'.location.trans h.location, h'.product.trans h.product,
    h'.refs.trans h.refs, fun e he h1 h2 => by
      obtain ⟨x, hx, g1, g2, g3⟩ := h'.unlinked e he h1 h2
      obtain ⟨y, hy, k1, k2, k3⟩ := h.unlinked x hx g1 g2
      exact ⟨y, hy, k1, k2, k3.trans g3⟩, fun e he => by
      obtain ⟨x, hx, g1, g2⟩ := h'.old e he
      obtain ⟨y, hy, k1, k2⟩ := h.old x hx
      exact ⟨y, hy, k1.trans g1, k2.trans g2⟩, h'.gas.trans h.gas, fun w => (h'.weigh w).trans (h.weigh w)⟩

/-- No input of refinery gas needs a market, or there is one outside the rest of the world, or these inputs have different ids. -/
def GasOk (K : Known) (data : List Dataset) : Prop :=
  (∃ d ∈ data, Sells "refinery gas" d ∧ d.location ≠ "RoW") ∨
    (∀ d ∈ data, ∀ e ∈ d.exchanges, e.type = .fromTechnosphere → e.code = none → e.name ≠ "refinery gas") ∨
    K.loose = true ∧ ∀ d ∈ data, (gasIds d).Nodup

/-- The function only links, and links to the right products. -/
def Flow (b : Bool) (f : List Dataset → Except Err (List Dataset)) : Prop :=
  ∀ K : Known, (b = true → K.rc = true) → (∀ x ∈ K.pairs, x.1 ≠ "") → ∀ data out, f data = .ok out → GoodAll K data → GasOk K data →
    GoodAll K out ∧ (∀ d' ∈ out, ∃ d ∈ data, Same d d') ∧ ∀ d ∈ data, d.location ≠ "RoW" → ∃ d' ∈ out, Same d d'

theorem GasOk.next {K : Known} {data out : List Dataset} (h : GasOk K data)
    (hb : ∀ d' ∈ out, ∃ d ∈ data, (gasIds d').Sublist (gasIds d) ∧ ∀ e' ∈ d'.exchanges, e'.type = .fromTechnosphere → e'.code = none →
      ∃ e ∈ d.exchanges, e.type = .fromTechnosphere ∧ e.code = none ∧ e.name = e'.name)
    (hf : ∀ d ∈ data, d.location ≠ "RoW" → ∃ d' ∈ out, d'.type = d.type ∧ d'.refProduct = d.refProduct ∧ d'.location = d.location) : GasOk K out := by
  rcases h with ⟨d, hd, hs, hl⟩ | h | ⟨hK, h⟩
  · obtain ⟨d', hd', h1, h2, h3⟩ := hf d hd hl
    refine Or.inl ⟨d', hd', ?_, h3 ▸ hl⟩
    unfold Sells
    rw [h1, h2]
    exact hs
  · right
    left
    intro d' hd' e' he' ht hc
    obtain ⟨d, hd, -, hu⟩ := hb d' hd'
    obtain ⟨e, he, g1, g2, g3⟩ := hu e' he' ht hc
    rw [← g3]
    exact h d hd e he g1 g2
  · refine Or.inr (Or.inr ⟨hK, fun d' hd' => ?_⟩)
    obtain ⟨d, hd, hu, -⟩ := hb d' hd'
    exact hu.nodup (h d hd)

theorem Flow.gas {b : Bool} {f : List Dataset → Except Err (List Dataset)} (hf : Flow b f) {K : Known} (hb : b = true → K.rc = true) (hK : ∀ x ∈ K.pairs, x.1 ≠ "")
    {data out : List Dataset} (h : f data = .ok out) (hg : GoodAll K data) (hgas : GasOk K data) : GasOk K out := by
  obtain ⟨-, h2, h3⟩ := hf K hb hK data out h hg hgas
  refine hgas.next (fun d' hd' => ?_) (fun d hd hl => ?_)
  · obtain ⟨d, hd, hs⟩ := h2 d' hd'
    exact ⟨d, hd, hs.gas, hs.unlinked⟩
  · obtain ⟨d', hd', hs⟩ := h3 d hd hl
    exact ⟨d', hd', hs.type, hs.product, hs.location⟩

/-- One dataset: exchanges may get codes and volumes. -/
def Relink (K : Known) (d d' : Dataset) : Prop :=
  d' = { d with exchanges := d'.exchanges, suppliers := d'.suppliers } ∧
    List.Forall₂ (fun e e' => SameExc e e' ∧ (e'.code = e.code ∨ ∃ c, e'.code = some c ∧ (c, e.name) ∈ K.pairs)) d.exchanges d'.exchanges ∧
    (GoodSup K d.refProduct d.suppliers → GoodSup K d.refProduct d'.suppliers)

theorem Relink.refl (K : Known) (d : Dataset) : Relink K d d :=
  ⟨rfl, List.forall₂_same.mpr fun e _ => ⟨.refl e, Or.inl rfl⟩, id⟩

theorem Relink.product {K : Known} {d d' : Dataset} (h : Relink K d d') : d'.refProduct = d.refProduct := by rw [h.1]

theorem Relink.trans {K : Known} {a b c : Dataset} (h : Relink K a b) (h' : Relink K b c) : Relink K a c := by
  refine ⟨by rw [h'.1, h.1], forall₂_trans' h.2.1 h'.2.1 ?_, fun hs => ?_⟩
  · rintro x y z ⟨h1, h2⟩ ⟨h3, h4⟩
    refine ⟨h1.trans h3, ?_⟩
    rcases h4 with h4 | ⟨c, hc, hk⟩
    · rw [h4]; exact h2
    · exact Or.inr ⟨c, hc, h1.2.1 ▸ hk⟩
  · have := h'.2.2
    rw [h.product] at this
    exact this (h.2.2 hs)

theorem Relink.good {K : Known} {d d' : Dataset} (h : Relink K d d') (hd : GoodD K d) : GoodD K d' ∧ Same d d' := by
  obtain ⟨h1, h2, h3⟩ := h
  have hs : List.Forall₂ SameExc d.exchanges d'.exchanges := h2.imp fun _ _ h => h.1
  have hp : d'.refProduct = d.refProduct := by rw [h1]
  have hr := refPairs_same hs
  refine ⟨⟨?_, ?_, ?_, ?_⟩, ⟨by rw [h1], by rw [h1], by rw [h1], by rw [h1], hp, hr, ?_, ?_, ?_, weigh_same hs⟩⟩
  · rw [h1]; exact hd.code
  · obtain ⟨rp, h4, h5⟩ := hd.ref
    unfold refPairs at hr
    rw [h4] at hr
    obtain ⟨x, hx, hxe⟩ := List.map_eq_singleton_iff.mp hr
    refine ⟨x, hx, ?_⟩
    have hn : x.name = rp.name := (Prod.ext_iff.mp hxe).1
    rw [hp, h5, hn]
  · intro e' he' c hc
    obtain ⟨e, he, h4, h5⟩ := forall₂_mem_right h2 he'
    rw [h4.2.1]
    rcases h5 with h5 | ⟨c', hc', hk⟩
    · exact hd.exc e he c (h5 ▸ hc)
    · rw [hc] at hc'; cases hc'; exact Or.inl hk
  · rw [hp]; exact h3 hd.sup
  · intro e' he' ht hc
    obtain ⟨e, he, h4, h5⟩ := forall₂_mem_right h2 he'
    rcases h5 with h5 | ⟨c', hc', -⟩
    · exact ⟨e, he, h4.1 ▸ ht, h5 ▸ hc, h4.2.1.symm⟩
    · rw [hc] at hc'; cases hc'
  · intro e' he'
    obtain ⟨e, he, h4, -⟩ := forall₂_mem_right h2 he'
    exact ⟨e, he, h4.1.symm, h4.2.1.symm⟩
  · unfold gasIds
    clear hs h1 hr hp h3 hd
    generalize d.exchanges = l at h2
    generalize d'.exchanges = l' at h2
    induction h2 with
    | nil => exact .slnil
    | @cons e e' l l' hab _ ih =>
      by_cases hq : e'.type = .fromTechnosphere ∧ e'.code = none ∧ e'.name = "refinery gas"
      · have hc : e.code = none := by
          rcases hab.2 with h | ⟨c, hc, -⟩
          · rw [← h]; exact hq.2.1
          · rw [hq.2.1] at hc; cases hc
        have hq' : e.type = .fromTechnosphere ∧ e.code = none ∧ e.name = "refinery gas" :=
          ⟨by rw [← hab.1.1]; exact hq.1, hc, by rw [← hab.1.2.1]; exact hq.2.2⟩
        rw [List.filter_cons_of_pos (by simpa using hq), List.filter_cons_of_pos (by simpa using hq'), List.map_cons, List.map_cons, hab.1.2.2.2.2]
        exact ih.cons_cons _
      · rw [List.filter_cons_of_neg (by simpa using hq)]
        refine ih.trans ?_
        rw [List.filter_cons]
        split
        · exact List.sublist_cons_self _ _
        · exact .refl _

theorem flow_of_relink {b : Bool} {f : List Dataset → Except Err (List Dataset)}
    (h : ∀ K : Known, (b = true → K.rc = true) → ∀ data out, f data = .ok out → GoodAll K data → List.Forall₂ (Relink K) data out) : Flow b f := by
  intro K hb _ data out ho hg _
  have hF := h K hb data out ho hg
  refine ⟨?_, ?_, ?_⟩
  · intro d' hd'
    obtain ⟨d, hd, hr⟩ := forall₂_mem_right hF hd'
    exact (hr.good (hg d hd)).1
  · intro d' hd'
    obtain ⟨d, hd, hr⟩ := forall₂_mem_right hF hd'
    exact ⟨d, hd, (hr.good (hg d hd)).2⟩
  · intro d hd _
    obtain ⟨d', hd', hr⟩ := forall₂_mem_left hF hd
    exact ⟨d', hd', (hr.good (hg d hd)).2⟩

/-! ## Links to single datasets -/

theorem linkToOnly_relink {K : Known} {e e' : Exchange} {l : List Dataset} (h : linkToOnly e l = .ok e')
    (hl : ∀ d ∈ l, ∀ c, d.code = some c → (c, e.name) ∈ K.pairs) :
    SameExc e e' ∧ (e'.code = e.code ∨ ∃ c, e'.code = some c ∧ (c, e.name) ∈ K.pairs) := by
  unfold linkToOnly at h
  split at h
  · obtain ⟨c, hc, h⟩ := bind_eq_ok.mp h
    cases h
    exact ⟨.refl e, Or.inr ⟨c, rfl, hl _ (by simp) c (getKey_eq_ok.mp hc)⟩⟩
  · cases h; exact ⟨.refl e, Or.inl rfl⟩

theorem mapExchangesE_relink {K : Known} {f : Exchange → Except Err Exchange} {d d' : Dataset} (h : mapExchangesE f d = .ok d')
    (hf : ∀ e e', f e = .ok e' → SameExc e e' ∧ (e'.code = e.code ∨ ∃ c, e'.code = some c ∧ (c, e.name) ∈ K.pairs)) : Relink K d d' := by
  unfold mapExchangesE at h
  obtain ⟨ex, hex, h⟩ := bind_eq_ok.mp h
  cases h
  exact ⟨rfl, (mapE_ok_iff.mp hex).imp fun e e' he => hf e e' he, id⟩

theorem filterE_mem {α : Type} {p : α → Except Err Bool} {l r : List α} (h : filterE p l = .ok r) : ∀ a ∈ r, a ∈ l ∧ p a = .ok true := by
  induction l generalizing r with
  | nil => cases h; simp
  | cons a l ih =>
    obtain ⟨b, r', hb, hr, rfl⟩ := filterE_cons_ok.mp h
    intro x hx
    cases b
    · exact ⟨List.mem_cons_of_mem _ (ih hr x hx).1, (ih hr x hx).2⟩
    · rcases List.mem_cons.mp hx with rfl | hx
      · exact ⟨by simp, hb⟩
      · exact ⟨List.mem_cons_of_mem _ (ih hr x hx).1, (ih hr x hx).2⟩

theorem flow_actualize : Flow false actualizeActivityLinks := by
  refine flow_of_relink fun K hb data out h hg => (mapE_ok_iff.mp h).imp fun d d' hd => mapExchangesE_relink hd ?_
  intro e e' he
  unfold actualizeLink at he
  split at he
  · cases he; exact ⟨.refl e, Or.inl rfl⟩
  · simp only at he
    split at he
    · cases he
    · obtain ⟨refs, hr, he⟩ := bind_eq_ok.mp he
      refine linkToOnly_relink he ?_
      intro x hx c hc
      obtain ⟨h1, h2⟩ := filterE_mem hr x hx
      unfold makesProduct at h2
      obtain ⟨p, hp, h2⟩ := bind_eq_ok.mp h2
      simp only [epure, Except.ok.injEq, beq_iff_eq] at h2
      subst h2
      exact (hg x (List.mem_filter.mp h1).1).codeOf hc (getKey_eq_ok.mp hp)

theorem flow_linkRecycled : Flow false linkRecycledContent := by
  refine flow_of_relink fun K hb data out h hg => ?_
  unfold linkRecycledContent at h
  obtain ⟨rc, hrc, h⟩ := bind_eq_ok.mp h
  refine (mapE_ok_iff.mp h).imp fun d d' hd => mapExchangesE_relink hd ?_
  intro e e' he
  unfold linkRecycledInput at he
  split at he
  · refine linkToOnly_relink he ?_
    intro x hx c hc
    obtain ⟨h1, h2⟩ := List.mem_filter.mp hx
    exact (hg x (filterE_subset hrc x h1)).codeOf hc (by simpa using h2)
  · cases he; exact ⟨.refl e, Or.inl rfl⟩

theorem flow_refCodes : Flow false addReferenceProductCodes := by
  refine flow_of_relink fun K hb data out h hg => ?_
  refine (forall₂_with_mem (mapE_ok_iff.mp h)).imp ?_
  rintro d d' ⟨hd, h⟩
  unfold addReferenceProductCode at h
  split at h
  · cases h
  · next c hc =>
    obtain ⟨_, -, h⟩ := bind_eq_ok.mp h
    cases h
    refine ⟨rfl, ?_, id⟩
    rw [List.forall₂_map_right_iff]
    refine List.forall₂_same.mpr ?_
    intro e he
    split
    · next ht =>
      refine ⟨.refl e, Or.inr ⟨c, rfl, ?_⟩⟩
      obtain ⟨rp, h1, h2⟩ := (hg d hd).ref
      have : e ∈ refs d := List.mem_filter.mpr ⟨he, by simp [ht]⟩
      rw [h1, List.mem_singleton] at this
      rw [this]
      exact (hg d hd).codeOf hc h2
    · exact ⟨.refl e, Or.inl rfl⟩

/-! ## Supplier lists -/

theorem supplierEntry_good {K : Known} {d : Dataset} {s : Exchange} {n : String} (h : supplierEntry d = .ok s) (hd : GoodD K d)
    (hn : d.refProduct = some n) : (∀ c, s.code = some c → (c, s.name) ∈ K.pairs) ∧ s.name = n := by
  unfold supplierEntry at h
  obtain ⟨rp, hrp, h⟩ := bind_eq_ok.mp h
  cases h
  obtain ⟨rp', h1, h2⟩ := hd.ref
  rw [getSingle_ok.mp hrp] at h1
  cases h1
  rw [hn] at h2
  cases h2
  obtain ⟨c, p, h3, h4, h5⟩ := hd.code
  rw [hn] at h4
  cases h4
  refine ⟨?_, rfl⟩
  intro c' hc'
  simp only [annotateExchange, h3, Option.orElse, Option.some.injEq] at hc'
  exact hc' ▸ h5

theorem suppliersOfGroup_good {K : Known} {T : Topology} {σ : Dataset → String → List String → List String} {consumer : Dataset}
    {location : Loc} {name n : String} {group : List Dataset} {es : List Exchange}
    (h : suppliersOfGroup T σ consumer location name group = .ok es) (hg : ∀ d ∈ group, GoodD K d ∧ d.refProduct = some n) :
    ∀ e ∈ es, (∀ c, e.code = some c → (c, e.name) ∈ K.pairs) ∧ e.name = n := by
  unfold suppliersOfGroup at h
  obtain ⟨_, -, h⟩ := bind_eq_ok.mp h
  obtain ⟨row, -, h⟩ := bind_eq_ok.mp h
  obtain ⟨inside, -, h⟩ := bind_eq_ok.mp h
  intro e he
  obtain ⟨k, -, hk⟩ := mapE_mem h he
  obtain ⟨ds, hds, hk⟩ := bind_eq_ok.mp hk
  have hds := getKey_eq_ok.mp hds
  obtain ⟨l₁, l₂, hm, -, -⟩ := lookup_byLocation.mp hds
  obtain ⟨h1, h2⟩ := hg ds (by rw [hm]; simp)
  exact supplierEntry_good hk h1 h2

theorem apportionUpd_relink {K : Known} {T : Topology} {σ : Dataset → String → List String → List String} {a : Option Apportion}
    {d d' : Dataset} {p n : String} (h : apportionUpd T σ a d = .ok d') (hd : d.refProduct = some p) (hn : n = p ∨ K.rc = true ∧ n = p ++ rcString)
    (ha : ∀ x, a = some x → ∀ y ∈ x.suppliers, GoodD K y ∧ y.refProduct = some n) : Relink K d d' := by
  unfold apportionUpd at h
  split at h
  · cases h; exact .refl _ _
  · next a =>
    split at h
    · unfold supplyConsumer at h
      obtain ⟨new, hnew, h⟩ := bind_eq_ok.mp h
      cases h
      refine ⟨rfl, List.forall₂_same.mpr fun e _ => ⟨.refl e, Or.inl rfl⟩, ?_⟩
      intro hs l hl s hsl
      simp only [Option.some.injEq] at hl
      subst hl
      rcases List.mem_append.mp hsl with hsl | hsl
      · rcases hsup : d.suppliers with _ | l
        · rw [hsup] at hsl; cases hsl
        · rw [hsup] at hsl; exact hs l hsup s hsl
      · obtain ⟨g, hg, es, hes, hse⟩ := flatMapE_mem hnew hsl
        obtain ⟨h1, h2⟩ := suppliersOfGroup_good (n := n) hes (by
          intro x hx
          obtain ⟨k, grp⟩ := g
          have := groupBy_mem hg
          simp only at hx
          rw [this] at hx
          exact ha a rfl x (List.mem_filter.mp hx).1) s hse
        exact ⟨h1, p, hd, h2 ▸ hn⟩
    · cases h; exact .refl _ _

theorem productIf_some {p : Dataset → Bool} {d : Dataset} {k : String} (h : productIf p d = some k) : d.refProduct = some k := by
  unfold productIf at h
  split at h
  · exact h
  · cases h

theorem flow_addRecycled (T : Topology) (σ : Dataset → String → List String → List String) : Flow true (addRecycledContentSuppliers T σ) := by
  refine flow_of_relink fun K hb data out h hg => ?_
  unfold addRecycledContentSuppliers at h
  simp only at h
  obtain ⟨_, -, h⟩ := bind_eq_ok.mp h
  obtain ⟨rc, hrc, h⟩ := bind_eq_ok.mp h
  have h := groupLoop (by
    intro t d d' hu
    obtain ⟨-, h2, h3, -⟩ := apportionUpd_links (K := []) hu
    exact productIf_congr (by rw [h3]) h2) h
  refine h.imp ?_
  intro d d' hd
  split at hd
  · subst hd; exact .refl _ _
  · next k hk =>
    obtain ⟨t, ht, hu⟩ := hd
    refine apportionUpd_relink (n := k ++ rcString) hu (productIf_some hk) (Or.inr ⟨hb rfl, rfl⟩) ?_
    intro x hx
    subst hx
    unfold recycledPrep at ht
    simp only at ht
    obtain ⟨_, -, ht⟩ := bind_eq_ok.mp ht
    split at ht
    · cases ht
    · obtain ⟨row, ht⟩ := apportionPrep_ok ht
      cases ht
      intro y hy
      obtain ⟨h1, h2⟩ := List.mem_filter.mp hy
      unfold recycledContentDatasets at hrc
      exact ⟨hg y (filterE_subset hrc y h1), by simpa using h2⟩

theorem flow_addSuppliers (T : Topology) (σ : Dataset → String → List String → List String) (from_ to_ : DsType) :
    Flow false (addSuppliersToMarkets T σ from_ to_) := by
  refine flow_of_relink fun K hb data out h hg => ?_
  unfold addSuppliersToMarkets at h
  simp only at h
  obtain ⟨_, -, h⟩ := bind_eq_ok.mp h
  have h := groupLoop (by
    intro t d d' hu
    obtain ⟨-, h2, h3, -⟩ := apportionUpd_links (K := []) hu
    exact productIf_congr (by rw [h3]) h2) h
  refine h.imp ?_
  intro d d' hd
  split at hd
  · subst hd; exact .refl _ _
  · next k hk =>
    obtain ⟨t, ht, hu⟩ := hd
    refine apportionUpd_relink (n := k) hu (productIf_some hk) (Or.inl rfl) ?_
    intro x hx
    subst hx
    intro y hy
    obtain ⟨h1, h2⟩ := List.mem_filter.mp (addSuppliersPrep_suppliers ht y hy)
    exact ⟨hg y h1, productIf_some (by simpa using h2)⟩

theorem placesOf_product {kind : DsType} {r : String} {data : List Dataset} {l : List (String × Dataset)} (h : placesOf kind r data = .ok l)
    {s : String} {d : Dataset} (hd : l.lookup s = some d) : d ∈ data ∧ d.refProduct = some r := by
  refine ⟨placesOf_mem h hd, ?_⟩
  unfold placesOf at h
  obtain ⟨m, hm, h⟩ := bind_eq_ok.mp h
  cases h
  obtain ⟨l₁, l₂, he, -, -⟩ := lookup_byLocation.mp hd
  have hdm : d ∈ (m.filter fun p => p.1 == r).map (·.2) := by rw [he]; simp
  obtain ⟨p, hp, rfl⟩ := List.mem_map.mp hdm
  obtain ⟨d0, hd0, hw⟩ := mapE_mem hm (List.mem_filter.mp hp).1
  have hpr := (List.mem_filter.mp hp).2
  unfold withRefProduct at hw
  obtain ⟨q, hq, hw⟩ := bind_eq_ok.mp hw
  cases hw
  simp only [beq_iff_eq] at hpr
  subst hpr
  exact getKey_eq_ok.mp hq

theorem linkMarketGroup_relink {K : Known} {T : Topology} {data : List Dataset} {r : String} {d d' : Dataset}
    (h : linkMarketGroup T data r d = .ok d') (hg : GoodAll K data) (hr : d.refProduct = some r) : Relink K d d' := by
  unfold linkMarketGroup at h
  obtain ⟨markets, hm, h⟩ := bind_eq_ok.mp h
  obtain ⟨groups, hgr, h⟩ := bind_eq_ok.mp h
  obtain ⟨row, -, h⟩ := bind_eq_ok.mp h
  obtain ⟨ordered, -, h⟩ := bind_eq_ok.mp h
  obtain ⟨found, -, h⟩ := bind_eq_ok.mp h
  obtain ⟨chosen, hch, h⟩ := bind_eq_ok.mp h
  obtain ⟨entries, hent, h⟩ := bind_eq_ok.mp h
  cases h
  refine ⟨rfl, List.forall₂_same.mpr fun e _ => ⟨.refl e, Or.inl rfl⟩, fun _ => ?_⟩
  have hchosen : ∀ x ∈ chosen, x ∈ data ∧ x.refProduct = some r := by
    intro x hx
    obtain ⟨s, -, hs⟩ := mapE_mem hch hx
    unfold candidateAt at hs
    split at hs
    · exact placesOf_product hm (getKey_eq_ok.mp hs)
    · exact placesOf_product hgr (getKey_eq_ok.mp hs)
  intro l hl s hs
  simp only at hl
  split at hl
  · cases hl
  · simp only [Option.some.injEq] at hl
    subst hl
    unfold groupEntries at hent
    obtain ⟨keyed, hk, hent⟩ := bind_eq_ok.mp hent
    obtain ⟨p, hp, hpe⟩ := mapE_mem hent hs
    rw [List.mem_insertionSort] at hp
    obtain ⟨x, hx, hw⟩ := mapE_mem hk hp
    unfold withCode at hw
    obtain ⟨c, -, hw⟩ := bind_eq_ok.mp hw
    cases hw
    obtain ⟨h1, h2⟩ := supplierEntry_good hpe (hg _ (hchosen _ hx).1) (hchosen _ hx).2
    exact ⟨h1, r, hr, Or.inl h2⟩

theorem forall₂_zipIdx {α β : Type} {R : α → β → Prop} {l : List α} {r : List β} (h : List.Forall₂ (fun (p : α × ℕ) b => R p.1 b) l.zipIdx r) :
    List.Forall₂ R l r := by
  have h3 := List.forall₂_map_left_iff (f := Prod.fst) (R := R) (l := l.zipIdx) (u := r)
  rw [List.zipIdx_map_fst] at h3
  exact h3.mpr h

theorem flow_linkGroups (T : Topology) : Flow false (linkMarketGroupSuppliers T) := by
  refine flow_of_relink fun K hb data out h hg => ?_
  unfold linkMarketGroupSuppliers at h
  obtain ⟨_, -, h⟩ := bind_eq_ok.mp h
  refine forall₂_zipIdx ((mapE_ok_iff.mp h).imp ?_)
  intro p d' hp
  split at hp
  · obtain ⟨r, hr, hp⟩ := bind_eq_ok.mp hp
    exact linkMarketGroup_relink hp hg (getKey_eq_ok.mp hr)
  · cases hp; exact .refl _ _

/-! ## Volumes -/

theorem updateMarketVolume_relink {K : Known} {d d' : Dataset} (h : updateMarketVolume d = .ok d') : Relink K d d' := by
  unfold updateMarketVolume at h
  obtain ⟨rp, -, h⟩ := bind_eq_ok.mp h
  obtain ⟨sup, -, h⟩ := bind_eq_ok.mp h
  obtain ⟨orig, -, h⟩ := bind_eq_ok.mp h
  obtain ⟨_, -, h⟩ := bind_eq_ok.mp h
  obtain ⟨vols, -, h⟩ := bind_eq_ok.mp h
  cases h
  refine ⟨rfl, ?_, id⟩
  rw [List.forall₂_map_right_iff]
  refine List.forall₂_same.mpr fun e _ => ?_
  unfold mapRefVolume
  split
  · exact ⟨.refl _, Or.inl rfl⟩
  · exact ⟨.refl _, Or.inl rfl⟩

theorem propagateTo_relink {K : Known} {members : List ℕ} {ds : Dataset} {v : ℚ} {p : Dataset × ℕ} {d' : Dataset}
    (h : propagateTo members ds v p = .ok d') : Relink K p.1 d' := by
  unfold propagateTo at h
  split at h
  · obtain ⟨sup, hs, h⟩ := bind_eq_ok.mp h
    obtain ⟨sup', hs', h⟩ := bind_eq_ok.mp h
    cases h
    refine ⟨rfl, List.forall₂_same.mpr fun e _ => ⟨.refl e, Or.inl rfl⟩, fun hd => ?_⟩
    intro l hl s hsl
    simp only [Option.some.injEq] at hl
    subst hl
    obtain ⟨s0, hs0, hp⟩ := mapE_mem hs' hsl
    unfold propagateVolume at hp
    obtain ⟨c, -, hp⟩ := bind_eq_ok.mp hp
    obtain ⟨c', -, hp⟩ := bind_eq_ok.mp hp
    have : s.code = s0.code ∧ s.name = s0.name := by
      simp only [epure, Except.ok.injEq] at hp
      rw [← hp]
      split <;> exact ⟨rfl, rfl⟩
    rw [this.1, this.2]
    exact hd sup (getKey_eq_ok.mp hs) s0 hs0
  · cases h; exact .refl _ _

theorem flow_updateVolumes (T : Topology) (kind : DsType) : Flow false (updateMarketProductionVolumes T kind) := by
  refine flow_of_relink fun K hb data out h hg => ?_
  unfold updateMarketProductionVolumes at h
  split at h
  · obtain ⟨order, -, h⟩ := bind_eq_ok.mp h
    refine foldE_inv (I := fun _ st => List.Forall₂ (Relink K) data st) h (List.forall₂_same.mpr fun d _ => .refl _ _) ?_
    intro pre i st st' _ hI hs
    refine forall₂_trans' hI (S := Relink K) ?_ fun a b c hab hbc => hab.trans hbc
    unfold updateGroupStep at hs
    split at hs
    · cases hs; exact List.forall₂_same.mpr fun d _ => .refl _ _
    · next ds hds =>
      obtain ⟨ds', hds', hs⟩ := bind_eq_ok.mp hs
      refine forall₂_trans' (forall₂_set (R := Relink K) (fun d => .refl _ _) hds (updateMarketVolume_relink hds')) (S := Relink K) ?_
        fun a b c hab hbc => hab.trans hbc
      exact forall₂_zipIdx ((mapE_ok_iff.mp hs).imp fun p d' hp => propagateTo_relink hp)
  · refine (mapE_ok_iff.mp h).imp ?_
    intro d d' hd
    split at hd
    · exact updateMarketVolume_relink hd
    · cases hd; exact .refl _ _

theorem flow_deleteGlobal (kind : DsType) : Flow false (deleteGlobalZeroPv kind) := by
  intro K _ _ data out h hg _
  have he := C51_exact kind data out h
  subst he
  refine ⟨fun d hd => hg d (List.mem_filter.mp hd).1, fun d hd => ⟨d, (List.mem_filter.mp hd).1, .refl d⟩, fun d hd hl => ?_⟩
  refine ⟨d, List.mem_filter.mpr ⟨hd, ?_⟩, .refl d⟩
  simp only [decide_eq_true_eq]
  exact fun hs => hl hs.2.1

theorem flow_logAndDelete : Flow false (fun d => .ok (logAndDeleteUnlinked d)) := by
  intro K _ hK data out h hg _
  have : logAndDeleteUnlinked data = data := by
    apply C48_deletes_nothing
    intro d hd
    obtain ⟨c, p, h1, -, h2⟩ := (hg d hd).code
    rw [h1]
    refine ⟨rfl, ?_⟩
    intro hc
    cases hc
    exact hK _ h2 rfl
  simp only [this] at h
  cases h
  exact ⟨hg, fun d hd => ⟨d, hd, .refl d⟩, fun d hd _ => ⟨d, hd, .refl d⟩⟩

/-! ## Consumers -/

theorem outcome_weigh {e : Exchange} (hn : NoCode e) {chosen : List Dataset} {stay new : List Exchange} (h : Spec.Outcome e chosen stay new) (w : Weight) :
    weigh w stay + weigh w new = weigh w [e] := by
  have share : ∀ (l : List Dataset) (total : ℚ) (new : List Exchange),
      List.Forall₂ (IsShare e total) (l.filter fun d => decide (sellerVolume d ≠ 0)) new →
      weigh w new = w e.type e.name e.compartment * (e.amount * (sellersVolume l / total)) := by
    intro l total
    induction l with
    | nil => intro new h; cases h; simp [weigh, sellersVolume]
    | cons d l ih =>
      intro new h
      by_cases hz : sellerVolume d = 0
      · rw [List.filter_cons_of_neg (by simp [hz])] at h
        rw [ih new h]
        simp [sellersVolume, hz]
      · rw [List.filter_cons_of_pos (by simp [hz])] at h
        obtain ⟨n, r, hn, hr, rfl⟩ := List.forall₂_cons_left_iff.mp h
        rw [weigh_cons, ih r hr, hn]
        simp only [sellersVolume, List.map_cons, List.sum_cons]
        ring
  match chosen, h with
  | [], h =>
    obtain ⟨rfl, rfl⟩ := h
    simp [weigh]
  | [d], h =>
    obtain ⟨rfl, rfl⟩ := h
    simp [weigh]
  | a :: b :: l, ⟨h0, h1⟩ =>
    by_cases hz : sellersVolume (a :: b :: l) = 0
    · obtain ⟨rfl, rfl⟩ := h0 hz
      simp [weigh]
    · obtain ⟨rfl, hF⟩ := h1 hz
      rw [share _ _ _ hF, div_self hz, weigh_cons, weigh_nil]
      simp

theorem relinked_weigh {Choice : Exchange → List Dataset → Prop} {ds ds' : Dataset} (h : Relinked Choice ds ds') (w : Weight) :
    weigh w ds'.exchanges = weigh w ds.exchanges := by
  obtain ⟨results, hF, hd, -⟩ := h
  rw [hd]
  change weigh w (results.flatMap (·.1) ++ results.flatMap (·.2)) = weigh w ds.exchanges
  rw [weigh_append]
  clear hd
  generalize ds.exchanges = l at hF
  induction hF with
  | nil => simp [weigh]
  | @cons e r l rs her _ ih =>
    rw [List.flatMap_cons, List.flatMap_cons, weigh_append, weigh_append, show e :: l = [e] ++ l from rfl, weigh_append, ← ih]
    have : weigh w r.1 + weigh w r.2 = weigh w [e] := by
      by_cases hn : NoCode e
      · obtain ⟨chosen, -, ho⟩ := her.2 hn
        exact outcome_weigh hn ho w
      · rw [her.1 hn]
        simp [weigh]
    rw [← this]
    ring

theorem relinked_refs {Choice : Exchange → List Dataset → Prop} {ds ds' : Dataset} (h : Relinked Choice ds ds') : refs ds' = refs ds := by
  obtain ⟨results, hF, hd, -⟩ := h
  rw [hd]
  change ((results.flatMap (·.1) ++ results.flatMap (·.2)).filter fun e => e.type == .referenceProduct) = ds.exchanges.filter fun e => e.type == .referenceProduct
  clear hd
  generalize ds.exchanges = l at hF
  have out : ∀ e r, ((¬ NoCode e → r = ([e], [])) ∧ (NoCode e → ∃ chosen, Choice e chosen ∧ Spec.Outcome e chosen r.1 r.2)) →
      (r.1.filter fun e : Exchange => e.type == .referenceProduct) = ([e].filter fun e : Exchange => e.type == .referenceProduct) ∧
      (r.2.filter fun e : Exchange => e.type == .referenceProduct) = [] := by
    intro e r her
    by_cases hn : NoCode e
    · obtain ⟨chosen, -, ho⟩ := her.2 hn
      have he : ([e].filter fun e : Exchange => e.type == .referenceProduct) = [] := by simp [hn.1]
      rw [he]
      match chosen, ho with
      | [], ho => rw [ho.1, ho.2]; simp [hn.1]
      | [d], ho => rw [ho.1, ho.2]; simp [hn.1]
      | a :: b :: l, ⟨h0, h1⟩ =>
        by_cases hz : sellersVolume (a :: b :: l) = 0
        · rw [(h0 hz).1, (h0 hz).2]; simp [hn.1]
        · obtain ⟨g1, g2⟩ := h1 hz
          rw [g1]
          refine ⟨rfl, ?_⟩
          rw [List.filter_eq_nil_iff]
          intro n hn'
          obtain ⟨d, -, hd⟩ := forall₂_mem_right g2 hn'
          rw [hd]
          simp [hn.1]
    · rw [her.1 hn]; simp
  rw [List.filter_append]
  have h1 : ((results.flatMap (·.1)).filter fun e => e.type == .referenceProduct) = l.filter fun e => e.type == .referenceProduct := by
    induction hF with
    | nil => rfl
    | @cons e r l rs her _ ih =>
      rw [List.flatMap_cons, List.filter_append, ih, (out e r her).1, show e :: l = [e] ++ l from rfl, List.filter_append]
  have h2 : ((results.flatMap (·.2)).filter fun e => e.type == .referenceProduct) = [] := by
    clear h1
    induction hF with
    | nil => rfl
    | @cons e r l rs her _ ih => rw [List.flatMap_cons, List.filter_append, ih, (out e r her).2]; rfl
  rw [h1, h2, List.append_nil]

theorem relinked_old {Choice : Exchange → List Dataset → Prop} {ds ds' : Dataset} (h : Relinked Choice ds ds') :
    ∀ e' ∈ ds'.exchanges, e' ∈ ds.exchanges ∨ ∃ e ∈ ds.exchanges, NoCode e ∧ e'.type = .fromTechnosphere ∧ e'.name = e.name ∧
      ∃ chosen, Choice e chosen ∧ ∃ d ∈ chosen, e'.code = d.code := by
  obtain ⟨results, hF, hd, -⟩ := h
  intro e' he'
  rw [hd] at he'
  have hex : ∃ r ∈ results, e' ∈ r.1 ∨ e' ∈ r.2 := by
    rcases List.mem_append.mp he' with h | h
    · obtain ⟨r, hr, he⟩ := List.mem_flatMap.mp h
      exact ⟨r, hr, Or.inl he⟩
    · obtain ⟨r, hr, he⟩ := List.mem_flatMap.mp h
      exact ⟨r, hr, Or.inr he⟩
  obtain ⟨r, hr, her⟩ := hex
  obtain ⟨e, he, h1, h2⟩ := forall₂_mem_right hF hr
  by_cases hn : NoCode e
  · obtain ⟨chosen, hch, ho⟩ := h2 hn
    match chosen, hch, ho with
    | [], _, ho =>
      rw [ho.1, ho.2] at her
      simp only [List.mem_singleton, List.not_mem_nil, or_false] at her
      exact Or.inl (her ▸ he)
    | [d], hch, ho =>
      rw [ho.1, ho.2] at her
      simp only [List.mem_singleton, List.not_mem_nil, or_false] at her
      right
      refine ⟨e, he, hn, ?_, ?_, [d], hch, d, by simp, ?_⟩
      · rw [her]; exact hn.1
      · rw [her]
      · rw [her]
    | a :: b :: l, hch, ho =>
      by_cases hz : sellersVolume (a :: b :: l) = 0
      · obtain ⟨g1, g2⟩ := ho.1 hz
        rw [g1, g2] at her
        simp only [List.mem_singleton, List.not_mem_nil, or_false] at her
        exact Or.inl (her ▸ he)
      · obtain ⟨g1, g2⟩ := ho.2 hz
        rw [g1] at her
        simp only [List.not_mem_nil, false_or] at her
        obtain ⟨d, hd1, hd2⟩ := forall₂_mem_right g2 her
        right
        refine ⟨e, he, hn, ?_, ?_, _, hch, d, (List.mem_filter.mp hd1).1, ?_⟩
        · rw [hd2]; exact hn.1
        · rw [hd2]
        · rw [hd2]
  · rw [h1 hn] at her
    simp only [List.mem_singleton, List.not_mem_nil, or_false] at her
    exact Or.inl (her ▸ he)

/-- The test of `gasIds`. -/
def isGas (e : Exchange) : Bool := decide (e.type = .fromTechnosphere ∧ e.code = none ∧ e.name = "refinery gas")

theorem relinked_gas {Choice : Exchange → List Dataset → Prop} (hch : ∀ e chosen, Choice e chosen → ∀ d ∈ chosen, d.code.isSome)
    {ds ds' : Dataset} (h : Relinked Choice ds ds') : (gasIds ds').Sublist (gasIds ds) := by
  obtain ⟨results, hF, hd, -⟩ := h
  rw [hd]
  change (((results.flatMap (·.1) ++ results.flatMap (·.2)).filter isGas).map (·.id)).Sublist ((ds.exchanges.filter isGas).map (·.id))
  clear hd
  generalize ds.exchanges = l at hF
  have coded : ∀ (e : Exchange) (d : Dataset), d.code.isSome → e.code = d.code → isGas e = false := by
    intro e d hd he
    unfold isGas
    rw [decide_eq_false_iff_not]
    rintro ⟨-, h, -⟩
    rw [he] at h
    rw [h] at hd
    cases hd
  have out : ∀ e r, ((¬ NoCode e → r = ([e], [])) ∧ (NoCode e → ∃ chosen, Choice e chosen ∧ Spec.Outcome e chosen r.1 r.2)) →
      (r.1.filter isGas).Sublist ([e].filter isGas) ∧ r.2.filter isGas = [] := by
    intro e r her
    by_cases hn : NoCode e
    · obtain ⟨chosen, hc, ho⟩ := her.2 hn
      match chosen, hc, ho with
      | [], _, ho => rw [ho.1, ho.2]; exact ⟨.refl _, rfl⟩
      | [d], hc, ho =>
        rw [ho.1, ho.2]
        refine ⟨?_, rfl⟩
        rw [List.filter_cons_of_neg (by rw [coded _ d (hch e _ hc d (by simp)) rfl]; simp)]
        exact List.nil_sublist _
      | a :: b :: l, hc, ⟨h0, h1⟩ =>
        by_cases hz : sellersVolume (a :: b :: l) = 0
        · rw [(h0 hz).1, (h0 hz).2]; exact ⟨.refl _, rfl⟩
        · obtain ⟨g1, g2⟩ := h1 hz
          rw [g1]
          refine ⟨List.nil_sublist _, ?_⟩
          rw [List.filter_eq_nil_iff]
          intro n hn'
          obtain ⟨d, hdm, hd⟩ := forall₂_mem_right g2 hn'
          rw [coded n d (hch e _ hc d (List.mem_filter.mp hdm).1) (by rw [hd])]
          simp
    · rw [her.1 hn]; exact ⟨.refl _, rfl⟩
  rw [List.filter_append]
  have h1 : ((results.flatMap (·.1)).filter isGas).Sublist (l.filter isGas) := by
    induction hF with
    | nil => exact .slnil
    | @cons e r l rs her _ ih =>
      rw [List.flatMap_cons, List.filter_append, show e :: l = [e] ++ l from rfl, List.filter_append]
      exact (out e r her).1.append ih
  have h2 : (results.flatMap (·.2)).filter isGas = [] := by
    clear h1
    induction hF with
    | nil => rfl
    | @cons e r l rs her _ ih => rw [List.flatMap_cons, List.filter_append, ih, (out e r her).2]; rfl
  rw [h2, List.append_nil]
  exact h1.map _

theorem flow_linkConsumers (M : MathEnv) (T : Topology) : Flow false (linkConsumersToMarkets M T) := by
  intro K _ hK data out h hg hgas
  have hcode : ∀ d ∈ data, ∀ e ∈ d.exchanges, e.code ≠ some "" := by
    intro d hd e he hc
    exact ((hg d hd).exc e he "" hc).ne hK rfl
  have hl : GasApart data := by
    refine ⟨?_, ?_⟩
    · intro d hd _
      obtain ⟨c, p, h1, -, h2⟩ := (hg d hd).code
      rw [h1]
      refine ⟨rfl, ?_⟩
      intro hc
      cases hc
      exact hK _ h2 rfl
    · intro d hd _ i j e hi hj hn hname
      have hnone : e.code = none := by
        rcases hn.2 with hc | hc
        · exact hc
        · exact absurd hc (hcode d hd e (List.mem_of_getElem? hi))
      rcases hgas with ⟨x, hx, hs, -⟩ | hgas | ⟨-, hgas⟩
      · exact Or.inl ⟨x, hx, hname ▸ hs⟩
      · exact absurd hname (hgas d hd e (List.mem_of_getElem? hi) hn.1 hnone)
      · right
        have hnd := hgas d hd
        by_contra hij
        have key : ∀ (i j : ℕ), i < j → d.exchanges[i]? = some e → d.exchanges[j]? = some e → False := by
          intro i j hlt h1 h2
          have e1 : d.exchanges = d.exchanges.take j ++ d.exchanges.drop j := (List.take_append_drop j _).symm
          have m1 : e ∈ d.exchanges.take j := List.mem_of_getElem? (i := i) (by rw [List.getElem?_take_of_lt hlt, h1])
          have m2 : e ∈ d.exchanges.drop j := List.mem_of_getElem? (i := 0) (by rw [List.getElem?_drop]; simpa using h2)
          unfold gasIds at hnd
          rw [e1, List.filter_append, List.map_append, List.nodup_append] at hnd
          have q : decide (e.type = .fromTechnosphere ∧ e.code = none ∧ e.name = "refinery gas") = true := by simp [hn.1, hnone, hname]
          exact hnd.2.2 e.id (List.mem_map.mpr ⟨e, List.mem_filter.mpr ⟨m1, q⟩, rfl⟩) e.id (List.mem_map.mpr ⟨e, List.mem_filter.mpr ⟨m2, q⟩, rfl⟩) rfl
        rcases Nat.lt_or_gt_of_ne hij with h | h
        · exact key i j h hi hj
        · exact key j i h hj hi
  have hz : List.Forall₂ (fun d d' => d ∈ data ∧ GoodD K d' ∧ Same d d') data out := by
      refine (linkConsumers_apart hl h).imp ?_
      rintro d d' ⟨hd, hmg, hrel⟩
      refine ⟨hd, ?_⟩
      by_cases ht : d.type = .marketGroup
      · rw [hmg ht]; exact ⟨hg d hd, .refl d⟩
      · obtain ⟨crow, -, hr⟩ := hrel ht
        have hrefs := relinked_refs hr
        have hex := relinked_old hr
        have hcd : ∀ (e : Exchange) (chosen : List Dataset), (∃ r, LooksAt data e r ∧ chooseMarkets T d.location crow (marketsMapping data r) = .ok chosen) →
            ∀ x ∈ chosen, x.code.isSome := by
          rintro e chosen ⟨r, -, hch⟩ x hx
          obtain ⟨k1, k2⟩ := chooseMarkets_sells hch x hx
          exact (hl.coded x k1 k2.1).1
        have heq : d' = { d with exchanges := d'.exchanges, suppliers := d'.suppliers } := by
          obtain ⟨_, _, heq, _⟩ := hr
          rw [heq]
        refine ⟨⟨?_, ?_, ?_, ?_⟩, ⟨by rw [heq], by rw [heq], by rw [heq], by rw [heq], by rw [heq], ?_, ?_, ?_, relinked_gas hcd hr, relinked_weigh hr⟩⟩
        · rw [heq]; exact (hg d hd).code
        · obtain ⟨rp, g1, g2⟩ := (hg d hd).ref
          refine ⟨rp, hrefs.trans g1, ?_⟩
          rw [heq]; exact g2
        · intro e' he' c hc
          rcases hex e' he' with hx | ⟨e, he, hn, -, hname, chosen, ⟨r, hlook, hch⟩, x, hx, hxc⟩
          · exact (hg d hd).exc e' hx c hc
          · rw [hname]
            obtain ⟨k1, k2⟩ := chooseMarkets_sells hch x hx
            have hpair := (hg x k1).codeOf (hxc ▸ hc) k2.2
            rcases hlook with rfl | ⟨hgn, hno⟩
            · exact Or.inl hpair
            · rcases hgas with ⟨y, hy, hs, -⟩ | hgas | ⟨hloose, -⟩
              · exact absurd ⟨y, hy, hgn ▸ hs⟩ hno
              · rcases hn.2 with hcn | hcn
                · exact absurd hgn (hgas d hd e he hn.1 hcn)
                · exact absurd hcn (hcode d hd e he)
              · exact Or.inr ⟨hloose, hgn, r, hpair⟩
        · obtain ⟨_, _, _, hsup⟩ := hr
          have hp : d'.refProduct = d.refProduct := by rw [heq]
          rw [hp]
          rcases hsup with hsup | hsup
          · rw [hsup]; exact (hg d hd).sup
          · rw [hsup]; intro l hl; cases hl
        · unfold refPairs; rw [hrefs]
        · intro e' he' hte hc
          rcases hex e' he' with hx | ⟨e, he, -, -, hname, chosen, hch, x, hx, hxc⟩
          · exact ⟨e', hx, hte, hc, rfl⟩
          · have hxs := hcd e chosen hch x hx
            rw [hc] at hxc
            rw [← hxc] at hxs
            cases hxs
        · intro e' he'
          rcases hex e' he' with hx | ⟨e, he, hn, het, hname, -⟩
          · exact ⟨e', hx, rfl, rfl⟩
          · exact ⟨e, he, hn.1.trans het.symm, hname.symm⟩
  refine ⟨fun d' hd' => ?_, fun d' hd' => ?_, fun d hd _ => ?_⟩
  · obtain ⟨d, hd, -, h3, -⟩ := forall₂_mem_right hz hd'; exact h3
  · obtain ⟨d, hd, -, -, h3⟩ := forall₂_mem_right hz hd'; exact ⟨d, hd, h3⟩
  · obtain ⟨d', hd', -, -, h3⟩ := forall₂_mem_left hz hd; exact ⟨d', hd', h3⟩

/-! ## Markets and their suppliers -/

/-- The market `d` gets inputs of its product, as much as it produces, or none. -/
structure Stocked (rc : Bool) (kind : DsType) (d d' : Dataset) : Prop where
  code : d'.code = d.code
  type : d'.type = d.type
  name : d'.name = d.name
  location : d'.location = d.location
  product : d'.refProduct = d.refProduct
  refs : refPairs d' = refPairs d
  unlinked : ∀ e' ∈ d'.exchanges, e'.type = .fromTechnosphere → e'.code = none →
    ∃ e ∈ d.exchanges, e.type = .fromTechnosphere ∧ e.code = none ∧ e.name = e'.name
  gas : (gasIds d').Sublist (gasIds d)
  same : d.type ≠ kind → d' = d
  inputs : d' = d ∨ ∃ rp new, Spec.refs d = [rp] ∧ d'.exchanges = d.exchanges ++ new ∧
    (∀ e ∈ new, e.type = .fromTechnosphere ∧ e.compartment = none ∧ (e.name = rp.name ∨ rc = true ∧ e.name = rp.name ++ rcString)) ∧
    (new.map (·.amount)).sum = rp.amount

theorem Stocked.refl (rc : Bool) (kind : DsType) (d : Dataset) : Stocked rc kind d d :=
  ⟨rfl, rfl, rfl, rfl, rfl, rfl, fun e he h1 h2 => ⟨e, he, h1, h2, rfl⟩, .refl _, fun _ => rfl, Or.inl rfl⟩

theorem Stocked.new {K : Known} {kind : DsType} {d d' : Dataset} {sup new sup0 : List Exchange} {exc : Exchange} {t : ℚ}
    (hd : GoodD K d) (hk : d.type = kind) (hexc : Spec.refs d = [exc]) (hsup : d.suppliers = some sup0)
    (hm : ∀ s ∈ sup, ∃ s0 ∈ sup0, s.code = s0.code ∧ s.name = s0.name)
    (ht : (sup.map vol).sum = t) (ht0 : t ≠ 0) (hn : flatMapE (marketInput exc.amount t) sup = .ok new)
    (he : d' = { d with exchanges := d.exchanges ++ new, suppliers := some sup }) : GoodD K d' ∧ Stocked K.rc kind d d' := by
  have hg : ∀ s ∈ sup, (∀ c, s.code = some c → (c, s.name) ∈ K.pairs) ∧ (s.name = exc.name ∨ K.rc = true ∧ s.name = exc.name ++ rcString) := by
    intro s hs
    obtain ⟨s0, h0, h1, h2⟩ := hm s hs
    obtain ⟨g1, n, g2, g3⟩ := hd.sup sup0 hsup s0 h0
    obtain ⟨rp, k1, k2⟩ := hd.ref
    rw [hexc] at k1
    cases k1
    rw [g2] at k2
    cases k2
    rw [h1, h2]
    exact ⟨g1, g3⟩
  have hnew : ∀ e ∈ new, ∃ s ∈ sup, e = inputFrom exc.amount t s ∧ s.code.isSome := by
    intro e he
    obtain ⟨s, hs, r, hr, her⟩ := flatMapE_mem hn he
    rcases (marketInput_ok hr).2 with ⟨-, rfl⟩ | ⟨-, rfl, hc, -⟩
    · cases her
    · exact ⟨s, hs, List.mem_singleton.mp her, hc⟩
  have hrefs : Spec.refs d' = Spec.refs d := by
    rw [he]
    unfold Spec.refs
    rw [List.filter_append]
    have : new.filter (fun e => e.type == .referenceProduct) = [] := by
      rw [List.filter_eq_nil_iff]
      intro e hen
      obtain ⟨s, -, rfl, -⟩ := hnew e hen
      simp [inputFrom]
    rw [this, List.append_nil]
  have hsum : (new.map (·.amount)).sum = exc.amount := by
    have key : ∀ (l new : List Exchange), flatMapE (marketInput exc.amount t) l = .ok new → (new.map (·.amount)).sum = (l.map vol).sum / t * exc.amount := by
      intro l
      induction l with
      | nil => intro new h; cases h; simp
      | cons s l ih =>
        intro new h
        simp only [flatMapE] at h
        obtain ⟨r, hr, h⟩ := bind_eq_ok.mp h
        obtain ⟨rs, hrs, h⟩ := bind_eq_ok.mp h
        cases h
        rw [List.map_append, List.sum_append, ih rs hrs, List.map_cons, List.sum_cons]
        rcases (marketInput_ok hr).2 with ⟨h0, rfl⟩ | ⟨-, rfl, -⟩
        · rw [add_div, h0]; simp
        · simp only [List.map_cons, List.map_nil, List.sum_cons, List.sum_nil, inputFrom]
          ring
    rw [key sup new hn, ht, div_self ht0, one_mul]
  refine ⟨⟨?_, ?_, ?_, ?_⟩, ⟨by rw [he], by rw [he], by rw [he], by rw [he], by rw [he], ?_, ?_, ?_, fun h => absurd hk h, Or.inr ⟨exc, new, hexc, by rw [he], ?_, hsum⟩⟩⟩
  · rw [he]; exact hd.code
  · obtain ⟨rp, k1, k2⟩ := hd.ref
    refine ⟨rp, hrefs.trans k1, ?_⟩
    rw [he]; exact k2
  · intro e hem c hc
    rw [he] at hem
    rcases List.mem_append.mp hem with h | h
    · exact hd.exc e h c hc
    · obtain ⟨s, hs, rfl, -⟩ := hnew e h
      exact Or.inl ((hg s hs).1 c hc)
  · have hp : d'.refProduct = d.refProduct := by rw [he]
    rw [hp]
    intro l hl s hs
    rw [he] at hl
    cases hl
    obtain ⟨rp, k1, k2⟩ := hd.ref
    rw [hexc] at k1
    cases k1
    exact ⟨(hg s hs).1, exc.name, k2, (hg s hs).2⟩
  · unfold refPairs; rw [hrefs]
  · intro e hem h1 h2
    rw [he] at hem
    rcases List.mem_append.mp hem with h | h
    · exact ⟨e, h, h1, h2, rfl⟩
    · obtain ⟨s, hs, rfl, hc⟩ := hnew e h
      simp only [inputFrom] at h2
      rw [h2] at hc
      cases hc
  · rw [he]
    unfold gasIds
    rw [List.filter_append]
    have : new.filter (fun e => decide (e.type = .fromTechnosphere ∧ e.code = none ∧ e.name = "refinery gas")) = [] := by
      rw [List.filter_eq_nil_iff]
      intro e hen hq
      obtain ⟨s, -, rfl, hc⟩ := hnew e hen
      have h2 := (of_decide_eq_true hq).2.1
      simp only [inputFrom] at h2
      rw [h2] at hc
      cases hc
    rw [this, List.append_nil]
  · intro e hen
    obtain ⟨s, hs, rfl, -⟩ := hnew e hen
    exact ⟨rfl, rfl, (hg s hs).2⟩

theorem allocateSuppliers_stocked {K : Known} {kind : DsType} {d d' : Dataset} (h : allocateSuppliers d = .ok d') (hk : d.type = kind)
    (hd : GoodD K d) : GoodD K d' ∧ Stocked K.rc kind d d' := by
  unfold allocateSuppliers at h
  obtain ⟨exc, hexc, h⟩ := bind_eq_ok.mp h
  have hexc := getSingle_ok.mp hexc
  obtain ⟨sup, hsup, h⟩ := bind_eq_ok.mp h
  have hsup := getKey_eq_ok.mp hsup
  obtain ⟨vols, hv, h⟩ := bind_eq_ok.mp h
  have hv' : vols = sup.map vol := by
    have hF := mapE_ok_iff.mp hv
    have := forall₂_map_eq' (p := vol) (q := id) hF (by
      intro s v hs
      unfold entryVolume at hs
      obtain ⟨p, hp, hs⟩ := bind_eq_ok.mp hs
      cases hs
      unfold vol
      rw [getKey_eq_ok.mp hp]
      rfl)
    rw [List.map_id] at this
    exact this.symm
  subst hv'
  split at h
  · split at h
    · cases h; exact ⟨hd, .refl _ _ _⟩
    · next hl =>
      obtain ⟨_, -, h⟩ := bind_eq_ok.mp h
      obtain ⟨_, -, h⟩ := bind_eq_ok.mp h
      simp only at h
      obtain ⟨new, hn, h⟩ := bind_eq_ok.mp h
      cases h
      obtain ⟨s, rfl⟩ := List.length_eq_one_iff.mp (not_not.mp hl)
      refine Stocked.new hd hk hexc hsup ?_ ?_ (by norm_num) hn rfl
      · intro x hx
        obtain ⟨y, hy, rfl⟩ := List.mem_map.mp hx
        exact ⟨y, hy, rfl, rfl⟩
      · have hpv : s.pv.isSome := by
          obtain ⟨p, -, hp⟩ := forall₂_mem_left (mapE_ok_iff.mp hv) (List.mem_singleton.mpr rfl)
          unfold entryVolume at hp
          obtain ⟨q, hq, -⟩ := bind_eq_ok.mp hp
          rw [getKey_eq_ok.mp hq]; rfl
        obtain ⟨p, hp⟩ := Option.isSome_iff_exists.mp hpv
        simp [vol, defaultVolume, hp]
  · next hz =>
    obtain ⟨new, hn, h⟩ := bind_eq_ok.mp h
    cases h
    exact Stocked.new hd hk hexc hsup (fun s hs => ⟨s, hs, rfl, rfl⟩) rfl hz hn (by rw [← hsup])

theorem stock_allocateAll (kind : DsType) {K : Known} {data out : List Dataset} (h : allocateAllMarketSuppliers kind data = .ok out)
    (hg : GoodAll K data) (hgas : GasOk K data) : GoodAll K out ∧ GasOk K out ∧ ∀ d' ∈ out, ∃ d ∈ data, Stocked K.rc kind d d' := by
  have hF : List.Forall₂ (fun d d' => GoodD K d' ∧ Stocked K.rc kind d d') data out := by
    refine (forall₂_with_mem (mapE_ok_iff.mp h)).imp ?_
    rintro d d' ⟨hd, hdd⟩
    split at hdd
    · next hk => exact allocateSuppliers_stocked hdd hk (hg d hd)
    · cases hdd; exact ⟨hg d hd, .refl _ _ _⟩
  refine ⟨fun d' hd' => ?_, hgas.next (fun d' hd' => ?_) (fun d hd _ => ?_), fun d' hd' => ?_⟩
  · obtain ⟨d, hd, h1, -⟩ := forall₂_mem_right hF hd'; exact h1
  · obtain ⟨d, hd, -, h1⟩ := forall₂_mem_right hF hd'; exact ⟨d, hd, h1.gas, h1.unlinked⟩
  · obtain ⟨d', hd', -, h1⟩ := forall₂_mem_left hF hd; exact ⟨d', hd', h1.type, h1.product, h1.location⟩
  · obtain ⟨d, hd, -, h1⟩ := forall₂_mem_right hF hd'; exact ⟨d, hd, h1⟩

end Ocelot
