import Verif.Model.Pipeline
import Verif.Props.ConsumerLinking
import Verif.Props.Linking
import Verif.Props.MarketGroups
import Verif.Props.MarketSuppliers
import Verif.Props.MarketAllocation
import Verif.Props.RestOfWorld
import Verif.Props.Cutoff
import Verif.Props.Utils
import Verif.Props.Consequential

/-! The functions after `add_unique_codes` keep the codes of the datasets, and link only to these codes. -/

namespace Ocelot
open Spec

/-- The code, if there is one, is one of `K`. -/
def InCodes (K : List String) (o : Option String) : Prop := ∀ c, o = some c → c ∈ K

/-- Exchanges and supplier entries link only to codes in `K`. -/
def LinksIn (K : List String) (d : Dataset) : Prop :=
  (∀ e ∈ d.exchanges, InCodes K e.code) ∧ ∀ l, d.suppliers = some l → ∀ s ∈ l, InCodes K s.code

def Clean (K : List String) (d : Dataset) : Prop := (∃ c ∈ K, d.code = some c) ∧ LinksIn K d

def CleanAll (K : List String) (data : List Dataset) : Prop := ∀ d ∈ data, Clean K d

/-- What datasets copy from their source and no function changes: file, dates, technology level and other metadata. -/
def sourceOf (d : Dataset) : String × Option String × Option String × Option String × List (String × String) :=
  (d.filepath, d.startDate, d.endDate, d.technologyLevel, d.extra)

/-- What identifies a dataset after `add_unique_codes`. -/
def codeKey (d : Dataset) : Option String × String × String × String × Option String × Option String × Option String × List (String × String) :=
  (d.code, d.location, d.id, sourceOf d)

/-- The function removes no dataset with a location in `q`, and adds none; it links only to codes that the datasets had. -/
def KeepsCodes (q : String → Prop) (f : List Dataset → Except Err (List Dataset)) : Prop :=
  ∀ data out, f data = .ok out →
    (out.map codeKey).Sublist (data.map codeKey) ∧ (∀ p ∈ data.map codeKey, q p.2.1 → p ∈ out.map codeKey) ∧
    ∀ K, CleanAll K data → CleanAll K out

variable {q : String → Prop}

theorem Clean.code_in {K : List String} {d : Dataset} (h : Clean K d) : InCodes K d.code := by
  obtain ⟨⟨c, hc, hd⟩, -⟩ := h
  intro c' hc'
  rw [hd] at hc'
  cases hc'
  exact hc

theorem keeps_of_forall₂ {data out : List Dataset}
    (h : List.Forall₂ (fun d d' => codeKey d' = codeKey d ∧ ∀ K, CleanAll K data → Clean K d → LinksIn K d') data out) :
    (out.map codeKey).Sublist (data.map codeKey) ∧ (∀ p ∈ data.map codeKey, q p.2.1 → p ∈ out.map codeKey) ∧
    ∀ K, CleanAll K data → CleanAll K out := by
  have he : out.map codeKey = data.map codeKey := (forall₂_map_eq' h fun a b hab => hab.1.symm).symm
  refine ⟨he ▸ List.Sublist.refl _, fun p hp _ => he ▸ hp, ?_⟩
  intro K hK d' hd'
  obtain ⟨d, hd, h1, h2⟩ := forall₂_mem_right h hd'
  obtain ⟨c, hc, hdc⟩ := (hK d hd).1
  refine ⟨⟨c, hc, ?_⟩, h2 K hK (hK d hd)⟩
  rw [← hdc]
  exact congrArg Prod.fst h1

theorem keeps_trans {f g : List Dataset → Except Err (List Dataset)} (hf : KeepsCodes q f) (hg : KeepsCodes q g) :
    KeepsCodes q (fun d => f d >>= g) := by
  intro data out h
  obtain ⟨mid, h1, h2⟩ := bind_eq_ok.mp h
  obtain ⟨a1, a2, a3⟩ := hf _ _ h1
  obtain ⟨b1, b2, b3⟩ := hg _ _ h2
  exact ⟨b1.trans a1, fun p hp hr => b2 p (a2 p hp hr) hr, fun K hK => b3 K (a3 K hK)⟩

theorem linkToOnly_code {K : List String} {e e' : Exchange} {refs : List Dataset} (h : linkToOnly e refs = .ok e')
    (hr : ∀ d ∈ refs, InCodes K d.code) (he : InCodes K e.code) : InCodes K e'.code := by
  unfold linkToOnly at h
  split at h
  · obtain ⟨c, hc, h⟩ := bind_eq_ok.mp h
    cases h
    intro c' hc'
    simp only [Option.some.injEq] at hc'
    subst hc'
    exact hr _ (by simp) _ (getKey_eq_ok.mp hc)
  · cases h; exact he

theorem mapExchangesE_links {K : List String} {f : Exchange → Except Err Exchange} {d d' : Dataset}
    (h : mapExchangesE f d = .ok d') (hf : ∀ e ∈ d.exchanges, ∀ e', f e = .ok e' → InCodes K e.code → InCodes K e'.code)
    (hd : LinksIn K d) : LinksIn K d' := by
  unfold mapExchangesE at h
  obtain ⟨ex, hex, h⟩ := bind_eq_ok.mp h
  cases h
  refine ⟨?_, hd.2⟩
  intro e' he'
  obtain ⟨e, he, hfe⟩ := mapE_mem hex he'
  exact hf e he e' hfe (hd.1 e he)

theorem mapExchangesE_key {f : Exchange → Except Err Exchange} {d d' : Dataset} (h : mapExchangesE f d = .ok d') :
    codeKey d' = codeKey d := by
  unfold mapExchangesE at h
  obtain ⟨ex, hex, h⟩ := bind_eq_ok.mp h
  cases h
  rfl

theorem filterE_subset {α : Type} {p : α → Except Err Bool} {l r : List α} (h : filterE p l = .ok r) : ∀ a ∈ r, a ∈ l := by
  induction l generalizing r with
  | nil => cases h; simp
  | cons a l ih =>
    obtain ⟨b, r', -, hr, rfl⟩ := filterE_cons_ok.mp h
    intro x hx
    cases b
    · exact List.mem_cons_of_mem _ (ih hr x hx)
    · rcases List.mem_cons.mp hx with rfl | hx
      · simp
      · exact List.mem_cons_of_mem _ (ih hr x hx)

theorem keeps_actualize : KeepsCodes q actualizeActivityLinks := by
  intro data out h
  apply keeps_of_forall₂
  refine (mapE_ok_iff.mp h).imp ?_
  intro d d' hd
  refine ⟨mapExchangesE_key hd, fun K hK hc => mapExchangesE_links hd ?_ hc.2⟩
  intro e _ e' he hec
  unfold actualizeLink at he
  split at he
  · cases he; exact hec
  · simp only at he
    split at he
    · cases he
    · obtain ⟨refs, hr, he⟩ := bind_eq_ok.mp he
      refine linkToOnly_code he ?_ hec
      intro x hx
      exact (hK x (List.mem_filter.mp (filterE_subset hr x hx)).1).code_in

theorem keeps_linkRecycled : KeepsCodes q linkRecycledContent := by
  intro data out h
  unfold linkRecycledContent at h
  obtain ⟨rc, hrc, h⟩ := bind_eq_ok.mp h
  apply keeps_of_forall₂
  refine (mapE_ok_iff.mp h).imp ?_
  intro d d' hd
  refine ⟨mapExchangesE_key hd, fun K hK hc => mapExchangesE_links hd ?_ hc.2⟩
  intro e _ e' he hec
  unfold linkRecycledInput at he
  split at he
  · refine linkToOnly_code he ?_ hec
    intro x hx
    exact (hK x (filterE_subset hrc x (List.mem_filter.mp hx).1)).code_in
  · cases he; exact hec

theorem supplierEntry_links {K : List String} {d : Dataset} {e : Exchange} (h : supplierEntry d = .ok e) (hd : Clean K d) :
    InCodes K e.code := by
  unfold supplierEntry at h
  obtain ⟨rp, -, h⟩ := bind_eq_ok.mp h
  cases h
  obtain ⟨⟨c, hc, hdc⟩, -⟩ := hd
  intro c' hc'
  simp only [annotateExchange, hdc, Option.orElse, Option.some.injEq] at hc'
  exact hc' ▸ hc

theorem suppliersOfGroup_links {K : List String} {T : Topology} {σ : Dataset → String → List String → List String} {consumer : Dataset}
    {location : Loc} {name : String} {group : List Dataset} {es : List Exchange}
    (h : suppliersOfGroup T σ consumer location name group = .ok es) (hg : CleanAll K group) : ∀ e ∈ es, InCodes K e.code := by
  unfold suppliersOfGroup at h
  obtain ⟨_, -, h⟩ := bind_eq_ok.mp h
  obtain ⟨row, -, h⟩ := bind_eq_ok.mp h
  obtain ⟨inside, -, h⟩ := bind_eq_ok.mp h
  intro e he
  obtain ⟨k, -, hk⟩ := mapE_mem h he
  obtain ⟨ds, hds, hk⟩ := bind_eq_ok.mp hk
  have hds := getKey_eq_ok.mp hds
  obtain ⟨l₁, l₂, hm, -, -⟩ := lookup_byLocation.mp hds
  exact supplierEntry_links hk (hg ds (by rw [hm]; simp))

theorem supplyConsumer_links {K : List String} {T : Topology} {σ : Dataset → String → List String → List String} {row : Finset ℕ}
    {suppliers : List Dataset} {d d' : Dataset} (h : supplyConsumer T σ row suppliers d = .ok d') :
    codeKey d' = codeKey d ∧ d'.refProduct = d.refProduct ∧ d'.type = d.type ∧ (CleanAll K suppliers → LinksIn K d → LinksIn K d') := by
  unfold supplyConsumer at h
  obtain ⟨new, hnew, h⟩ := bind_eq_ok.mp h
  cases h
  refine ⟨rfl, rfl, rfl, ?_⟩
  intro hs hd
  refine ⟨hd.1, ?_⟩
  intro l hl s hsl
  simp only [Option.some.injEq] at hl
  subst hl
  rcases List.mem_append.mp hsl with hsl | hsl
  · rcases hsup : d.suppliers with _ | l
    · rw [hsup] at hsl; cases hsl
    · rw [hsup] at hsl; exact hd.2 l hsup s hsl
  · obtain ⟨g, hg, es, hes, hse⟩ := flatMapE_mem hnew hsl
    refine suppliersOfGroup_links hes ?_ s hse
    intro x hx
    obtain ⟨k, grp⟩ := g
    have := groupBy_mem hg
    simp only at hx
    rw [this] at hx
    exact hs x (List.mem_filter.mp hx).1

theorem apportionPrep_ok {T : Topology} {p : Dataset → Bool} {consumers suppliers : List Dataset} {o : Option Apportion}
    (h : apportionPrep T p consumers suppliers = .ok o) : ∃ row, o = some ⟨p, row, suppliers⟩ := by
  unfold apportionPrep at h
  obtain ⟨_, -, h⟩ := bind_eq_ok.mp h
  obtain ⟨row, -, h⟩ := bind_eq_ok.mp h
  cases h
  exact ⟨row, rfl⟩

theorem apportionUpd_links {K : List String} {T : Topology} {σ : Dataset → String → List String → List String} {a : Option Apportion}
    {d d' : Dataset} (h : apportionUpd T σ a d = .ok d') :
    codeKey d' = codeKey d ∧ d'.refProduct = d.refProduct ∧ d'.type = d.type ∧
      ((∀ x, a = some x → CleanAll K x.suppliers) → LinksIn K d → LinksIn K d') := by
  unfold apportionUpd at h
  split at h
  · cases h; exact ⟨rfl, rfl, rfl, fun _ h => h⟩
  · next a =>
    split at h
    · obtain ⟨h1, h2, h3, h4⟩ := supplyConsumer_links (K := K) h
      exact ⟨h1, h2, h3, fun hx => h4 (hx a rfl)⟩
    · cases h; exact ⟨rfl, rfl, rfl, fun _ h => h⟩

theorem productIf_congr {p : Dataset → Bool} {d d' : Dataset} (hp : p d' = p d) (hr : d'.refProduct = d.refProduct) :
    productIf p d' = productIf p d := by unfold productIf; rw [hp, hr]

theorem keeps_addRecycled (T : Topology) (σ : Dataset → String → List String → List String) :
    KeepsCodes q (addRecycledContentSuppliers T σ) := by
  intro data out h
  unfold addRecycledContentSuppliers at h
  simp only at h
  obtain ⟨_, -, h⟩ := bind_eq_ok.mp h
  obtain ⟨rc, hrc, h⟩ := bind_eq_ok.mp h
  apply keeps_of_forall₂
  have h := groupLoop (by
    intro t d d' hu
    obtain ⟨-, h2, h3, -⟩ := apportionUpd_links (K := []) hu
    exact productIf_congr (by rw [h3]) h2) h
  refine h.imp ?_
  intro d d' hd
  split at hd
  · subst hd; exact ⟨rfl, fun K _ hc => hc.2⟩
  · obtain ⟨t, ht, hu⟩ := hd
    refine ⟨(apportionUpd_links (K := []) hu).1, fun K hK hc => (apportionUpd_links (K := K) hu).2.2.2 ?_ hc.2⟩
    intro x hx
    subst hx
    unfold recycledPrep at ht
    simp only at ht
    obtain ⟨_, -, ht⟩ := bind_eq_ok.mp ht
    split at ht
    · cases ht
    · obtain ⟨row, ht⟩ := apportionPrep_ok ht
      cases ht
      intro y hy
      unfold recycledContentDatasets at hrc
      exact hK y (filterE_subset hrc y (List.mem_filter.mp hy).1)

theorem addSuppliersPrep_suppliers {T : Topology} {from_ to_ : DsType} {l : List Dataset} {x : Apportion}
    (h : addSuppliersPrep T from_ to_ l = .ok (some x)) : ∀ y ∈ x.suppliers, y ∈ l := by
  unfold addSuppliersPrep at h
  simp only at h
  split at h
  · cases h
  · have : ∃ row, some x = some ⟨wantsSuppliers to_, row, l.filter fun ds => ds.type == from_⟩ := by
      split at h
      · obtain ⟨_, -, h⟩ := bind_eq_ok.mp h
        exact apportionPrep_ok h
      · exact apportionPrep_ok h
    obtain ⟨row, hx⟩ := this
    cases hx
    exact fun y hy => (List.mem_filter.mp hy).1

theorem keeps_addSuppliers (T : Topology) (σ : Dataset → String → List String → List String) (from_ to_ : DsType) :
    KeepsCodes q (addSuppliersToMarkets T σ from_ to_) := by
  intro data out h
  unfold addSuppliersToMarkets at h
  simp only at h
  obtain ⟨_, -, h⟩ := bind_eq_ok.mp h
  apply keeps_of_forall₂
  have h := groupLoop (by
    intro t d d' hu
    obtain ⟨-, h2, h3, -⟩ := apportionUpd_links (K := []) hu
    exact productIf_congr (by rw [h3]) h2) h
  refine h.imp ?_
  intro d d' hd
  split at hd
  · subst hd; exact ⟨rfl, fun K _ hc => hc.2⟩
  · obtain ⟨t, ht, hu⟩ := hd
    refine ⟨(apportionUpd_links (K := []) hu).1, fun K hK hc => (apportionUpd_links (K := K) hu).2.2.2 ?_ hc.2⟩
    intro x hx
    subst hx
    intro y hy
    exact hK y (List.mem_filter.mp (addSuppliersPrep_suppliers ht y hy)).1

theorem updateMarketVolume_links {d d' : Dataset} (h : updateMarketVolume d = .ok d') :
    codeKey d' = codeKey d ∧ d'.suppliers = d.suppliers ∧ ∀ K, LinksIn K d → LinksIn K d' := by
  unfold updateMarketVolume at h
  obtain ⟨rp, -, h⟩ := bind_eq_ok.mp h
  obtain ⟨sup, -, h⟩ := bind_eq_ok.mp h
  obtain ⟨orig, -, h⟩ := bind_eq_ok.mp h
  obtain ⟨_, -, h⟩ := bind_eq_ok.mp h
  obtain ⟨vols, -, h⟩ := bind_eq_ok.mp h
  cases h
  refine ⟨rfl, rfl, fun K hd => ⟨?_, hd.2⟩⟩
  intro e he
  simp only [List.mem_map] at he
  obtain ⟨a, ha, rfl⟩ := he
  have : (mapRefVolume (setMarketVolume orig.sum vols.sum) a).code = a.code := by unfold mapRefVolume; split <;> rfl
  rw [this]
  exact hd.1 a ha

theorem propagateTo_links {members : List ℕ} {ds : Dataset} {v : ℚ} {p : Dataset × ℕ} {d' : Dataset}
    (h : propagateTo members ds v p = .ok d') : codeKey d' = codeKey p.1 ∧ ∀ K, LinksIn K p.1 → LinksIn K d' := by
  unfold propagateTo at h
  split at h
  · obtain ⟨sup, hs, h⟩ := bind_eq_ok.mp h
    obtain ⟨sup', hs', h⟩ := bind_eq_ok.mp h
    cases h
    refine ⟨rfl, fun K hd => ⟨hd.1, ?_⟩⟩
    intro l hl s hsl
    simp only [Option.some.injEq] at hl
    subst hl
    obtain ⟨s0, hs0, hp⟩ := mapE_mem hs' hsl
    unfold propagateVolume at hp
    obtain ⟨c, -, hp⟩ := bind_eq_ok.mp hp
    obtain ⟨c', -, hp⟩ := bind_eq_ok.mp hp
    have : s.code = s0.code := by
      simp only [epure, Except.ok.injEq] at hp
      rw [← hp]
      split <;> rfl
    rw [this]
    exact hd.2 sup (getKey_eq_ok.mp hs) s0 hs0
  · cases h; exact ⟨rfl, fun K h => h⟩

theorem forall₂_set {α : Type} {R : α → α → Prop} (hr : ∀ a, R a a) {l : List α} {i : ℕ} {a b : α} (hi : l[i]? = some a) (hab : R a b) :
    List.Forall₂ R l (l.set i b) := by
  induction l generalizing i with
  | nil => simp at hi
  | cons x l ih =>
    cases i with
    | zero =>
      simp only [List.getElem?_cons_zero, Option.some.injEq] at hi
      subst hi
      exact .cons hab (List.forall₂_same.mpr fun a _ => hr a)
    | succ i => exact .cons (hr x) (ih (by simpa using hi))

theorem keeps_updateVolumes (T : Topology) (kind : DsType) : KeepsCodes q (updateMarketProductionVolumes T kind) := by
  intro data out h
  apply keeps_of_forall₂
  suffices hh : List.Forall₂ (fun d d' => codeKey d' = codeKey d ∧ ∀ K, LinksIn K d → LinksIn K d') data out from
    hh.imp fun d d' h => ⟨h.1, fun K _ hc => h.2 K hc.2⟩
  unfold updateMarketProductionVolumes at h
  split at h
  · obtain ⟨order, -, h⟩ := bind_eq_ok.mp h
    refine foldE_inv (I := fun _ st => List.Forall₂ (fun d d' => codeKey d' = codeKey d ∧ ∀ K, LinksIn K d → LinksIn K d') data st) h
      (List.forall₂_same.mpr fun d _ => ⟨rfl, fun _ h => h⟩) ?_
    intro pre i st st' _ hI hs
    refine forall₂_trans' (S := fun d d' => codeKey d' = codeKey d ∧ ∀ K, LinksIn K d → LinksIn K d') hI ?_
      fun a b c hab hbc => ⟨hbc.1.trans hab.1, fun K h => hbc.2 K (hab.2 K h)⟩
    unfold updateGroupStep at hs
    split at hs
    · cases hs; exact List.forall₂_same.mpr fun d _ => ⟨rfl, fun _ h => h⟩
    · next ds hds =>
      obtain ⟨ds', hds', hs⟩ := bind_eq_ok.mp hs
      have hu := updateMarketVolume_links hds'
      refine forall₂_trans' (forall₂_set (R := fun d d' => codeKey d' = codeKey d ∧ ∀ K, LinksIn K d → LinksIn K d')
        (fun d => ⟨rfl, fun _ h => h⟩) hds ⟨hu.1, hu.2.2⟩) (S := fun d d' => codeKey d' = codeKey d ∧ ∀ K, LinksIn K d → LinksIn K d') ?_
        fun a b c hab hbc => ⟨hbc.1.trans hab.1, fun K h => hbc.2 K (hab.2 K h)⟩
      have := mapE_ok_iff.mp hs
      have h2 : List.Forall₂ (fun (p : Dataset × ℕ) d' => codeKey d' = codeKey p.1 ∧ ∀ K, LinksIn K p.1 → LinksIn K d') (st.set i ds').zipIdx st' :=
        this.imp fun p d' hp => propagateTo_links hp
      have h3 := List.forall₂_map_left_iff (f := Prod.fst) (R := fun d d' => codeKey d' = codeKey d ∧ ∀ K, LinksIn K d → LinksIn K d')
        (l := (st.set i ds').zipIdx) (u := st')
      rw [List.zipIdx_map_fst] at h3
      exact h3.mpr h2
  · refine (mapE_ok_iff.mp h).imp ?_
    intro d d' hd
    split at hd
    · have hu := updateMarketVolume_links hd
      exact ⟨hu.1, hu.2.2⟩
    · cases hd; exact ⟨rfl, fun _ h => h⟩

theorem keeps_deleteGlobal (kind : DsType) : KeepsCodes (· ≠ "RoW") (deleteGlobalZeroPv kind) := by
  intro data out h
  have he := C51_exact kind data out h
  subst he
  refine ⟨List.Sublist.map _ List.filter_sublist, ?_, fun K hK d hd => hK d (List.mem_filter.mp hd).1⟩
  intro p hp hr
  obtain ⟨d, hd, rfl⟩ := List.mem_map.mp hp
  refine List.mem_map.mpr ⟨d, List.mem_filter.mpr ⟨hd, ?_⟩, rfl⟩
  simp only [decide_eq_true_eq]
  intro hs
  exact hr hs.2.1

theorem marketInput_links {K : List String} {a t : ℚ} {s : Exchange} {r : List Exchange} (h : marketInput a t s = .ok r)
    (hs : InCodes K s.code) : ∀ e ∈ r, InCodes K e.code := by
  unfold marketInput at h
  obtain ⟨p, -, h⟩ := bind_eq_ok.mp h
  simp only at h
  split at h
  · cases h; simp
  · obtain ⟨c, hc, h⟩ := bind_eq_ok.mp h
    obtain ⟨_, -, h⟩ := bind_eq_ok.mp h
    cases h
    intro e he
    simp only [List.mem_singleton] at he
    subst he
    intro c' hc'
    simp only [Option.some.injEq] at hc'
    exact hs c' (hc' ▸ getKey_eq_ok.mp hc)

theorem allocateSuppliers_links {d d' : Dataset} (h : allocateSuppliers d = .ok d') :
    codeKey d' = codeKey d ∧ ∀ K, LinksIn K d → LinksIn K d' := by
  unfold allocateSuppliers at h
  obtain ⟨exc, -, h⟩ := bind_eq_ok.mp h
  obtain ⟨sup, hsup, h⟩ := bind_eq_ok.mp h
  have hsup := getKey_eq_ok.mp hsup
  obtain ⟨vols, -, h⟩ := bind_eq_ok.mp h
  have hnew : ∀ {K : List String} {t : ℚ} {l new : List Exchange}, flatMapE (marketInput exc.amount t) l = .ok new →
      (∀ s ∈ l, InCodes K s.code) → ∀ e ∈ new, InCodes K e.code := by
    intro K t l new hn hl e he
    obtain ⟨s, hs, r, hr, her⟩ := flatMapE_mem hn he
    exact marketInput_links hr (hl s hs) e her
  split at h
  · split at h
    · cases h; exact ⟨rfl, fun _ h => h⟩
    · obtain ⟨_, -, h⟩ := bind_eq_ok.mp h
      obtain ⟨_, -, h⟩ := bind_eq_ok.mp h
      simp only at h
      obtain ⟨new, hn, h⟩ := bind_eq_ok.mp h
      cases h
      refine ⟨rfl, fun K hd => ?_⟩
      have hs' : ∀ s ∈ sup.map defaultVolume, InCodes K s.code := by
        intro s hs
        obtain ⟨s0, hs0, rfl⟩ := List.mem_map.mp hs
        exact hd.2 sup hsup s0 hs0
      refine ⟨?_, ?_⟩
      · intro e he
        rcases List.mem_append.mp he with he | he
        · exact hd.1 e he
        · exact hnew hn hs' e he
      · intro l hl
        simp only [Option.some.injEq] at hl
        subst hl
        exact hs'
  · obtain ⟨new, hn, h⟩ := bind_eq_ok.mp h
    cases h
    refine ⟨rfl, fun K hd => ⟨?_, hd.2⟩⟩
    intro e he
    rcases List.mem_append.mp he with he | he
    · exact hd.1 e he
    · exact hnew hn (hd.2 sup hsup) e he

/-- Functions that treat every dataset by itself. -/
theorem keeps_of_mapE {g : Dataset → Except Err Dataset}
    (hg : ∀ d d', g d = .ok d' → codeKey d' = codeKey d ∧ ∀ K, Clean K d → LinksIn K d') : KeepsCodes q (mapE g) := by
  intro data out h
  apply keeps_of_forall₂
  exact (mapE_ok_iff.mp h).imp fun d d' hd => ⟨(hg d d' hd).1, fun K _ hc => (hg d d' hd).2 K hc⟩

theorem keeps_allocateAll (kind : DsType) : KeepsCodes q (allocateAllMarketSuppliers kind) := by
  refine keeps_of_mapE ?_
  intro d d' hd
  split at hd
  · have := allocateSuppliers_links hd
    exact ⟨this.1, fun K hc => this.2 K hc.2⟩
  · cases hd; exact ⟨rfl, fun K hc => hc.2⟩

theorem placesOf_mem {kind : DsType} {r : String} {data : List Dataset} {l : List (String × Dataset)} (h : placesOf kind r data = .ok l)
    {s : String} {d : Dataset} (hd : l.lookup s = some d) : d ∈ data := by
  unfold placesOf at h
  obtain ⟨m, hm, h⟩ := bind_eq_ok.mp h
  cases h
  obtain ⟨l₁, l₂, he, -, -⟩ := lookup_byLocation.mp hd
  have hdm : d ∈ (m.filter fun p => p.1 == r).map (·.2) := by rw [he]; simp
  obtain ⟨p, hp, rfl⟩ := List.mem_map.mp hdm
  obtain ⟨d0, hd0, hw⟩ := mapE_mem hm (List.mem_filter.mp hp).1
  unfold withRefProduct at hw
  obtain ⟨_, -, hw⟩ := bind_eq_ok.mp hw
  cases hw
  exact (List.mem_filter.mp hd0).1

theorem linkMarketGroup_links {T : Topology} {data : List Dataset} {r : String} {d d' : Dataset} (h : linkMarketGroup T data r d = .ok d') :
    codeKey d' = codeKey d ∧ ∀ K, CleanAll K data → LinksIn K d → LinksIn K d' := by
  unfold linkMarketGroup at h
  obtain ⟨markets, hm, h⟩ := bind_eq_ok.mp h
  obtain ⟨groups, hg, h⟩ := bind_eq_ok.mp h
  obtain ⟨row, -, h⟩ := bind_eq_ok.mp h
  obtain ⟨ordered, -, h⟩ := bind_eq_ok.mp h
  obtain ⟨found, -, h⟩ := bind_eq_ok.mp h
  obtain ⟨chosen, hch, h⟩ := bind_eq_ok.mp h
  obtain ⟨entries, hent, h⟩ := bind_eq_ok.mp h
  cases h
  refine ⟨rfl, fun K hK hd => ⟨hd.1, ?_⟩⟩
  have hchosen : ∀ x ∈ chosen, x ∈ data := by
    intro x hx
    obtain ⟨s, -, hs⟩ := mapE_mem hch hx
    unfold candidateAt at hs
    split at hs
    · exact placesOf_mem hm (getKey_eq_ok.mp hs)
    · exact placesOf_mem hg (getKey_eq_ok.mp hs)
  intro l hl s hs
  simp only at hl
  split at hl
  · cases hl
  · simp only [Option.some.injEq] at hl
    subst hl
    unfold groupEntries at hent
    obtain ⟨keyed, hk, hent⟩ := bind_eq_ok.mp hent
    obtain ⟨p, hp, hpe⟩ := mapE_mem hent hs
    rw [List.mem_insertionSort] at hp
    obtain ⟨x, hx, hw⟩ := mapE_mem hk hp
    unfold withCode at hw
    obtain ⟨c, -, hw⟩ := bind_eq_ok.mp hw
    cases hw
    exact supplierEntry_links hpe (hK _ (hchosen _ hx))

theorem keeps_linkGroups (T : Topology) : KeepsCodes q (linkMarketGroupSuppliers T) := by
  intro data out h
  unfold linkMarketGroupSuppliers at h
  obtain ⟨_, -, h⟩ := bind_eq_ok.mp h
  apply keeps_of_forall₂
  have h3 := List.forall₂_map_left_iff (f := Prod.fst) (R := fun d d' => codeKey d' = codeKey d ∧ ∀ K, CleanAll K data → Clean K d → LinksIn K d')
    (l := data.zipIdx) (u := out)
  rw [List.zipIdx_map_fst] at h3
  refine h3.mpr ((mapE_ok_iff.mp h).imp ?_)
  intro p d' hp
  split at hp
  · obtain ⟨r, -, hp⟩ := bind_eq_ok.mp hp
    have := linkMarketGroup_links hp
    exact ⟨this.1, fun K hK hc => this.2 K hK hc.2⟩
  · cases hp; exact ⟨rfl, fun K _ hc => hc.2⟩

theorem chooseMarkets_mem {T : Topology} {loc : String} {crow : Option (Finset ℕ)} {candidates chosen : List Dataset}
    (h : chooseMarkets T loc crow candidates = .ok chosen) : ∀ d ∈ chosen, d ∈ candidates := by
  unfold chooseMarkets at h
  simp only at h
  obtain ⟨srow, -, h⟩ := bind_eq_ok.mp h
  obtain ⟨ordered, -, h⟩ := bind_eq_ok.mp h
  obtain ⟨found, -, h⟩ := bind_eq_ok.mp h
  obtain ⟨found', -, h⟩ := bind_eq_ok.mp h
  intro d hd
  obtain ⟨s, -, hs⟩ := mapE_mem h hd
  have hl : ∀ {p : Dataset → Bool}, (byLocation (candidates.filter p)).lookup s = some d → d ∈ candidates := by
    intro p hp
    obtain ⟨l₁, l₂, he, -, -⟩ := lookup_byLocation.mp hp
    have : d ∈ candidates.filter p := by rw [he]; simp
    exact (List.mem_filter.mp this).1
  unfold candidateAt at hs
  split at hs
  · exact hl (getKey_eq_ok.mp hs)
  · exact hl (getKey_eq_ok.mp hs)

theorem candidatesFor_mem {data : List Dataset} {prev : Option (List Dataset)} {name : String} {l : List Dataset}
    (h : candidatesFor data prev name = .ok l) (hp : ∀ m, prev = some m → ∀ d ∈ m, d ∈ data) : ∀ d ∈ l, d ∈ data := by
  unfold candidatesFor at h
  split at h
  · cases h
    intro d hd
    exact (List.mem_filter.mp hd).1
  · split at h
    · split at h
      · cases h; exact hp _ rfl
      · cases h
    · cases h

theorem inputShare_links {K : List String} {M : MathEnv} {e s : Exchange} {t : ℚ} {r : List Exchange} (h : inputShare M e t s = .ok r)
    (hs : InCodes K s.code) : ∀ x ∈ r, InCodes K x.code := by
  unfold inputShare at h
  obtain ⟨p, -, h⟩ := bind_eq_ok.mp h
  simp only at h
  split at h
  · cases h; simp
  · obtain ⟨new, -, h⟩ := bind_eq_ok.mp h
    obtain ⟨c, hc, h⟩ := bind_eq_ok.mp h
    obtain ⟨_, -, h⟩ := bind_eq_ok.mp h
    cases h
    intro x hx
    simp only [List.mem_singleton] at hx
    subst hx
    intro c' hc'
    simp only [Option.some.injEq] at hc'
    exact hs c' (hc' ▸ getKey_eq_ok.mp hc)

theorem consumerEntry_links {K : List String} {e : Exchange} {d : Dataset} (hd : Clean K d) : InCodes K (consumerEntry e d).code := by
  obtain ⟨⟨c, hc, hdc⟩, -⟩ := hd
  intro c' hc'
  simp only [consumerEntry, annotateExchange, hdc, Option.orElse, Option.some.injEq] at hc'
  exact hc' ▸ hc

/-- The state while linking a consumer. -/
structure StateIn (K : List String) (data : List Dataset) (sup : Option (List Exchange)) (st : LinkState) : Prop where
  candidates : ∀ m, st.candidates = some m → ∀ d ∈ m, d ∈ data
  exchanges : CleanAll K data → ∀ p ∈ st.exchanges, InCodes K p.2.code
  suppliers : st.suppliers = sup ∨ st.suppliers = none

theorem useMarkets_links {K : List String} {M : MathEnv} {data : List Dataset} {sup : Option (List Exchange)} {st st' : LinkState} {e : Exchange}
    {i : ℕ} {chosen : List Dataset} (h : useMarkets M st e i chosen = .ok st') (hc : ∀ d ∈ chosen, d ∈ data) (hst : StateIn K data sup st) :
    StateIn K data sup st' := by
  unfold useMarkets at h
  split at h
  · cases h; exact ⟨hst.candidates, hst.exchanges, Or.inr rfl⟩
  · next obj =>
    obtain ⟨c, hcc, h⟩ := bind_eq_ok.mp h
    cases h
    refine ⟨hst.candidates, fun hK p hp => ?_, hst.suppliers⟩
    obtain ⟨q, hq, rfl⟩ := List.mem_map.mp hp
    unfold setCodeAt
    split
    · intro c' hc'
      simp only [Option.some.injEq] at hc'
      exact (hK obj (hc obj (by simp))).code_in c' (hc' ▸ getKey_eq_ok.mp hcc)
    · exact hst.exchanges hK q hq
  · next hx x y l =>
    obtain ⟨ex, hex, h⟩ := bind_eq_ok.mp h
    cases h
    refine ⟨hst.candidates, fun hK p hp => ?_, Or.inr rfl⟩
    unfold splitInput at hex
    obtain ⟨vols, -, hex⟩ := bind_eq_ok.mp hex
    split at hex
    · cases hex; exact hst.exchanges hK p hp
    · obtain ⟨new, hnew, hex⟩ := bind_eq_ok.mp hex
      cases hex
      rcases List.mem_append.mp (List.mem_filter.mp hp).1 with hp | hp
      · exact hst.exchanges hK p hp
      · obtain ⟨n, hn, rfl⟩ := List.mem_map.mp hp
        obtain ⟨s, hs, r, hr, hnr⟩ := flatMapE_mem hnew hn
        obtain ⟨d, hd, rfl⟩ := List.mem_map.mp hs
        exact inputShare_links hr (consumerEntry_links (hK d (hc d hd))) n hnr

theorem linkConsumer_links {K : List String} {M : MathEnv} {T : Topology} {data : List Dataset} {cand cand' : Option (List Dataset)} {d d' : Dataset}
    (h : linkConsumer M T data cand d = .ok (cand', d')) (hcand : ∀ m, cand = some m → ∀ x ∈ m, x ∈ data) :
    (∀ m, cand' = some m → ∀ x ∈ m, x ∈ data) ∧ codeKey d' = codeKey d ∧ (CleanAll K data → LinksIn K d → LinksIn K d') := by
  unfold linkConsumer at h
  split at h
  · cases h; exact ⟨hcand, rfl, fun _ h => h⟩
  · obtain ⟨crow, -, h⟩ := bind_eq_ok.mp h
    obtain ⟨st, hst, h⟩ := bind_eq_ok.mp h
    cases h
    have key : LinksIn K d → StateIn K data d.suppliers st := by
      intro hd
      refine foldE_inv (I := fun _ s => StateIn K data d.suppliers s) hst ⟨hcand, fun _ p hp => ?_, Or.inl rfl⟩ ?_
      · obtain ⟨q, hq, rfl⟩ := List.mem_map.mp hp
        exact hd.1 q.1 (List.fst_mem_of_mem_zipIdx hq)
      · intro pre p s s' _ hs hstep
        unfold linkInput at hstep
        obtain ⟨cs, hcs, hstep⟩ := bind_eq_ok.mp hstep
        obtain ⟨chosen, hchosen, hstep⟩ := bind_eq_ok.mp hstep
        have hcm := candidatesFor_mem hcs hs.candidates
        refine useMarkets_links hstep (fun x hx => hcm x (chooseMarkets_mem hchosen x hx)) ⟨?_, hs.exchanges, hs.suppliers⟩
        intro m hm
        simp only [Option.some.injEq] at hm
        subst hm
        exact hcm
    have hc2 : ∀ m, st.candidates = some m → ∀ x ∈ m, x ∈ data := by
      refine foldE_inv (I := fun _ (s : LinkState) => ∀ m, s.candidates = some m → ∀ x ∈ m, x ∈ data) hst hcand ?_
      intro pre p s s' _ hs hstep
      unfold linkInput at hstep
      obtain ⟨cs, hcs, hstep⟩ := bind_eq_ok.mp hstep
      obtain ⟨chosen, -, hstep⟩ := bind_eq_ok.mp hstep
      have hcm := candidatesFor_mem hcs hs
      have : s'.candidates = some cs := by
        unfold useMarkets at hstep
        split at hstep
        · cases hstep; rfl
        · obtain ⟨c, -, hstep⟩ := bind_eq_ok.mp hstep
          cases hstep; rfl
        · obtain ⟨c, -, hstep⟩ := bind_eq_ok.mp hstep
          cases hstep; rfl
      intro m hm
      rw [this] at hm
      cases hm
      exact hcm
    refine ⟨hc2, rfl, fun hK hd => ?_⟩
    have hs := key hd
    refine ⟨?_, ?_⟩
    · intro e he
      obtain ⟨p, hp, rfl⟩ := List.mem_map.mp he
      exact hs.exchanges hK p hp
    · intro l hl
      rcases hs.suppliers with h | h
      · exact hd.2 l (h ▸ hl)
      · simp only at hl
        rw [h] at hl; cases hl

theorem keeps_linkConsumers (M : MathEnv) (T : Topology) : KeepsCodes q (linkConsumersToMarkets M T) := by
  intro data out h
  unfold linkConsumersToMarkets at h
  obtain ⟨_, -, h⟩ := bind_eq_ok.mp h
  apply keeps_of_forall₂
  have main : ∀ (l : List Dataset) (cand : Option (List Dataset)) (r : List Dataset), (∀ m, cand = some m → ∀ x ∈ m, x ∈ data) →
      scanE (linkConsumer M T data) cand l = .ok r →
      List.Forall₂ (fun d d' => codeKey d' = codeKey d ∧ ∀ K, CleanAll K data → Clean K d → LinksIn K d') l r := by
    intro l
    induction l with
    | nil => intro cand r _ hs; cases hs; exact .nil
    | cons d l ih =>
      intro cand r hc hs
      unfold scanE at hs
      obtain ⟨p, hp, hs⟩ := bind_eq_ok.mp hs
      obtain ⟨r', hr, hs⟩ := bind_eq_ok.mp hs
      cases hs
      obtain ⟨c', d'⟩ := p
      refine .cons ⟨(linkConsumer_links (K := []) hp hc).2.1, fun K hK hd => (linkConsumer_links (K := K) hp hc).2.2 hK hd.2⟩ ?_
      exact ih c' r' (linkConsumer_links (K := []) hp hc).1 hr
  exact main data none out (by simp) h

theorem keeps_refCodes : KeepsCodes q addReferenceProductCodes := by
  refine keeps_of_mapE ?_
  intro d d' h
  unfold addReferenceProductCode at h
  split at h
  · cases h
  · next c hc =>
    obtain ⟨_, -, h⟩ := bind_eq_ok.mp h
    cases h
    refine ⟨rfl, fun K hd => ⟨?_, hd.2.2⟩⟩
    intro e he
    obtain ⟨a, ha, rfl⟩ := List.mem_map.mp he
    split
    · intro c' hc'
      simp only [Option.some.injEq] at hc'
      exact hd.code_in c' (hc' ▸ hc)
    · exact hd.2.1 a ha

/-- Functions that treat every dataset by itself and never fail. -/
theorem keeps_of_map {g : Dataset → Dataset} (hg : ∀ d, codeKey (g d) = codeKey d ∧ ∀ K, Clean K d → LinksIn K (g d)) :
    KeepsCodes q (fun data => .ok (data.map g)) := by
  intro data out h
  have h' : mapE (fun d => .ok (g d)) data = .ok out := by rw [mapE_pure]; exact h
  refine keeps_of_mapE (g := fun d => .ok (g d)) ?_ data out h'
  intro d d' hd
  cases hd
  exact hg d

theorem keeps_logAndDelete : KeepsCodes q (fun d => .ok (logAndDeleteUnlinked d)) := by
  refine keeps_of_map fun d => ⟨rfl, fun K hd => ⟨?_, hd.2.2⟩⟩
  intro e he
  exact hd.2.1 e (List.mem_filter.mp he).1

theorem keeps_deleteSuppliers : KeepsCodes q (fun d => .ok (deleteSuppliersList d)) := by
  refine keeps_of_map fun d => ⟨rfl, fun K hd => ⟨hd.2.1, ?_⟩⟩
  intro l hl
  cases hl

theorem keeps_rename : KeepsCodes q (fun d => .ok (renameRecycledContentAfterLinking d)) := by
  refine keeps_of_map fun d => ⟨rfl, fun K hd => ⟨?_, hd.2.2⟩⟩
  intro e he
  simp only [List.mem_map] at he
  obtain ⟨a, ha, rfl⟩ := he
  exact hd.2.1 a ha

theorem keeps_flip : KeepsCodes q flipNonAllocatableByproducts := by
  refine keeps_of_mapE ?_
  intro d d' h
  obtain ⟨ex, hex, rfl⟩ := flip_one h
  refine ⟨rfl, fun K hd => ⟨?_, hd.2.2⟩⟩
  intro e he
  obtain ⟨a, ha, hae⟩ := mapE_mem hex he
  have := hd.2.1 a ha
  rcases flipExchange_inv hae with ⟨_, rfl⟩ | ⟨_, rfl, _⟩ <;> exact this

theorem Spec.ScaledBy.code {f : ℚ} {e e' : Exchange} (h : ScaledBy f e e') : e'.code = e.code := by rw [h]

theorem normalize_links {M : MathEnv} {d d' : Dataset} (h : normalize M d = .ok d') :
    codeKey d' = codeKey d ∧ ∀ K, Clean K d → LinksIn K d' := by
  obtain ⟨rp, n, -, -, -, hd, hs, -⟩ := C10_normalize_result M d d' h
  refine ⟨by rw [hd]; rfl, fun K hc => ⟨?_, ?_⟩⟩
  · intro e he
    obtain ⟨a, ha, hae⟩ := forall₂_mem_right hs he
    rw [hae.code]
    exact hc.2.1 a ha
  · rw [hd]; exact hc.2.2

theorem wrapNormalize_eq (M : MathEnv) (data : List Dataset) : wrapAll (normalizeList M) data = mapE (normalize M) data := by
  unfold wrapAll
  induction data with
  | nil => rfl
  | cons d l ih =>
    simp only [flatMapE, mapE, ih, normalizeList]
    cases normalize M d <;> simp

theorem keeps_normalize (M : MathEnv) : KeepsCodes q (wrapAll (normalizeList M)) := by
  have : wrapAll (normalizeList M) = mapE (normalize M) := funext (wrapNormalize_eq M)
  rw [this]
  exact keeps_of_mapE fun d d' h => normalize_links h

theorem keeps_signs (M : MathEnv) : KeepsCodes q (adjustMarketSignsAll M) := by
  refine keeps_of_mapE ?_
  intro d d' h
  obtain ⟨-, -, hd, hs⟩ := C22_market_signs M d d' h
  refine ⟨by rw [hd]; rfl, fun K hc => ⟨?_, ?_⟩⟩
  · intro e he
    obtain ⟨a, ha, hae⟩ := forall₂_mem_right hs he
    rcases hae with hae | hae <;> (rw [hae.code]; exact hc.2.1 a ha)
  · rw [hd]; exact hc.2.2

theorem keeps_prune : KeepsCodes q pruneByTechnologyLevel := by
  refine keeps_of_mapE ?_
  intro d d' h
  unfold pruneSuppliers at h
  split at h
  · obtain ⟨best, hb, h⟩ := bind_eq_ok.mp h
    cases h
    refine ⟨rfl, fun K hd => ⟨hd.2.1, ?_⟩⟩
    intro l hl s hs
    simp only [Option.some.injEq] at hl
    subst hl
    have main : ∀ (levels : List String) (r : List Exchange), bestSuppliers (d.suppliers.getD []) levels = .ok r → ∀ s ∈ r, s ∈ d.suppliers.getD [] := by
      intro levels
      induction levels with
      | nil => intro r hr; cases hr
      | cons lv rest ih =>
        intro r hr
        unfold bestSuppliers at hr
        obtain ⟨found, hf, hr⟩ := bind_eq_ok.mp hr
        split at hr
        · exact ih r hr
        · cases hr
          exact filterE_subset hf
    have := main _ _ hb s hs
    rcases hsup : d.suppliers with _ | l
    · rw [hsup] at this; cases this
    · rw [hsup] at this; exact hd.2.2 l hsup s this
  · cases h; exact ⟨rfl, fun K hd => hd.2⟩

end Ocelot
