import Verif.Proofs.ProgressScale
import Verif.Proofs.PipelineFlows
import Verif.Proofs.OrderTopology

/-! # The functions after `add_unique_codes` succeed -/

namespace Ocelot
open Spec

namespace Progress

variable {b : Bool}

/-- A supplier entry that can be used: production volume, location and a code that is not empty. -/
def Ready (s : Exchange) : Prop := Usable s ∧ s.code.getD "" ≠ ""

/-- What every single dataset needs. -/
structure Fine (b : Bool) (S : String → Prop) (d : Dataset) : Prop where
  ref : ∃ r, refs d = [r] ∧ r.pv.isSome ∧ r.amount ≠ 0 ∧ d.refProduct = some r.name ∧ (d.type = .market → r.cls ≠ none)
  classified : Classified d
  steady : ∀ e ∈ d.exchanges, Steady e.toNumObj ∧ (e.type = .byproduct → Bendable b e.toNumObj)
  code : ∃ c, d.code = some c ∧ c ≠ ""
  sold : d.type ≠ .marketGroup → ∀ e ∈ d.exchanges, isUnlinked e = true → S e.name
  sup : ∀ l, d.suppliers = some l → ∀ s ∈ l, Ready s

structure Inv (b : Bool) (T : Topology) (data : List Dataset) : Prop where
  db : Db T (data.map sig)
  fine : ∀ d ∈ data, Fine b (Sold (data.map sig)) d

/-- An exchange of which at most production volume and code change. -/
structure Touch (e e' : Exchange) : Prop where
  num : e'.toNumObj = e.toNumObj
  type : e'.type = e.type
  name : e'.name = e.name
  cls : e'.cls = e.cls
  pv : e.pv.isSome → e'.pv.isSome
  code : e'.code = e.code ∨ e'.code.getD "" ≠ ""

theorem Touch.refl (e : Exchange) : Touch e e := ⟨rfl, rfl, rfl, rfl, id, .inl rfl⟩

theorem touches_refl (l : List Exchange) : List.Forall₂ Touch l l := List.forall₂_same.mpr fun e _ => .refl e

theorem Touch.unlinked {e e' : Exchange} (h : Touch e e') (hu : isUnlinked e' = true) : isUnlinked e = true := by
  unfold isUnlinked at hu ⊢
  rw [Bool.and_eq_true] at hu ⊢
  rw [← h.type]
  refine ⟨hu.1, ?_⟩
  rcases h.code with hc | hc
  · rw [← hc]; exact hu.2
  · exact absurd (by simpa using hu.2) hc

theorem Fine.product {S : String → Prop} {d : Dataset} (h : Fine b S d) : d.refProduct.isSome := by
  obtain ⟨r, -, -, -, h, -⟩ := h.ref
  rw [h]; rfl

theorem Fine.touch {S : String → Prop} {d : Dataset} {ex : List Exchange} {sup : Option (List Exchange)} (h : Fine b S d)
    (hex : List.Forall₂ Touch d.exchanges ex) (hsup : ∀ l, sup = some l → ∀ s ∈ l, Ready s) : Fine b S { d with exchanges := ex, suppliers := sup } := by
  have hmem : ∀ e' ∈ ex, ∃ e ∈ d.exchanges, Touch e e' := fun e' he' => forall₂_mem_right hex he'
  have hrefs : List.Forall₂ Touch (refs d) (refs { d with exchanges := ex, suppliers := sup }) :=
    forall₂_filter_rel hex fun a b hab => by rw [hab.type]
  obtain ⟨r, hr, hpv, ham, hp, hcl⟩ := h.ref
  rw [hr] at hrefs
  obtain ⟨r', hr'⟩ : ∃ r', refs { d with exchanges := ex, suppliers := sup } = [r'] ∧ Touch r r' := by
    rcases hx : refs { d with exchanges := ex, suppliers := sup } with _ | ⟨a, _ | ⟨b, l⟩⟩
    · rw [hx] at hrefs; cases hrefs
    · rw [hx] at hrefs
      cases hrefs with
      | cons hab _ => exact ⟨a, rfl, hab⟩
    · rw [hx] at hrefs
      cases hrefs with
      | cons _ h => cases h
  refine ⟨⟨r', hr'.1, hr'.2.pv hpv, ?_, ?_, ?_⟩, ?_, ?_, h.code, ?_, hsup⟩
  · have := congrArg NumObj.amount hr'.2.num
    rw [this]; exact ham
  · rw [hr'.2.name]; exact hp
  · rw [hr'.2.cls]; exact hcl
  · intro e' he' ht
    obtain ⟨e, he, hab⟩ := hmem e' he'
    rw [hab.cls]
    exact h.classified e he (hab.type ▸ ht)
  · intro e' he'
    obtain ⟨e, he, hab⟩ := hmem e' he'
    rw [hab.num, hab.type]
    exact h.steady e he
  · intro hg e' he' hu
    obtain ⟨e, he, hab⟩ := hmem e' he'
    rw [hab.name]
    exact h.sold hg e he (hab.unlinked hu)

/-- One dataset of a step: the signature, code and id stay, and what it needs stays. -/
structure Next (d d' : Dataset) : Prop where
  sig : sig d' = sig d
  product : d'.refProduct = d.refProduct
  id : d'.id = d.id
  fine : ∀ b S, Fine b S d → Fine b S d'

theorem Next.refl (d : Dataset) : Next d d := ⟨rfl, rfl, rfl, fun _ _ h => h⟩

theorem Inv.next {T : Topology} {data out : List Dataset} (h : Inv b T data) (hn : List.Forall₂ (fun d d' => Fine b (Sold (data.map Progress.sig)) d → Next d d') data out) : Inv b T out := by
  have hn' : List.Forall₂ Next data out := by
    refine (forall₂_with_mem hn).imp ?_
    intro a b hab
    exact hab.2 (h.fine a hab.1)
  have he : out.map Progress.sig = data.map Progress.sig := (forall₂_map_eq' hn' fun a b hab => hab.sig.symm).symm
  refine ⟨he ▸ h.db, ?_⟩
  rw [he]
  intro d' hd'
  obtain ⟨d, hd, hab⟩ := forall₂_mem_right hn' hd'
  exact hab.fine _ _ (h.fine d hd)

/-! ## Hard links -/

theorem linkToOnly_touch {e e' : Exchange} {l : List Dataset} (h : linkToOnly e l = .ok e') (hl : ∀ d ∈ l, ∃ c, d.code = some c ∧ c ≠ "") : Touch e e' := by
  unfold linkToOnly at h
  split at h
  · next found =>
    obtain ⟨c, hc, hne⟩ := hl found (by simp)
    rw [hc] at h
    cases h
    exact ⟨rfl, rfl, rfl, rfl, id, .inr hne⟩
  · cases h; exact .refl e

theorem mapExchangesE_next {f : Exchange → Except Err Exchange} {d d' : Dataset} (h : mapExchangesE f d = .ok d')
    (hf : ∀ e e', e ∈ d.exchanges → f e = .ok e' → Touch e e') : Next d d' := by
  unfold mapExchangesE at h
  obtain ⟨ex, hex, h⟩ := bind_eq_ok.mp h
  cases h
  refine ⟨rfl, rfl, rfl, fun _ S hS => hS.touch (sup := d.suppliers) ?_ hS.sup⟩
  exact (forall₂_with_mem (mapE_ok_iff.mp hex)).imp fun a b hab => hf a b hab.1 hab.2

theorem Inv.productCode {T : Topology} {data : List Dataset} (h : Inv b T data) {d : Dataset} (hd : d ∈ data) : d.refProduct.isSome ∧ d.code.isSome := by
  refine ⟨(h.fine d hd).product, ?_⟩
  obtain ⟨c, hc, -⟩ := (h.fine d hd).code
  rw [hc]; rfl

theorem total_linkRecycled {T : Topology} {data : List Dataset} (h : Inv b T data) : ∃ out, linkRecycledContent data = .ok out ∧ Inv b T out := by
  obtain ⟨out, hout⟩ := C52_total data fun d hd => h.productCode hd
  refine ⟨out, hout, ?_⟩
  unfold linkRecycledContent at hout
  obtain ⟨rc, hrc, hout⟩ := bind_eq_ok.mp hout
  refine h.next ((mapE_ok_iff.mp hout).imp ?_)
  intro d d' hd _
  refine mapExchangesE_next hd ?_
  intro e e' _ he
  unfold linkRecycledInput at he
  split at he
  · refine linkToOnly_touch he fun x hx => (h.fine x ?_).code
    exact filterE_subset hrc x (List.mem_filter.mp hx).1
  · cases he; exact .refl e

/-! ## Places -/

theorem noOverlaps_total {T : Topology} (hT : WellFormed T) {l : List Dataset} (hk : ∀ d ∈ l, Spec.Known T d.location)
    (hp : l.Pairwise fun a b => Separate T a.location b.location) : noOverlaps T l = .ok true := by
  refine (C35_no_overlaps T hT l hk).2.mpr ⟨hp.imp fun h => h.2.2.2, ?_⟩
  rintro ⟨d, hd, hg⟩
  rcases l with _ | ⟨a, _ | ⟨b, l⟩⟩
  · cases hd
  · rfl
  · exfalso
    rw [List.pairwise_cons] at hp
    rcases List.mem_cons.mp hd with rfl | hd
    · exact (hp.1 b (by simp)).2.1 hg
    · exact (hp.1 d hd).2.2.1 hg

theorem noGeo_total {T : Topology} {l : List Dataset} (hp : l.Pairwise fun a b => Separate T a.location b.location) : noGeoDuplicates l = .ok () := by
  unfold noGeoDuplicates
  rw [if_neg]
  push Not
  rw [List.Nodup.dedup, List.length_map]
  rw [List.Nodup, List.pairwise_map]
  exact hp.imp fun h => h.1

theorem resolveRow_total {T : Topology} (hT : WellFormed T) (hg : ∃ g, HasFaces T "GLO" g) {l : List String} (hne : l ≠ []) (hk : ∀ s ∈ l, Spec.Known T s) :
    ∃ r, T.resolveRow l = .ok r := (C34_total T hT l hg).1 hne hk

theorem apportionPrep_total {T : Topology} (hT : WellFormed T) (hg : ∃ g, HasFaces T "GLO" g) {p : Dataset → Bool} {consumers suppliers : List Dataset}
    (hne : consumers ≠ []) (hk : ∀ d ∈ consumers, Spec.Known T d.location) (hp : consumers.Pairwise fun a b => Separate T a.location b.location) :
    ∃ row, apportionPrep T p consumers suppliers = .ok (some ⟨p, row, suppliers⟩) := by
  unfold apportionPrep
  rw [noGeo_total hp]
  obtain ⟨r, hr⟩ := resolveRow_total hT hg (l := consumers.map (·.location)) (by simpa using hne) (by
    intro s hs
    obtain ⟨d, hd, rfl⟩ := List.mem_map.mp hs
    exact hk d hd)
  simp only [ebind_ok]
  rw [hr]
  exact ⟨r, rfl⟩

theorem contained_total {T : Topology} (hT : WellFormed T) {loc : Loc} {row : Finset ℕ} (hk : ∀ s, loc = .name s → Spec.Known T s) :
    ∃ l, T.contained loc false none (some row) = .ok l := by
  unfold Topology.contained
  obtain ⟨o, ho⟩ : ∃ o, T.containedFaces loc (some row) = .ok o := by
    unfold Topology.containedFaces
    split
    · exact ⟨_, rfl⟩
    · next s =>
      split
      · exact ⟨_, rfl⟩
      · obtain ⟨f, hf⟩ := call_known hT (hk s rfl)
        rw [hf]; exact ⟨_, rfl⟩
  rw [ho]
  rcases o with _ | f
  · exact ⟨_, rfl⟩
  · simp only [ebind_ok]
    have : T.subtractFaces none f = .ok f := rfl
    rw [this]
    simp only [ebind_ok]
    split
    · exact ⟨_, rfl⟩
    · exact ⟨_, rfl⟩

theorem supplierEntry_ready {S : String → Prop} {d : Dataset} (h : Fine b S d) : ∃ s, supplierEntry d = .ok s ∧ Ready s := by
  obtain ⟨r, hr, hpv, -⟩ := h.ref
  obtain ⟨c, hc, hne⟩ := h.code
  unfold supplierEntry
  rw [getSingle_ok.mpr hr]
  refine ⟨_, rfl, ?_⟩
  unfold annotateExchange Ready Usable
  rw [hc]
  exact ⟨⟨hpv, rfl, rfl⟩, hne⟩

theorem byLocation_mem {l : List Dataset} {k : String} {d : Dataset} (h : (byLocation l).lookup k = some d) : d ∈ l := by
  obtain ⟨x, hx, -, rfl⟩ := dictOf_mem_src (mem_of_lookup h)
  exact hx

theorem byLocation_keys_mem {l : List Dataset} {k : String} : k ∈ (byLocation l).map (·.1) ↔ ∃ d ∈ l, d.location = k := by
  unfold byLocation
  rw [dictOf_keys_mem]

theorem lookup_some_of_key {β : Type} {l : List (String × β)} {k : String} (h : k ∈ l.map (·.1)) : ∃ v, l.lookup k = some v := by
  induction l with
  | nil => cases h
  | cons p l ih =>
    rcases p with ⟨k', v⟩
    rw [List.lookup_cons]
    by_cases hk : k = k'
    · subst hk; exact ⟨v, by simp⟩
    · have : (k == k') = false := by simpa using hk
      rw [this]
      apply ih
      simpa [hk] using h

theorem suppliersOfGroup_total {T : Topology} (hT : WellFormed T) (hg : ∃ g, HasFaces T "GLO" g) {σ : Dataset → String → List String → List String}
    (hσ : IterationOrder σ) {consumer : Dataset} {loc : Loc} {name : String} {group : List Dataset} (hloc : ∀ s, loc = .name s → Spec.Known T s)
    (hne : group ≠ []) (hk : ∀ d ∈ group, Spec.Known T d.location) (hp : group.Pairwise fun a b => Separate T a.location b.location)
    {S : String → Prop} (hf : ∀ d ∈ group, Fine b S d) :
    ∃ l, suppliersOfGroup T σ consumer loc name group = .ok l ∧ ∀ s ∈ l, Ready s := by
  unfold suppliersOfGroup
  rw [noOverlaps_total hT hk hp]
  obtain ⟨row, hrow⟩ := resolveRow_total hT hg (l := group.map (·.location)) (by simpa using hne) (by
    intro s hs
    obtain ⟨d, hd, rfl⟩ := List.mem_map.mp hs
    exact hk d hd)
  obtain ⟨inside, hin⟩ := contained_total hT (row := row) hloc
  simp only [ebind_ok, hrow, hin]
  have hkeys : ∀ k ∈ σ consumer name (inside.dedup.filter fun k => (byLocation group).any fun p => p.1 == k), k ∈ (byLocation group).map (·.1) := by
    intro k hk
    have := (List.mem_filter.mp ((hσ _ _ _).mem_iff.mp hk)).2
    obtain ⟨p, hp, he⟩ := List.any_eq_true.mp this
    exact List.mem_map.mpr ⟨p, hp, by simpa using he⟩
  obtain ⟨l, hl⟩ : ∃ l, mapE (fun k => do
      let ds ← getKey ((byLocation group).lookup k)
      supplierEntry ds) (σ consumer name (inside.dedup.filter fun k => (byLocation group).any fun p => p.1 == k)) = .ok l := by
    apply mapE_ok_of_forall
    intro k hk
    obtain ⟨d, hd⟩ := lookup_some_of_key (hkeys k hk)
    obtain ⟨s, hs, -⟩ := supplierEntry_ready (hf d (byLocation_mem hd))
    rw [hd]
    exact ⟨s, hs⟩
  refine ⟨l, hl, ?_⟩
  intro s hs
  obtain ⟨k, hk, he⟩ := mapE_mem hl hs
  obtain ⟨d, hd⟩ := lookup_some_of_key (hkeys k hk)
  rw [hd] at he
  obtain ⟨s', hs', hu⟩ := supplierEntry_ready (hf d (byLocation_mem hd))
  have : supplierEntry d = .ok s := he
  rw [hs'] at this
  cases this
  exact hu

end Progress
end Ocelot
