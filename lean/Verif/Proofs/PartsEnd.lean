import Verif.Proofs.PartsLinks
import Verif.Proofs.OrderGroups

/-! More functions that work on the parts of a database separately: market groups, consumers and what follows the linking. -/

namespace Ocelot
namespace Parts
open Spec

variable {c : Cut} {J : Option (String → Bool)}

/-! ## After the linking -/

theorem local_normalize {M : MathEnv} : Local c J (wrapAll (normalizeList M)) := by
  unfold wrapAll
  refine local_flatMapE (fun d r h d' hd' => ?_)
  unfold normalizeList at h
  obtain ⟨d1, h1, h⟩ := bind_eq_ok.mp h
  cases h
  rw [List.mem_singleton] at hd'
  subst hd'
  unfold normalize at h1
  obtain ⟨_, -, h1⟩ := bind_eq_ok.mp h1
  simp only at h1
  split at h1
  · cases h1
  · split at h1
    · obtain ⟨ex, hex, h1⟩ := bind_eq_ok.mp h1
      cases h1
      exact .mapExchangesE (fun e e' he => scaled_label (scaleExchange_scaled he)) hex rfl
    · cases h1; exact .refl d

theorem local_signs {M : MathEnv} : Local c J (adjustMarketSignsAll M) := by
  refine local_mapE (fun d d' h => ?_)
  unfold adjustMarketSigns at h
  split at h
  · obtain ⟨_, -, h⟩ := bind_eq_ok.mp h
    obtain ⟨_, -, h⟩ := bind_eq_ok.mp h
    split at h
    · obtain ⟨ex, hex, h⟩ := bind_eq_ok.mp h
      cases h
      exact .mapExchangesE (fun e e' he => scaled_label (scaleExchange_scaled he)) hex rfl
    · split at h
      · obtain ⟨ex, hex, h⟩ := bind_eq_ok.mp h
        cases h
        refine .mapExchangesE (fun e e' he => ?_) hex rfl
        split at he
        · exact scaled_label (scaleExchange_scaled he)
        · cases he; rfl
      · cases h; exact .refl d
  · cases h; exact .refl d

theorem local_flip : Local c J flipNonAllocatableByproducts := by
  refine local_mapE (fun d d' h => ?_)
  obtain ⟨ex, hex, h⟩ := bind_eq_ok.mp h
  cases h
  refine .mapExchangesE (fun e e' he => ?_) hex rfl
  unfold flipExchange at he
  split at he
  · next ht =>
    split at he
    · cases he
    · cases he; rfl
    · cases he
      unfold labelOf
      rw [ht]
      rfl
  · cases he; rfl

theorem removeSub_name (hc : c.Proper) (n : ℕ) (pre l : List Char) : c.name (String.ofList (pre ++ removeSub rcString.toList n l)) = c.name (String.ofList (pre ++ l)) := by
  induction n generalizing pre l with
  | zero => unfold removeSub; rfl
  | succ n ih =>
    cases l with
    | nil => unfold removeSub; rfl
    | cons a l =>
      unfold removeSub
      split
      · next hp =>
        obtain ⟨r, hr⟩ := List.isPrefixOf_iff_prefix.mp hp
        rw [← hr, List.drop_left, ih]
        have := hc.recycled (String.ofList pre) (String.ofList r)
        rw [String.ofList_append, String.ofList_append, String.ofList_append, String.ofList_toList, ← this, ← String.append_assoc]
        rfl
      · have := ih (pre ++ [a]) l
        simpa using this

theorem stripRc_name (hc : c.Proper) (s : String) : c.name (stripRc s) = c.name s := by
  unfold stripRc
  split
  · have := removeSub_name hc s.toList.length [] s.toList
    simpa using this
  · rfl

theorem local_renameAfter (hc : c.Proper) : Local c J (fun d => .ok (renameRecycledContentAfterLinking d)) := by
  refine local_map (fun d b hd => ?_)
  refine ⟨hd.name, hd.id, ?_, ?_, hd.sup, hd.code⟩
  · intro e he
    obtain ⟨e0, h0, rfl⟩ := List.mem_map.mp he
    obtain ⟨h1, h2⟩ := hd.exs e0 h0
    exact ⟨h1.imp id fun h => (stripRc_name hc e0.name).trans h, h2⟩
  · intro r hr
    obtain ⟨r0, h0, rfl⟩ := Option.map_eq_some_iff.mp hr
    rw [stripRc_name hc]
    exact hd.ref r0 h0

theorem local_refCodes : Local c J addReferenceProductCodes := by
  refine local_mapE (fun d d' h => ?_)
  unfold addReferenceProductCode at h
  split at h
  · cases h
  · obtain ⟨_, -, h⟩ := bind_eq_ok.mp h
    cases h
    refine .mapExchanges (fun e => ?_) d
    split <;> rfl

theorem local_deleteUnlinked : Local c J (fun d => .ok (logAndDeleteUnlinked d)) := local_map fun d => .filterExchanges d

/-! ## Zero volumes -/

theorem withRef_part {X : List Dataset} (hX : Divided c J X) {p : Dataset → Bool} {l : List (String × Dataset)} (h : mapE withRefProduct (X.filter p) = .ok l) :
    mapE withRefProduct ((c.part X).filter p) = .ok (l.filter fun x => c.name x.1) ∧ ∀ x ∈ l, x.2 ∈ X ∧ c.name x.1 = c.name x.2.name ∧ x.2.refProduct = some x.1 := by
  have hkey : ∀ d ∈ X, ∀ x, withRefProduct d = .ok x → x.2 = d ∧ c.name x.1 = c.name d.name ∧ d.refProduct = some x.1 := by
    intro d hd x hx
    unfold withRefProduct at hx
    obtain ⟨r, hr, hx⟩ := bind_eq_ok.mp hx
    cases hx
    exact ⟨rfl, (hX d hd).ref r (getKey_eq_ok.mp hr), getKey_eq_ok.mp hr⟩
  refine ⟨?_, ?_⟩
  · have hcomm : (c.part X).filter p = (X.filter p).filter fun d => c.name d.name := by
      unfold Cut.part
      rw [List.filter_filter, List.filter_filter]
      exact List.filter_congr fun _ _ => Bool.and_comm _ _
    rw [hcomm]
    exact mapE_filter_of h (fun d hd x hx => (hkey d (List.mem_filter.mp hd).1 x hx).2.1.symm) fun _ _ _ _ h => h
  · intro x hx
    obtain ⟨d, hd, hdx⟩ := mapE_mem h hx
    obtain ⟨rfl, h2, h3⟩ := hkey d (List.mem_filter.mp hd).1 x hdx
    exact ⟨(List.mem_filter.mp hd).1, h2, h3⟩

theorem purged_mem {g : List Dataset} {d : Dataset} (h : purgedOf g = some d) : d ∈ g := by
  unfold purgedOf at h
  split at h
  · cases h
  · split at h
    · cases h
    · next r hr =>
      split at h
      · cases h; exact List.mem_of_find?_eq_some hr
      · cases h

theorem local_zeroPv (kind : DsType) : Local c J (deleteGlobalZeroPv kind) := by
  intro X X' hX h
  unfold deleteGlobalZeroPv at h ⊢
  obtain ⟨l, hl, h⟩ := bind_eq_ok.mp h
  obtain ⟨hl', hmem⟩ := withRef_part hX hl
  cases h
  refine ⟨fun d hd => hX d (List.mem_filter.mp hd).1, ?_⟩
  refine bind_eq_ok.mpr ⟨_, hl', ?_⟩
  simp only [epure, Except.ok.injEq]
  rw [groupBy_filter (p := fun x : String × Dataset => c.name x.1) (q := c.name) l (fun _ _ => rfl)]
  unfold Cut.part
  rw [List.filter_filter, List.filter_filter]
  refine List.filter_congr fun d hd => ?_
  cases hs : c.name d.name with
  | false => simp
  | true =>
    simp only [Bool.and_true, Bool.true_and]
    congr 1
    rw [Bool.eq_iff_iff, List.contains_iff_mem, List.contains_iff_mem, List.mem_filterMap, List.mem_filterMap]
    constructor
    · rintro ⟨G, hG, hp⟩
      obtain ⟨g, hg, rfl⟩ := List.mem_map.mp hG
      exact ⟨_, List.mem_map.mpr ⟨g, (List.mem_filter.mp hg).1, rfl⟩, hp⟩
    · rintro ⟨G, hG, hp⟩
      obtain ⟨g, hg, rfl⟩ := List.mem_map.mp hG
      refine ⟨_, List.mem_map.mpr ⟨g, List.mem_filter.mpr ⟨hg, ?_⟩, rfl⟩, hp⟩
      obtain ⟨x, hx, hxd⟩ := List.mem_map.mp (purged_mem hp)
      have hgm := groupBy_mem (k := g.1) (g := g.2) hg
      rw [hgm] at hx
      obtain ⟨hx1, hx2⟩ := List.mem_filter.mp hx
      have h1 : x.1 = g.1 := by simpa using hx2
      rw [← h1, (hmem x hx1).2.1, hxd]
      exact hs

/-! ## Market groups -/

/-- A loop that looks at the elements behind the current one. -/
def mapTails {α β : Type} (f : List α → α → Except Err β) : List α → Except Err (List β)
  | [] => .ok []
  | a :: l => do
    let b ← f l a
    let r ← mapTails f l
    return b :: r

theorem mapTails_zipIdx {α β : Type} (f : List α → α → Except Err β) (pre l : List α) :
    mapE (fun p : α × ℕ => f ((pre ++ l).drop (p.2 + 1)) p.1) (l.zipIdx pre.length) = mapTails f l := by
  induction l generalizing pre with
  | nil => rfl
  | cons a l ih =>
    have := ih (pre ++ [a])
    rw [List.zipIdx_cons]
    unfold mapTails mapE
    rw [List.length_append, List.length_singleton, List.append_assoc] at this
    rw [← this]
    have hd : (pre ++ a :: l).drop (pre.length + 1) = l := by
      rw [List.drop_append, List.drop_eq_nil_of_le (by omega)]
      simp
    simp only [hd, List.singleton_append]

theorem mapTails_filter {α β : Type} {f f' : List α → α → Except Err β} {p : α → Bool} {q : β → Bool} {l : List α} {r : List β} (h : mapTails f l = .ok r)
    (hq : ∀ a ∈ l, ∀ t b, f t a = .ok b → q b = p a) (hf : ∀ a ∈ l, p a = true → ∀ t, (∀ x ∈ t, x ∈ l) → ∀ b, f t a = .ok b → f' (t.filter p) a = .ok b) :
    mapTails f' (l.filter p) = .ok (r.filter q) := by
  induction l generalizing r with
  | nil => cases h; rfl
  | cons a l ih =>
    unfold mapTails at h
    obtain ⟨b, hb, h⟩ := bind_eq_ok.mp h
    obtain ⟨r', hr', h⟩ := bind_eq_ok.mp h
    cases h
    have hi := ih hr' (fun x hx => hq x (List.mem_cons_of_mem _ hx)) (fun x hx hp t ht => hf x (List.mem_cons_of_mem _ hx) hp t fun y hy => List.mem_cons_of_mem _ (ht y hy))
    have hqa := hq a List.mem_cons_self l b hb
    cases hp : p a with
    | true =>
      rw [List.filter_cons_of_pos hp, List.filter_cons_of_pos (by rw [hqa]; exact hp)]
      unfold mapTails
      rw [hf a List.mem_cons_self hp l (fun y hy => List.mem_cons_of_mem _ hy) b hb, hi]
      rfl
    | false =>
      rw [List.filter_cons_of_neg (by simp [hp]), List.filter_cons_of_neg (by simp [hqa, hp])]
      exact hi

theorem any_eq {α : Type} {l : List α} {p q : α → Bool} (h : ∀ a ∈ l, p a = q a) : l.any p = l.any q := by
  induction l with
  | nil => rfl
  | cons a l ih => rw [List.any_cons, List.any_cons, h a List.mem_cons_self, ih fun x hx => h x (List.mem_cons_of_mem _ hx)]

theorem mapE_total {α β : Type} {f : α → Except Err β} {l : List α} {r : List β} (h : mapE f l = .ok r) : ∀ a ∈ l, ∃ b, f a = .ok b := by
  induction l generalizing r with
  | nil => exact fun a ha => by cases ha
  | cons x l ih =>
    unfold mapE at h
    obtain ⟨b, hb, h⟩ := bind_eq_ok.mp h
    obtain ⟨r', hr', h⟩ := bind_eq_ok.mp h
    intro a ha
    rcases List.mem_cons.mp ha with rfl | ha
    · exact ⟨b, hb⟩
    · exact ih hr' a ha

theorem mapTails_mem {α β : Type} {f : List α → α → Except Err β} {l : List α} {r : List β} (h : mapTails f l = .ok r) {b : β} (hb : b ∈ r) :
    ∃ a ∈ l, ∃ t, f t a = .ok b := by
  induction l generalizing r with
  | nil => cases h; cases hb
  | cons a l ih =>
    unfold mapTails at h
    obtain ⟨b', hb', h⟩ := bind_eq_ok.mp h
    obtain ⟨r', hr', h⟩ := bind_eq_ok.mp h
    cases h
    rcases List.mem_cons.mp hb with rfl | hb
    · exact ⟨a, List.mem_cons_self, l, hb'⟩
    · obtain ⟨x, hx, t, ht⟩ := ih hr' hb
      exact ⟨x, List.mem_cons_of_mem _ hx, t, ht⟩

theorem places_part {X : List Dataset} (hX : Divided c J X) {kind : DsType} {r : String} (hr : c.name r = true) {l : List (String × Dataset)} (h : placesOf kind r X = .ok l) :
    placesOf kind r (c.part X) = .ok l := by
  unfold placesOf at h ⊢
  obtain ⟨m, hm, h⟩ := bind_eq_ok.mp h
  refine bind_eq_ok.mpr ⟨_, (withRef_part hX hm).1, ?_⟩
  rw [List.filter_filter]
  have : (m.filter fun a => a.1 == r && c.name a.1) = m.filter fun a => a.1 == r := by
    refine List.filter_congr fun a _ => ?_
    by_cases ha : a.1 = r
    · simp [ha, hr]
    · simp [ha]
  rw [this]
  exact h

theorem places_side {X : List Dataset} (hX : Divided c J X) {kind : DsType} {r : String} {l : List (String × Dataset)} (h : placesOf kind r X = .ok l) :
    ∀ p ∈ l, Whole c J (c.name r) p.2 := by
  unfold placesOf at h
  obtain ⟨m, hm, h⟩ := bind_eq_ok.mp h
  cases h
  intro p hp
  obtain ⟨d, hd, -, rfl⟩ := dictOf_mem_src hp
  obtain ⟨x, hx, hxp⟩ := List.mem_map.mp hd
  obtain ⟨hx1, hx2⟩ := List.mem_filter.mp hx
  obtain ⟨h1, h2, -⟩ := (withRef_part hX hm).2 x hx1
  rw [show r = x.1 from (by simpa using hx2 : x.1 = r).symm, h2, ← hxp]
  exact hX _ h1

theorem linkGroup_part {T : Topology} {X : List Dataset} (hX : Divided c J X) {r : String} (hr : c.name r = true) {d d' : Dataset} (h : linkMarketGroup T X r d = .ok d') :
    linkMarketGroup T (c.part X) r d = .ok d' := by
  unfold linkMarketGroup at h ⊢
  obtain ⟨ms, hms, h⟩ := bind_eq_ok.mp h
  obtain ⟨gs, hgs, h⟩ := bind_eq_ok.mp h
  exact bind_eq_ok.mpr ⟨ms, places_part hX hr hms, bind_eq_ok.mpr ⟨gs, places_part hX hr hgs, h⟩⟩

theorem linkGroup_keep {T : Topology} {X : List Dataset} (hX : Divided c J X) {r : String} {d d' : Dataset} (hd : Whole c J (c.name r) d) (h : linkMarketGroup T X r d = .ok d') :
    Whole c J (c.name r) d' := by
  unfold linkMarketGroup at h
  obtain ⟨ms, hms, h⟩ := bind_eq_ok.mp h
  obtain ⟨gs, hgs, h⟩ := bind_eq_ok.mp h
  obtain ⟨_, -, h⟩ := bind_eq_ok.mp h
  obtain ⟨_, -, h⟩ := bind_eq_ok.mp h
  obtain ⟨found, -, h⟩ := bind_eq_ok.mp h
  obtain ⟨ch, hch, h⟩ := bind_eq_ok.mp h
  obtain ⟨en, hen, h⟩ := bind_eq_ok.mp h
  cases h
  refine hd.setSup rfl ?_
  intro l hl
  split at hl
  · cases hl
  · cases hl
    intro e he
    unfold groupEntries at hen
    obtain ⟨keyed, hk, hen⟩ := bind_eq_ok.mp hen
    obtain ⟨p, hp, hpe⟩ := mapE_mem hen he
    rw [List.mem_insertionSort] at hp
    obtain ⟨x, hx, hxp⟩ := mapE_mem hk hp
    unfold withCode at hxp
    obtain ⟨k, -, hxp⟩ := bind_eq_ok.mp hxp
    cases hxp
    obtain ⟨s, -, hs⟩ := mapE_mem hch hx
    refine entry_side ?_ hpe
    unfold candidateAt at hs
    split at hs
    · exact places_side hX hms (s, x) (mem_of_lookup (getKey_eq_ok.mp hs))
    · exact places_side hX hgs (s, x) (mem_of_lookup (getKey_eq_ok.mp hs))

theorem names_part {X : List Dataset} (hX : Divided c J X) (h : checkGroupNames X = .ok ()) :
    checkGroupNames (c.part X) = .ok () ∧ ∀ d ∈ X, d.type = .marketGroup → ∃ r, d.refProduct = some r := by
  unfold checkGroupNames at h ⊢
  obtain ⟨l, hl, h⟩ := bind_eq_ok.mp h
  refine ⟨bind_eq_ok.mpr ⟨_, (withRef_part hX hl).1, ?_⟩, ?_⟩
  · rw [groupBy_filter (p := fun x : String × Dataset => c.name x.1) (q := c.name) l (fun _ _ => rfl)]
    split at h
    · next hall =>
      rw [if_pos]
      · exact h
      · rw [List.all_eq_true] at hall ⊢
        exact fun g hg => hall g (List.mem_filter.mp hg).1
    · cases h
  · intro d hd ht
    obtain ⟨x, hx⟩ := mapE_total hl d (List.mem_filter.mpr ⟨hd, by simp [ht]⟩)
    unfold withRefProduct at hx
    obtain ⟨r, hr, -⟩ := bind_eq_ok.mp hx
    exact ⟨r, getKey_eq_ok.mp hr⟩

theorem local_linkGroups {T : Topology} : Local c J (linkMarketGroupSuppliers T) := by
  intro X X' hX h
  unfold linkMarketGroupSuppliers at h ⊢
  obtain ⟨u, hu, h⟩ := bind_eq_ok.mp h
  obtain ⟨hu', href⟩ := names_part hX hu
  let f : List Dataset → List Dataset → Dataset → Except Err Dataset := fun X t d =>
    if d.type = .marketGroup ∧ (t.any fun x => x.type == .marketGroup && x.refProduct == d.refProduct && x.location == d.location) = false then do
      let r ← getKey d.refProduct
      linkMarketGroup T X r d
    else .ok d
  have hfold : ∀ X : List Dataset, mapE (fun p : Dataset × ℕ =>
    if p.1.type = .marketGroup ∧ isShadowed X p.2 p.1 = false then do
      let r ← getKey p.1.refProduct
      linkMarketGroup T X r p.1
    else .ok p.1) X.zipIdx = mapTails (f X) X := fun X => mapTails_zipIdx (f X) [] X
  rw [hfold] at h
  have hkeep : ∀ d ∈ X, ∀ t d', f X t d = .ok d' → Whole c J (c.name d.name) d' := by
    intro d hd t d' h
    simp only [f] at h
    split at h
    · obtain ⟨r, hr, h⟩ := bind_eq_ok.mp h
      have := (hX d hd).ref r (getKey_eq_ok.mp hr)
      rw [← this]
      exact linkGroup_keep hX (by rw [this]; exact hX d hd) h
    · cases h; exact hX d hd
  refine ⟨?_, bind_eq_ok.mpr ⟨(), hu', ?_⟩⟩
  · intro d' hd'
    obtain ⟨d, hd, t, ht⟩ := mapTails_mem h hd'
    exact (hkeep d hd t d' ht).self
  · rw [hfold]
    refine mapTails_filter h (fun d hd t d' hd' => (hkeep d hd t d' hd').name) ?_
    intro d hd hs t ht d' h
    simp only [f] at h ⊢
    by_cases hty : d.type = .marketGroup
    · obtain ⟨r, hr⟩ := href d hd hty
      have hrs := (hX d hd).ref r hr
      have hany : ((t.filter fun d => c.name d.name).any fun x => x.type == .marketGroup && x.refProduct == d.refProduct && x.location == d.location) =
          t.any fun x => x.type == .marketGroup && x.refProduct == d.refProduct && x.location == d.location := by
        rw [List.any_filter]
        refine any_eq fun x hx => ?_
        cases hx' : (x.type == .marketGroup && x.refProduct == d.refProduct && x.location == d.location) with
        | false => simp
        | true =>
          simp only [Bool.and_eq_true, beq_iff_eq] at hx'
          have := (hX x (ht x hx)).ref r (hx'.1.2.trans hr)
          rw [← this, hrs, hs]
          rfl
      rw [hany]
      split at h
      · next hcond =>
        rw [if_pos hcond]
        obtain ⟨r', hr', h⟩ := bind_eq_ok.mp h
        have hr2 := getKey_eq_ok.mp hr'
        exact bind_eq_ok.mpr ⟨r', hr', linkGroup_part hX (by rw [(hX d hd).ref r' hr2]; exact hs) h⟩
      · next hcond => rw [if_neg hcond]; exact h
    · rw [if_neg (fun hh => hty hh.1)] at h ⊢
      exact h

/-! ## Consumers -/

theorem mapping_part {X : List Dataset} (hX : Divided c J X) {r : String} (hr : c.name r = true) : marketsMapping (c.part X) r = marketsMapping X r := by
  refine filter_part fun x hx hp => ?_
  have := (hX x hx).ref r (by simp only [Bool.and_eq_true, beq_iff_eq] at hp; exact hp.2)
  rw [← this, hr]

theorem candidates_part (hc : c.Proper) {X : List Dataset} (hX : Divided c J X) {r : String} (hr : c.name r = true) {p p' : Option (List Dataset)} :
    candidatesFor (c.part X) p' r = candidatesFor X p r := by
  have hne : r ≠ "refinery gas" := by
    rintro rfl
    rw [hc.gas] at hr
    cases hr
  unfold candidatesFor
  rw [mapping_part hX hr, if_neg hne, if_neg hne]

theorem crow_part {T : Topology} {X : List Dataset} (hX : Divided c J X) {d : Dataset} (hs : c.name d.name = true) : consumerRow T (c.part X) d = consumerRow T X d := by
  unfold consumerRow
  have : ((c.part X).filter fun x => x.type == peerType d && x.name == d.name) = X.filter fun x => x.type == peerType d && x.name == d.name := by
    refine filter_part fun x _ hp => ?_
    simp only [Bool.and_eq_true, beq_iff_eq] at hp
    rw [hp.2, hs]
  rw [this]

/-- The same state but for the variable `candidates`. -/
def LikeState (s t : LinkState) : Prop := t.exchanges = s.exchanges ∧ t.suppliers = s.suppliers

theorem use_like {M : MathEnv} {s t s' : LinkState} (hst : LikeState s t) {e : Exchange} {i : ℕ} {ch : List Dataset} (h : useMarkets M s e i ch = .ok s') :
    ∃ t', useMarkets M t e i ch = .ok t' ∧ LikeState s' t' := by
  obtain ⟨h1, h2⟩ := hst
  unfold useMarkets at h ⊢
  split at h
  · cases h; exact ⟨_, rfl, h1, rfl⟩
  · obtain ⟨k, hk, h⟩ := bind_eq_ok.mp h
    cases h
    exact ⟨_, bind_eq_ok.mpr ⟨k, hk, rfl⟩, by simp only [h1], h2⟩
  · obtain ⟨ex, hex, h⟩ := bind_eq_ok.mp h
    cases h
    exact ⟨_, bind_eq_ok.mpr ⟨ex, by rw [h1]; exact hex, rfl⟩, rfl, rfl⟩

theorem inputs_part (hc : c.Proper) {M : MathEnv} {T : Topology} {X : List Dataset} (hX : Divided c J X) {loc : String} {crow : Option (Finset ℕ)} {l : List (Exchange × ℕ)}
    (hl : ∀ p ∈ l, c.name p.1.name = true) {s t s' : LinkState} (hst : LikeState s t) (h : foldE (linkInput M T X loc crow) s l = .ok s') :
    ∃ t', foldE (linkInput M T (c.part X) loc crow) t l = .ok t' ∧ LikeState s' t' := by
  induction l generalizing s t with
  | nil => cases h; exact ⟨t, rfl, hst⟩
  | cons p l ih =>
    obtain ⟨s1, h1, h⟩ := bind_eq_ok.mp h
    unfold linkInput at h1
    obtain ⟨ca, hca, h1⟩ := bind_eq_ok.mp h1
    obtain ⟨ch, hch, h1⟩ := bind_eq_ok.mp h1
    obtain ⟨t1, ht1, hst1⟩ := use_like (s := { s with candidates := some ca }) (t := { t with candidates := some ca }) hst h1
    obtain ⟨t', ht', hst'⟩ := ih (fun p hp => hl p (List.mem_cons_of_mem _ hp)) hst1 h
    refine ⟨t', bind_eq_ok.mpr ⟨t1, ?_, ht'⟩, hst'⟩
    unfold linkInput
    exact bind_eq_ok.mpr ⟨ca, by rw [candidates_part hc hX (hl p List.mem_cons_self) (p := s.candidates)]; exact hca, bind_eq_ok.mpr ⟨ch, hch, ht1⟩⟩

theorem unlinked_named {d : Dataset} {b : Bool} (hd : Whole c J b d) : ∀ p ∈ d.exchanges.zipIdx.filter (fun p => isUnlinked p.1), p.1 ∈ d.exchanges ∧ c.name p.1.name = b := by
  intro p hp
  obtain ⟨h1, h2⟩ := List.mem_filter.mp hp
  have hm : p.1 ∈ d.exchanges := List.fst_mem_of_mem_zipIdx h1
  refine ⟨hm, (hd.exs _ hm).named ?_⟩
  unfold isUnlinked at h2
  simp only [Bool.and_eq_true, beq_iff_eq] at h2
  rw [h2.1]
  rfl

theorem consumer_part (hc : c.Proper) {M : MathEnv} {T : Topology} {X : List Dataset} (hX : Divided c J X) {d d' : Dataset} (hd : d ∈ X) (hs : c.name d.name = true)
    {ca ca' ca1 : Option (List Dataset)} (h : linkConsumer M T X ca d = .ok (ca1, d')) : ∃ ca1', linkConsumer M T (c.part X) ca' d = .ok (ca1', d') := by
  unfold linkConsumer at h ⊢
  split at h
  · next ht => cases h; exact ⟨ca', by rw [if_pos ht]⟩
  · next ht =>
    rw [if_neg ht]
    obtain ⟨cr, hcr, h⟩ := bind_eq_ok.mp h
    obtain ⟨st, hst, h⟩ := bind_eq_ok.mp h
    cases h
    obtain ⟨t', ht', h1, h2⟩ := inputs_part hc hX (s := { candidates := ca, exchanges := d.exchanges.zipIdx.map fun p => (some p.2, p.1), suppliers := d.suppliers }) (t := { candidates := ca', exchanges := d.exchanges.zipIdx.map fun p => (some p.2, p.1), suppliers := d.suppliers })
      (fun p hp => ((unlinked_named (hX d hd)) p hp).2.trans hs) ⟨rfl, rfl⟩ hst
    refine ⟨t'.candidates, bind_eq_ok.mpr ⟨cr, by rw [crow_part hX hs]; exact hcr, bind_eq_ok.mpr ⟨t', ht', ?_⟩⟩⟩
    rw [h1, h2]
    rfl

theorem consumer_keep {M : MathEnv} {T : Topology} {X : List Dataset} {d d' : Dataset} {ca ca1 : Option (List Dataset)} (h : linkConsumer M T X ca d = .ok (ca1, d')) : Keep c J d d' := by
  intro b hd
  unfold linkConsumer at h
  split at h
  · cases h; exact hd
  · obtain ⟨cr, -, h⟩ := bind_eq_ok.mp h
    obtain ⟨st, hst, h⟩ := bind_eq_ok.mp h
    cases h
    have hun := unlinked_named hd
    revert hst
    generalize (d.exchanges.zipIdx.filter fun p => isUnlinked p.1) = l at hun
    have hstart : ∀ s : LinkState, (∀ q ∈ s.exchanges, OkE c b q.2) → (s.suppliers = none ∨ s.suppliers = d.suppliers) → ∀ st, foldE (linkInput M T X d.location cr) s l = .ok st →
        (∀ q ∈ st.exchanges, OkE c b q.2) ∧ (st.suppliers = none ∨ st.suppliers = d.suppliers) := by
      induction l with
      | nil => intro s h1 h2 st h; cases h; exact ⟨h1, h2⟩
      | cons p l ih =>
        intro s h1 h2 st h
        obtain ⟨s1, hs1, h⟩ := bind_eq_ok.mp h
        have hp := hun p List.mem_cons_self
        refine ih (fun q hq => hun q (List.mem_cons_of_mem _ hq)) s1 ?_ ?_ st h
        · unfold linkInput at hs1
          obtain ⟨_, -, hs1⟩ := bind_eq_ok.mp hs1
          obtain ⟨ch, -, hs1⟩ := bind_eq_ok.mp hs1
          unfold useMarkets at hs1
          split at hs1
          · cases hs1; exact h1
          · obtain ⟨k, -, hs1⟩ := bind_eq_ok.mp hs1
            cases hs1
            intro q hq
            obtain ⟨q0, hq0, rfl⟩ := List.mem_map.mp hq
            unfold setCodeAt
            split
            · exact (h1 q0 hq0).like rfl
            · exact h1 q0 hq0
          · obtain ⟨ex, hex, hs1⟩ := bind_eq_ok.mp hs1
            cases hs1
            unfold splitInput at hex
            obtain ⟨vols, -, hex⟩ := bind_eq_ok.mp hex
            split at hex
            · cases hex; exact h1
            · obtain ⟨new, hnew, hex⟩ := bind_eq_ok.mp hex
              cases hex
              intro q hq
              rcases List.mem_append.mp (List.mem_filter.mp hq).1 with hq | hq
              · exact h1 q hq
              · obtain ⟨n, hn, rfl⟩ := List.mem_map.mp hq
                obtain ⟨s0, -, r, hr, hnr⟩ := flatMapE_mem hnew hn
                unfold inputShare at hr
                obtain ⟨_, -, hr⟩ := bind_eq_ok.mp hr
                simp only at hr
                split at hr
                · cases hr; cases hnr
                · obtain ⟨n0, hn0, hr⟩ := bind_eq_ok.mp hr
                  obtain ⟨_, -, hr⟩ := bind_eq_ok.mp hr
                  obtain ⟨_, -, hr⟩ := bind_eq_ok.mp hr
                  cases hr
                  rw [List.mem_singleton] at hnr
                  subst hnr
                  have hl := scaled_label (scaleExchange_scaled hn0)
                  have h0 := (hd.exs p.1 hp.1).like hl
                  refine h0.renamed ?_ (.inr rfl)
                  unfold labelOf at hl
                  simp only [Prod.mk.injEq] at hl
                  show c.name n0.name = b
                  rw [hl.2.2.1]
                  exact hp.2
        · unfold linkInput at hs1
          obtain ⟨_, -, hs1⟩ := bind_eq_ok.mp hs1
          obtain ⟨ch, -, hs1⟩ := bind_eq_ok.mp hs1
          unfold useMarkets at hs1
          split at hs1
          · cases hs1; exact .inl rfl
          · obtain ⟨k, -, hs1⟩ := bind_eq_ok.mp hs1
            cases hs1; exact h2
          · obtain ⟨ex, -, hs1⟩ := bind_eq_ok.mp hs1
            cases hs1; exact .inl rfl
    intro hst
    obtain ⟨a1, a2⟩ := hstart _ (by
      intro q hq
      obtain ⟨p, hp, rfl⟩ := List.mem_map.mp hq
      exact hd.exs _ (List.fst_mem_of_mem_zipIdx hp)) (.inr rfl) st hst
    have hex : ∀ e ∈ st.exchanges.map (·.2), OkE c b e := by
      intro e he
      obtain ⟨q, hq, rfl⟩ := List.mem_map.mp he
      exact a1 q hq
    refine Whole.setSup (d := { d with exchanges := st.exchanges.map (·.2) }) rfl (hd.setEx rfl hex) ?_
    intro l' hl'
    rcases a2 with a2 | a2
    · rw [a2] at hl'; cases hl'
    · exact sup_of hd (a2 ▸ hl')

theorem scan_filter {σ α β : Type} {f f' : σ → α → Except Err (σ × β)} {p : α → Bool} {q : β → Bool} {l : List α} {r : List β} {s s0 : σ} (h : scanE f s l = .ok r)
    (hq : ∀ a ∈ l, ∀ s s' b, f s a = .ok (s', b) → q b = p a) (hf : ∀ a ∈ l, p a = true → ∀ s s' b t, f s a = .ok (s', b) → ∃ t', f' t a = .ok (t', b)) :
    scanE f' s0 (l.filter p) = .ok (r.filter q) := by
  induction l generalizing r s s0 with
  | nil => cases h; rfl
  | cons a l ih =>
    unfold scanE at h
    obtain ⟨⟨s', b⟩, hb, h⟩ := bind_eq_ok.mp h
    obtain ⟨r', hr', h⟩ := bind_eq_ok.mp h
    cases h
    have hi := fun s0 => ih (s0 := s0) hr' (fun x hx => hq x (List.mem_cons_of_mem _ hx)) (fun x hx => hf x (List.mem_cons_of_mem _ hx))
    have hqa := hq a List.mem_cons_self _ _ _ hb
    cases hp : p a with
    | true =>
      rw [List.filter_cons_of_pos hp, List.filter_cons_of_pos (by rw [hqa]; exact hp)]
      obtain ⟨t', ht'⟩ := hf a List.mem_cons_self hp _ _ _ s0 hb
      unfold scanE
      exact bind_eq_ok.mpr ⟨_, ht', bind_eq_ok.mpr ⟨_, hi t', rfl⟩⟩
    | false =>
      rw [List.filter_cons_of_neg (by simp [hp]), List.filter_cons_of_neg (by simp [hqa, hp])]
      exact hi s0

theorem scan_mem {σ α β : Type} {f : σ → α → Except Err (σ × β)} {l : List α} {r : List β} {s : σ} (h : scanE f s l = .ok r) {b : β} (hb : b ∈ r) :
    ∃ a ∈ l, ∃ s s', f s a = .ok (s', b) := by
  induction l generalizing r s with
  | nil => cases h; cases hb
  | cons a l ih =>
    unfold scanE at h
    obtain ⟨⟨s', b'⟩, hb', h⟩ := bind_eq_ok.mp h
    obtain ⟨r', hr', h⟩ := bind_eq_ok.mp h
    cases h
    rcases List.mem_cons.mp hb with rfl | hb
    · exact ⟨a, List.mem_cons_self, s, s', hb'⟩
    · obtain ⟨x, hx, u⟩ := ih hr' hb
      exact ⟨x, List.mem_cons_of_mem _ hx, u⟩

theorem local_consumers (hc : c.Proper) {M : MathEnv} {T : Topology} : Local c J (linkConsumersToMarkets M T) := by
  intro X X' hX h
  unfold linkConsumersToMarkets at h ⊢
  obtain ⟨l, hl, h⟩ := bind_eq_ok.mp h
  refine ⟨?_, bind_eq_ok.mpr ⟨_, (withRef_part hX hl).1, ?_⟩⟩
  · intro d' hd'
    obtain ⟨d, hd, s, s', hds⟩ := scan_mem h hd'
    exact (consumer_keep hds _ (hX d hd)).self
  · exact scan_filter h (fun d hd s s' d' hds => (consumer_keep hds _ (hX d hd)).name) fun d hd hs s s' d' t hds => consumer_part hc hX hd hs hds

end Parts
end Ocelot
