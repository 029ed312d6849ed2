import Verif.Proofs.Economic
import Verif.Proofs.Dict

/-! # Properties C21–C25: sign flips, clean-up and recycled content -/

namespace Ocelot
open Spec

/-! ## C21 -/

/-- A waste or recyclable byproduct. -/
def Spec.NonAllocByproduct (e : Exchange) : Prop :=
  e.type = .byproduct ∧ (e.cls = some .waste ∨ e.cls = some .recyclable)

theorem flipExchange_inv {e e' : Exchange} (h : flipExchange e = .ok e') :
    (NonAllocByproduct e ∧ e' = { e with cls := none, type := .fromTechnosphere, amount := -e.amount, formula := e.formula.map fun f => "-1 * (" ++ f ++ ")" })
    ∨ (¬ NonAllocByproduct e ∧ e' = e ∧ (e.type = .byproduct → e.cls = some .allocatable)) := by
  unfold flipExchange at h
  split at h
  · next ht =>
    split at h
    · cases h
    · next hc => cases h; exact Or.inr ⟨by simp [NonAllocByproduct, hc], rfl, fun _ => hc⟩
    · next c hne hc =>
      cases h
      refine Or.inl ⟨⟨ht, ?_⟩, by simp⟩
      cases c
      · exact absurd rfl hne
      · exact Or.inl hc
      · exact Or.inr hc
  · next ht => cases h; exact Or.inr ⟨fun h => ht h.1, rfl, fun h => absurd h ht⟩

theorem flip_one {ds ds' : Dataset}
    (h : (do let ex ← mapE flipExchange ds.exchanges
             return { ds with exchanges := ex } : Except Err Dataset) = .ok ds') :
    ∃ ex, mapE flipExchange ds.exchanges = .ok ex ∧ ds' = { ds with exchanges := ex } := by
  obtain ⟨ex, h1, h2⟩ := bind_eq_ok.mp h
  exact ⟨ex, h1, (Except.ok.inj h2).symm⟩

theorem flip_net {l ex : List Exchange} (h : mapE flipExchange l = .ok ex) (ds : Dataset)
    (name : String) :
    netOutput { ds with exchanges := ex } name = netOutput { ds with exchanges := l } name := by
  unfold netOutput
  simp only
  have hF := mapE_ok_iff.mp h
  have h2 : List.Forall₂ (fun a b => flipExchange a = .ok b)
      (l.filter fun e => e.name == name) (ex.filter fun e => e.name == name) :=
    forall₂_filter_rel hF fun a b hab => by
      rcases flipExchange_inv hab with ⟨_, rfl⟩ | ⟨_, rfl, _⟩ <;> rfl
  rw [← forall₂_map_eq' (p := fun e : Exchange => flowSign e.type * e.amount) h2]
  intro a b hab
  rcases flipExchange_inv hab with ⟨⟨ht, _⟩, rfl⟩ | ⟨_, rfl, _⟩
  · simp [flowSign, ht]
  · rfl

/-- C21: `flip_non_allocatable_byproducts` works dataset by dataset, keeps every exchange (position,
name, id), leaves no waste or recyclable byproduct, does not touch anything else, and keeps the signed
net output of every flow in every dataset. -/
theorem C21_flip (data out : List Dataset) (h : flipNonAllocatableByproducts data = .ok out) :
    List.Forall₂ (fun ds ds' =>
      ds' = { ds with exchanges := ds'.exchanges } ∧
      List.Forall₂ (fun e e' => e'.name = e.name ∧ e'.id = e.id ∧
        (NonAllocByproduct e → e'.type = .fromTechnosphere ∧ e'.amount = -e.amount) ∧
        (¬ NonAllocByproduct e → e' = e)) ds.exchanges ds'.exchanges ∧
      (∀ e ∈ ds'.exchanges, ¬ NonAllocByproduct e) ∧
      ∀ name, netOutput ds' name = netOutput ds name) data out := by
  refine (mapE_ok_iff.mp h).imp fun ds ds' hd => ?_
  obtain ⟨ex, hex, rfl⟩ := flip_one hd
  refine ⟨rfl, ?_, ?_, fun name => flip_net hex ds name⟩
  · refine (mapE_ok_iff.mp hex).imp fun e e' he => ?_
    rcases flipExchange_inv he with ⟨hn, rfl⟩ | ⟨hn, rfl, _⟩
    · exact ⟨rfl, rfl, fun _ => ⟨rfl, rfl⟩, fun h => absurd hn h⟩
    · exact ⟨rfl, rfl, fun h => absurd h hn, fun _ => rfl⟩
  · intro e he
    obtain ⟨a, _, ha⟩ := mapE_mem hex he
    rcases flipExchange_inv ha with ⟨_, rfl⟩ | ⟨hn, rfl, _⟩
    · rintro ⟨h, _⟩; cases h
    · exact hn

/-- C21: applying the flip again changes nothing. -/
theorem C21_flip_idempotent (data out : List Dataset) (h : flipNonAllocatableByproducts data = .ok out) :
    flipNonAllocatableByproducts out = .ok out := by
  unfold flipNonAllocatableByproducts at *
  rw [mapE_congr (g := fun ds => .ok ds)]
  · rw [mapE_pure (fun ds => ds)]; simp
  · intro ds hds
    obtain ⟨ds0, _, hd⟩ := mapE_mem h hds
    obtain ⟨ex, hex, rfl⟩ := flip_one hd
    rw [mapE_congr (g := fun e => .ok e)]
    · rw [mapE_pure (fun e => e)]; simp
    · intro e he
      obtain ⟨a, _, ha⟩ := mapE_mem hex he
      rcases flipExchange_inv ha with ⟨_, rfl⟩ | ⟨hn, rfl, hc⟩
      · simp [flipExchange]
      · unfold flipExchange
        split
        · next ht => rw [hc ht]
        · rfl

/-- C21: it succeeds exactly when all byproducts are classified. -/
theorem C21_flip_total (data : List Dataset) :
    (∃ out, flipNonAllocatableByproducts data = .ok out) ↔ ∀ ds ∈ data, Classified ds := by
  constructor
  · rintro ⟨out, h⟩ ds hds e he ht hc
    obtain ⟨ds', _, hd⟩ := forall₂_mem_left (mapE_ok_iff.mp h) hds
    obtain ⟨ex, hex, -⟩ := flip_one hd
    obtain ⟨e', _, he'⟩ := forall₂_mem_left (mapE_ok_iff.mp hex) he
    simp [flipExchange, ht, hc] at he'
  · intro h
    refine mapE_ok_of_forall fun ds hds => ?_
    obtain ⟨ex, hex⟩ := mapE_ok_of_forall (f := flipExchange) (l := ds.exchanges) (by
      intro e he
      unfold flipExchange
      split
      · next ht =>
        rcases hc : e.cls with _ | c
        · exact absurd hc (h ds hds e he ht)
        · cases c <;> exact ⟨_, rfl⟩
      · exact ⟨_, rfl⟩)
    exact ⟨{ ds with exchanges := ex }, by simp [hex]⟩

example : flipNonAllocatableByproducts [{ name := "a", exchanges := [{ name := "w", type := .byproduct, cls := some .waste, amount := 3, formula := some "x" }] }] = .ok [{ name := "a", exchanges := [{ name := "w", type := .fromTechnosphere, amount := -3, formula := some "-1 * (x)" }] }] := by
  decide +kernel

/-! ## C22 -/

theorem scale_pm {l r : List Exchange} {f : Exchange → Except Err Exchange}
    (h : mapE f l = .ok r) (hf : ∀ a b, f a = .ok b → ScaledBy (-1) a b ∨ b = a) :
    List.Forall₂ (fun e e' => ScaledBy 1 e e' ∨ ScaledBy (-1) e e') l r :=
  (mapE_ok_iff.mp h).imp fun a b hab => by
    rcases hf a b hab with h | rfl
    · exact Or.inr h
    · exact Or.inl (.refl _)

/-- C22: after the sign adjustment a market whose reference product is not waste has a nonnegative
reference product amount; waste markets and all other datasets are returned unchanged; every exchange
keeps its absolute amount. -/
theorem C22_market_signs (M : MathEnv) (ds ds' : Dataset) (h : adjustMarketSigns M ds = .ok ds') :
    (ds.type ≠ .market → ds' = ds) ∧
    (ds.type = .market → ∃ rp rp', refs ds = [rp] ∧ refs ds' = [rp'] ∧ rp'.name = rp.name ∧
      (rp.cls = some .waste → ds' = ds) ∧
      (rp.cls ≠ some .waste → 0 ≤ rp'.amount) ∧ |rp'.amount| = |rp.amount|) ∧
    ds' = { ds with exchanges := ds'.exchanges } ∧
    List.Forall₂ (fun e e' => ScaledBy 1 e e' ∨ ScaledBy (-1) e e') ds.exchanges ds'.exchanges := by
  have hrefl : ∀ l : List Exchange, List.Forall₂ (fun e e' => ScaledBy 1 e e' ∨ ScaledBy (-1) e e') l l :=
    fun l => (forall₂_scaled_refl l).imp fun _ _ h => Or.inl h
  unfold adjustMarketSigns at h
  by_cases ht : ds.type = .market
  swap
  · rw [if_neg ht] at h
    cases h
    exact ⟨fun _ => rfl, fun h => absurd h ht, rfl, hrefl _⟩
  rw [if_pos ht] at h
  obtain ⟨rp, hrp, h⟩ := bind_eq_ok.mp h
  have hrp := getSingle_ok.mp hrp
  obtain ⟨cls, hcls, h⟩ := bind_eq_ok.mp h
  rw [getKey_eq_ok] at hcls
  have hrpm : rp ∈ ds.exchanges ∧ rp.type = .referenceProduct := by
    have : rp ∈ refs ds := by rw [hrp]; simp
    simpa [refs, List.mem_filter] using this
  have href : ∀ (f : Exchange → Except Err Exchange) (ex : List Exchange),
      mapE f ds.exchanges = .ok ex → (∀ a b, f a = .ok b → ScaledBy (-1) a b ∨ b = a) →
      ∃ rp', refs { ds with exchanges := ex } = [rp'] ∧ f rp = .ok rp' := by
    intro f ex hex hf
    have h1 := mapE_filter hex (p := fun e => e.type == .referenceProduct)
      (q := fun e => e.type == .referenceProduct) (by
        intro a _ b hab
        rcases hf a b hab with h | rfl
        · rw [h.type]
        · rfl)
    change mapE f (refs ds) = .ok (refs { ds with exchanges := ex }) at h1
    rw [hrp] at h1
    obtain ⟨b, r', hb, hr', he⟩ := mapE_cons_ok.mp h1
    cases hr'
    exact ⟨b, he, hb⟩
  split at h
  · next hc =>
    obtain ⟨ex, hex, h⟩ := bind_eq_ok.mp h
    cases h
    obtain ⟨rp', hr', hb⟩ := href _ ex hex fun a b hab => Or.inl (scaleExchange_scaled hab)
    have hs := scaleExchange_scaled hb
    refine ⟨fun h => absurd ht h, fun _ => ⟨rp, rp', hrp, hr', hs.name, ?_, ?_, ?_⟩, rfl, ?_⟩
    · intro hw; rw [hcls] at hw; cases hw; exact absurd rfl hc.1
    · intro _
      rw [hs.amount]
      have := List.all_eq_true.mp hc.2 rp hrpm.1
      have : rp.amount ≤ 0 := by simpa using this
      linarith
    · rw [hs.amount]; simp
    · exact scale_pm hex fun a b hab => Or.inl (scaleExchange_scaled hab)
  · next hc =>
    split at h
    · next hc2 =>
      obtain ⟨ex, hex, h⟩ := bind_eq_ok.mp h
      cases h
      have hf : ∀ a b, (if a.name = rp.name then scaleExchange M a (-1) else .ok a) = .ok b →
          ScaledBy (-1) a b ∨ b = a := by
        intro a b hab
        split at hab
        · exact Or.inl (scaleExchange_scaled hab)
        · cases hab; exact Or.inr rfl
      obtain ⟨rp', hr', hb⟩ := href _ ex hex hf
      simp only [if_true] at hb
      have hs := scaleExchange_scaled hb
      refine ⟨fun h => absurd ht h, fun _ => ⟨rp, rp', hrp, hr', hs.name, ?_, ?_, ?_⟩, rfl, ?_⟩
      · intro hw; rw [hcls] at hw; cases hw; exact absurd rfl hc2.1
      · intro _
        rw [hs.amount]
        linarith [hc2.2]
      · rw [hs.amount]; simp
      · exact scale_pm hex hf
    · next hc2 =>
      cases h
      refine ⟨fun _ => rfl, fun _ => ⟨rp, rp, hrp, hrp, rfl, fun _ => rfl, ?_, rfl⟩, rfl, hrefl _⟩
      intro hw
      rw [hcls] at hw
      have : cls ≠ .waste := fun h => hw (by rw [h])
      by_contra hlt
      exact hc2 ⟨this, not_le.mp hlt⟩

/-- C22: the whole step is the per-dataset adjustment, in order; hence after it no market with a
non-waste reference product produces a negative amount. -/
theorem C22_market_signs_all (M : MathEnv) (data out : List Dataset)
    (h : adjustMarketSignsAll M data = .ok out) :
    out.length = data.length ∧ ∀ ds ∈ out, ds.type = .market →
      ∃ rp, refs ds = [rp] ∧ (rp.cls ≠ some .waste → 0 ≤ rp.amount) := by
  refine ⟨mapE_length h, ?_⟩
  intro ds hds ht
  obtain ⟨ds0, _, hd⟩ := mapE_mem h hds
  obtain ⟨h1, h2, h3, h4⟩ := C22_market_signs M ds0 ds hd
  have ht0 : ds0.type = .market := by rw [h3] at ht; exact ht
  obtain ⟨rp, rp', hr, hr', hn, hw, hnw, -⟩ := h2 ht0
  refine ⟨rp', hr', ?_⟩
  intro hc
  by_cases hrw : rp.cls = some .waste
  · have := hw hrw
    subst this
    rw [hr] at hr'
    have : rp = rp' := by simpa using hr'
    rw [this] at hrw; exact absurd hrw hc
  · exact hnw hrw

/-- A market whose reference product lost its classification makes the step fail with `KeyError`. -/
theorem C22_unclassified_fails (M : MathEnv) (ds : Dataset) (rp : Exchange) (ht : ds.type = .market)
    (hr : refs ds = [rp]) (hc : rp.cls = none) : adjustMarketSigns M ds = .error .keyError := by
  simp [adjustMarketSigns, ht, getSingle_ok.mpr hr, hc]

example : adjustMarketSigns sampleM { name := "market for x", type := .market, exchanges := [{ name := "x", type := .referenceProduct, cls := some .allocatable, amount := -1 }, { name := "y", type := .fromTechnosphere, amount := 2 }] } = .ok { name := "market for x", type := .market, exchanges := [{ name := "x", type := .referenceProduct, cls := some .allocatable, amount := 1 }, { name := "y", type := .fromTechnosphere, amount := 2 }] } := by
  decide +kernel

/-! ## C23 -/

/-- `data` with each exchange list replaced. -/
def Spec.onExchanges (f : List Exchange → List Exchange) (data : List Dataset) : List Dataset :=
  data.map fun ds => { ds with exchanges := f ds.exchanges }

/-- The exchange is marked as used by the consequential model only. -/
def Spec.Consequential (e : Exchange) : Prop :=
  ∃ p ∈ e.properties, p.name = "consequential" ∧ p.amount = 1

theorem hasConsequential_iff (e : Exchange) : hasConsequentialProperty e = true ↔ Consequential e := by
  simp [hasConsequentialProperty, Consequential]

/-- C23: removal keeps exactly the exchanges without a `consequential = 1` property, in order, and
touches nothing else. -/
theorem C23_remove_consequential (data : List Dataset) :
    ∃ f : List Exchange → List Exchange,
      removeConsequentialExchanges data = onExchanges f data ∧
      ∀ l, (f l).Sublist l ∧ (∀ e, e ∈ f l ↔ e ∈ l ∧ ¬ Consequential e) ∧
        ∀ e, ¬ Consequential e → (f l).count e = l.count e := by
  refine ⟨fun l => l.filter fun e => !hasConsequentialProperty e, rfl, fun l => ⟨List.filter_sublist, ?_, ?_⟩⟩
  · intro e
    rw [List.mem_filter, ← hasConsequential_iff]
    simp
  · intro e he
    rw [List.count_filter]
    rw [← hasConsequential_iff] at he
    simpa using he

/-- C23: `drop_rp_activity_links` removes the link from exactly the reference and dropped products
and changes nothing else. -/
theorem C23_drop_rp_links (data : List Dataset) :
    ∃ g : Exchange → Exchange, dropRpActivityLinks data = onExchanges (List.map g) data ∧
      ∀ e, (g e = e ∨ g e = { e with activityLink := none }) ∧
        ((e.type = .referenceProduct ∨ e.type = .droppedProduct) → (g e).activityLink = none ∨ (g e).activityLink = some "") ∧
        (¬ (e.type = .referenceProduct ∨ e.type = .droppedProduct) → g e = e) := by
  refine ⟨dropRpLink, rfl, fun e => ⟨?_, ?_, ?_⟩⟩
  · unfold dropRpLink; split <;> simp
  · intro h
    unfold dropRpLink
    split
    · simp
    · next hn =>
      rcases hl : e.activityLink with _ | s
      · simp
      · right
        by_contra hne
        exact hn ⟨h, by simp only [hl, truthy]; simpa using fun h => hne (by rw [h])⟩
  · intro h; unfold dropRpLink; rw [if_neg (fun hh => h hh.1)]

/-- C23: `drop_zero_amount_activity_links` removes the link from exactly the zero-amount exchanges and
changes nothing else. -/
theorem C23_drop_zero_links (data : List Dataset) :
    ∃ g : Exchange → Exchange, dropZeroAmountActivityLinks data = onExchanges (List.map g) data ∧
      ∀ e, (g e = e ∨ g e = { e with activityLink := none }) ∧
        (e.amount = 0 → (g e).activityLink = none ∨ (g e).activityLink = some "") ∧
        (e.amount ≠ 0 → g e = e) := by
  refine ⟨dropZeroLink, rfl, fun e => ⟨?_, ?_, ?_⟩⟩
  · unfold dropZeroLink; split <;> simp
  · intro h
    unfold dropZeroLink
    split
    · simp
    · next hn =>
      rcases hl : e.activityLink with _ | s
      · simp
      · right
        by_contra hne
        exact hn ⟨h, by simp only [hl, truthy]; simpa using fun h => hne (by rw [h])⟩
  · intro h; unfold dropZeroLink; rw [if_neg (fun hh => h hh.1)]

theorem dropRpLink_idem (e : Exchange) : dropRpLink (dropRpLink e) = dropRpLink e := by
  unfold dropRpLink
  split <;> simp_all [truthy]

theorem dropZeroLink_idem (e : Exchange) : dropZeroLink (dropZeroLink e) = dropZeroLink e := by
  unfold dropZeroLink
  split <;> simp_all [truthy]

theorem drop_links_comm (e : Exchange) : dropZeroLink (dropRpLink e) = dropRpLink (dropZeroLink e) := by
  have h0 : truthy none = false := rfl
  unfold dropZeroLink dropRpLink
  by_cases h1 : e.amount = 0 <;> by_cases h2 : truthy e.activityLink = true <;>
    by_cases h3 : (e.type = .referenceProduct ∨ e.type = .droppedProduct) <;> simp [h0, h1, h2, h3]

/-- C23: the three functions are idempotent and commute with each other. -/
theorem C23_cleanup_laws (data : List Dataset) :
    removeConsequentialExchanges (removeConsequentialExchanges data) = removeConsequentialExchanges data ∧
    dropRpActivityLinks (dropRpActivityLinks data) = dropRpActivityLinks data ∧
    dropZeroAmountActivityLinks (dropZeroAmountActivityLinks data) = dropZeroAmountActivityLinks data ∧
    dropZeroAmountActivityLinks (dropRpActivityLinks data) = dropRpActivityLinks (dropZeroAmountActivityLinks data) ∧
    removeConsequentialExchanges (dropRpActivityLinks data) = dropRpActivityLinks (removeConsequentialExchanges data) ∧
    removeConsequentialExchanges (dropZeroAmountActivityLinks data) = dropZeroAmountActivityLinks (removeConsequentialExchanges data) := by
  have hr : ∀ e, hasConsequentialProperty (dropRpLink e) = hasConsequentialProperty e := by
    intro e; unfold dropRpLink; split <;> rfl
  have hz : ∀ e, hasConsequentialProperty (dropZeroLink e) = hasConsequentialProperty e := by
    intro e; unfold dropZeroLink; split <;> rfl
  unfold removeConsequentialExchanges dropRpActivityLinks dropZeroAmountActivityLinks
  simp only [List.map_map, List.map_inj_left, Function.comp]
  refine ⟨?_, ?_, ?_, ?_, ?_, ?_⟩ <;> intro ds _
  · simp [List.filter_filter]
  · simp [Function.comp_def, dropRpLink_idem]
  · simp [Function.comp_def, dropZeroLink_idem]
  · simp [Function.comp_def, drop_links_comm]
  · simp [List.filter_map, Function.comp_def, hr]
  · simp [List.filter_map, Function.comp_def, hz]

example : dropRpActivityLinks [{ name := "a", exchanges := [{ name := "p", type := .referenceProduct, amount := 1, activityLink := some "7" }, { name := "i", type := .fromTechnosphere, amount := 1, activityLink := some "8" }] }] = [{ name := "a", exchanges := [{ name := "p", type := .referenceProduct, amount := 1 }, { name := "i", type := .fromTechnosphere, amount := 1, activityLink := some "8" }] }] := by
  decide +kernel

/-! ## C24 -/

/-- The suffix marking recycled content flows. -/
def Spec.rcSuffix : String := ", Recycled Content cut-off"

/-- A byproduct classified as recyclable. -/
def Spec.RecyclableByproduct (e : Exchange) : Prop := e.type = .byproduct ∧ e.cls = some .recyclable

instance (e : Exchange) : Decidable (RecyclableByproduct e) := by
  unfold RecyclableByproduct; infer_instance

/-- The exchange with the suffix added to its name if it is a recyclable byproduct. -/
def Spec.markRecyclable (e : Exchange) : Exchange :=
  if RecyclableByproduct e then { e with name := e.name ++ rcSuffix } else e

theorem isRecyclable_inv {e : Exchange} {b : Bool} (h : isRecyclableByproduct e = .ok b) :
    b = decide (RecyclableByproduct e) := by
  unfold isRecyclableByproduct at h
  split at h
  · next ht =>
    split at h
    · cases h
    · next c hc =>
      cases h
      cases c <;> simp [RecyclableByproduct, ht, hc]
  · next ht => cases h; simp [RecyclableByproduct, ht]

theorem renameRecyclable_inv {e e' : Exchange} (h : renameRecyclable e = .ok e') :
    e' = markRecyclable e := by
  unfold renameRecyclable at h
  obtain ⟨b, hb, h⟩ := bind_eq_ok.mp h
  have := isRecyclable_inv hb
  subst this
  cases h
  by_cases hr : RecyclableByproduct e <;> simp [markRecyclable, hr, rcSuffix, rcString]

theorem filterE_spec {α : Type} {p : α → Except Err Bool} {q : α → Bool} {l r : List α}
    (h : filterE p l = .ok r) (hq : ∀ a b, p a = .ok b → b = q a) : r = l.filter q := by
  induction l generalizing r with
  | nil => cases h; rfl
  | cons a l ih =>
    obtain ⟨b, r', hb, hr', rfl⟩ := filterE_cons_ok.mp h
    rw [ih hr', hq a b hb, List.filter_cons]

theorem newRc_inv {ds d : Dataset} {e : Exchange} (h : newRecycledContentDataset ds e = .ok d) :
    d.name = e.name ∧ d.location = "GLO" ∧ d.type = .transforming ∧ d.refProduct = some e.name ∧
    d.parameters = [] ∧
    d.exchanges = [{ amount := 1, id := e.id, name := e.name, tag := "intermediateExchange", type := .referenceProduct, pv := some { amount := 4 }, unit := e.unit }] := by
  unfold newRecycledContentDataset at h
  obtain ⟨a, _, h⟩ := bind_eq_ok.mp h
  obtain ⟨b, _, h⟩ := bind_eq_ok.mp h
  obtain ⟨c, _, h⟩ := bind_eq_ok.mp h
  cases h
  exact ⟨rfl, rfl, rfl, rfl, rfl, rfl⟩

/-- C24: after `handle_waste_outputs` the original datasets come first, in order, with exactly the
recyclable byproducts renamed; then follow the recycled content datasets: pairwise different names,
exactly the names of the recyclable byproducts, each in GLO with one reference product of amount 1 and
nothing else. -/
theorem C24_recycled_content (data out : List Dataset) (h : handleWasteOutputs data = .ok out) :
    ∃ renamed new, out = renamed ++ new ∧
      List.Forall₂ (fun ds ds' => ds' = { ds with exchanges := ds.exchanges.map markRecyclable }) data renamed ∧
      (new.map (·.name)).Nodup ∧
      (∀ n, n ∈ new.map (·.name) ↔
        ∃ ds ∈ data, ∃ e ∈ ds.exchanges, RecyclableByproduct e ∧ n = e.name ++ rcSuffix) ∧
      ∀ d ∈ new, d.location = "GLO" ∧ d.type = .transforming ∧ d.refProduct = some d.name ∧
        ∃ rp, d.exchanges = [rp] ∧ rp.type = .referenceProduct ∧ rp.amount = 1 ∧ rp.name = d.name := by
  unfold handleWasteOutputs at h
  obtain ⟨renamed, hr, h⟩ := bind_eq_ok.mp h
  unfold createRecycledContentDatasets at h
  obtain ⟨c, hc, h⟩ := bind_eq_ok.mp h
  cases h
  have hrel : List.Forall₂ (fun ds ds' : Dataset => ds' = { ds with exchanges := ds.exchanges.map markRecyclable }) data renamed := by
    refine (mapE_ok_iff.mp hr).imp fun ds ds' hd => ?_
    obtain ⟨ex, hex, h⟩ := bind_eq_ok.mp hd
    cases h
    have : ex = ds.exchanges.map markRecyclable := by
      have := forall₂_map_eq' (p := markRecyclable)
        (q := fun e => e) (mapE_ok_iff.mp hex) fun a b hab => (renameRecyclable_inv hab).symm
      simpa using this.symm
    rw [this]
  have hkeys : (dictOf (fun d : Dataset => d.name) (fun d => d) c).map (fun p => p.2.name)
      = (dictOf (fun d : Dataset => d.name) (fun d => d) c).map (·.1) := by
    apply List.map_congr_left
    rintro ⟨k, v⟩ hkv
    obtain ⟨a, _, hk, hv⟩ := dictOf_mem_src hkv
    show v.name = k
    rw [← hv, ← hk]
  have hcm : ∀ d ∈ c, ∃ ds ∈ renamed, ∃ e ∈ ds.exchanges, RecyclableByproduct e ∧
      newRecycledContentDataset ds e = .ok d := by
    intro d hd
    obtain ⟨ds, hds, b, hb, hdb⟩ := flatMapE_mem hc hd
    obtain ⟨recs, hrecs, hm⟩ := bind_eq_ok.mp hb
    obtain ⟨e, he, hne⟩ := mapE_mem hm hdb
    rw [filterE_spec hrecs fun a b => isRecyclable_inv (e := a)] at he
    rw [List.mem_filter] at he
    exact ⟨ds, hds, e, he.1, by simpa using he.2, hne⟩
  have hcm' : ∀ ds ∈ renamed, ∀ e ∈ ds.exchanges, RecyclableByproduct e →
      ∃ d ∈ c, newRecycledContentDataset ds e = .ok d := by
    intro ds hds e he hre
    obtain ⟨bs, hbs, rfl⟩ := flatMapE_ok_iff.mp hc
    obtain ⟨b, hbm, hb⟩ := forall₂_mem_left (mapE_ok_iff.mp hbs) hds
    obtain ⟨recs, hrecs, hm⟩ := bind_eq_ok.mp hb
    have hrecs := filterE_spec hrecs fun a b => isRecyclable_inv (e := a)
    obtain ⟨d, hd, hne⟩ := forall₂_mem_left (mapE_ok_iff.mp hm) (a := e) (by
      rw [hrecs, List.mem_filter]; exact ⟨he, by simpa using hre⟩)
    exact ⟨d, List.mem_flatten.mpr ⟨b, hbm, hd⟩, hne⟩
  have hren : ∀ e : Exchange, RecyclableByproduct (markRecyclable e) ↔ RecyclableByproduct e := by
    intro e; by_cases he : RecyclableByproduct e
    · unfold markRecyclable; rw [if_pos he]; exact Iff.rfl
    · unfold markRecyclable; rw [if_neg he]
  refine ⟨renamed, _, rfl, hrel, ?_, ?_, ?_⟩
  · rw [List.map_map]
    change (List.map (fun p : String × Dataset => p.2.name) _).Nodup
    rw [hkeys]; exact dictOf_nodup _ _ _
  · intro n
    rw [List.map_map]
    change n ∈ List.map (fun p : String × Dataset => p.2.name) _ ↔ _
    rw [hkeys, dictOf_keys_mem]
    constructor
    · rintro ⟨d, hd, rfl⟩
      obtain ⟨ds', hds', e', he', hre, hne⟩ := hcm d hd
      obtain ⟨ds, hds, rfl⟩ := forall₂_mem_right hrel hds'
      simp only [List.mem_map] at he'
      obtain ⟨e, he, rfl⟩ := he'
      rw [hren] at hre
      refine ⟨ds, hds, e, he, hre, ?_⟩
      rw [(newRc_inv hne).1, markRecyclable, if_pos hre]
    · rintro ⟨ds, hds, e, he, hre, rfl⟩
      obtain ⟨ds', hds', rfl⟩ := forall₂_mem_left hrel hds
      obtain ⟨d, hd, hne⟩ := hcm' _ hds' (markRecyclable e)
        (List.mem_map.mpr ⟨e, he, rfl⟩) ((hren e).mpr hre)
      refine ⟨d, hd, ?_⟩
      rw [(newRc_inv hne).1, markRecyclable, if_pos hre]
  · intro d hd
    obtain ⟨⟨k, v⟩, hkv, rfl⟩ := List.mem_map.mp hd
    obtain ⟨a, ha, _, hv⟩ := dictOf_mem_src hkv
    subst hv
    obtain ⟨ds', _, e', _, _, hne⟩ := hcm a ha
    obtain ⟨h1, h2, h3, h4, -, h6⟩ := newRc_inv hne
    exact ⟨h2, h3, by rw [h4, h1], _, h6, rfl, rfl, h1.symm⟩

/-- Every recyclable byproduct together with the dataset it belongs to, in the order of the datasets. -/
def Spec.recyclables (data : List Dataset) : List (Dataset × Exchange) :=
  data.flatMap fun ds => (ds.exchanges.filter fun e => decide (RecyclableByproduct e)).map fun e => (ds, e)

/-- The dataset that takes up the recyclable byproduct `e` of `ds`: nothing but one unit of the renamed
byproduct as reference product (with the fixed production volume of four), and the identifiers, dates,
technology level and authorship of `ds`. -/
def Spec.takeUp (ds : Dataset) (e : Exchange) : Dataset :=
  { name := e.name ++ rcSuffix, location := "GLO", type := .transforming, refProduct := some (e.name ++ rcSuffix), parameters := [], exchanges := [{ type := .referenceProduct, amount := 1, name := e.name ++ rcSuffix, id := e.id, unit := e.unit, tag := "intermediateExchange", pv := some { amount := 4 } }], id := ds.id, filepath := ds.filepath, startDate := ds.startDate, endDate := ds.endDate, technologyLevel := ds.technologyLevel, extra := ds.extra }

theorem newRc_takeUp {ds d : Dataset} {e : Exchange} {ex : List Exchange} (he : RecyclableByproduct e) (h : newRecycledContentDataset { ds with exchanges := ex } (markRecyclable e) = .ok d) :
    d = takeUp ds e := by
  unfold newRecycledContentDataset at h
  obtain ⟨a, ha, h⟩ := bind_eq_ok.mp h
  obtain ⟨b, hb, h⟩ := bind_eq_ok.mp h
  obtain ⟨c, hc, h⟩ := bind_eq_ok.mp h
  cases h
  have ha : ds.startDate = some a := getKey_eq_ok.mp ha
  have hb : ds.endDate = some b := getKey_eq_ok.mp hb
  have hc : ds.technologyLevel = some c := getKey_eq_ok.mp hc
  simp only [takeUp, markRecyclable, if_pos he, ha, hb, hc]

/-- C24: each recycled content dataset is the one that takes up a recyclable byproduct of the input, and
of several of the same name it is the last one of the input that is taken up. -/
theorem C24_taken_up (data out : List Dataset) (h : handleWasteOutputs data = .ok out) :
    ∃ renamed new, out = renamed ++ new ∧ renamed.length = data.length ∧
      ∀ d ∈ new, ∃ before ds e after, recyclables data = before ++ (ds, e) :: after ∧
        (∀ x ∈ after, x.2.name ≠ e.name) ∧ d = takeUp ds e := by
  unfold handleWasteOutputs at h
  obtain ⟨renamed, hr, h⟩ := bind_eq_ok.mp h
  unfold createRecycledContentDatasets at h
  obtain ⟨c, hc, h⟩ := bind_eq_ok.mp h
  cases h
  have hren : ∀ e : Exchange, RecyclableByproduct (markRecyclable e) ↔ RecyclableByproduct e := by
    intro e; by_cases he : RecyclableByproduct e
    · unfold markRecyclable; rw [if_pos he]; exact Iff.rfl
    · unfold markRecyclable; rw [if_neg he]
  refine ⟨renamed, _, rfl, (mapE_ok_iff.mp hr).length_eq.symm, ?_⟩
  have hpairs : c = (recyclables data).map fun x => takeUp x.1 x.2 := by
    rename_i hout
    clear hout h
    induction data generalizing renamed c with
    | nil => cases hr; cases hc; rfl
    | cons ds data ih =>
      obtain ⟨ds', rest, hd, hrest, rfl⟩ := mapE_cons_ok.mp hr
      obtain ⟨b, r, hb, hr', rfl⟩ := flatMapE_cons_ok.mp hc
      rw [ih rest hrest r hr']
      obtain ⟨ex, hex, hd⟩ := bind_eq_ok.mp hd
      cases hd
      have hexm : ex = ds.exchanges.map markRecyclable := by
        have := forall₂_map_eq' (p := markRecyclable)
          (q := fun e => e) (mapE_ok_iff.mp hex) fun a b hab => (renameRecyclable_inv hab).symm
        simpa using this.symm
      obtain ⟨recs, hrecs, hm⟩ := bind_eq_ok.mp hb
      have hrecs := filterE_spec hrecs fun a b => isRecyclable_inv (e := a)
      have hrecs : recs = (ds.exchanges.filter fun e => decide (RecyclableByproduct e)).map markRecyclable := by
        rw [hrecs]
        simp only [hexm, List.filter_map]
        congr 1
        apply List.filter_congr
        intro e _
        simp [hren]
      subst hrecs
      have hb : b = (ds.exchanges.filter fun e => decide (RecyclableByproduct e)).map fun e => takeUp ds e := by
        have hf := mapE_ok_iff.mp hm
        rw [List.forall₂_map_left_iff] at hf
        have : ∀ (l : List Exchange) (b : List Dataset), (∀ e ∈ l, RecyclableByproduct e) → List.Forall₂ (fun e d => newRecycledContentDataset { ds with exchanges := ex } (markRecyclable e) = .ok d) l b → b = l.map fun e => takeUp ds e := by
          intro l b hl hlb
          induction hlb with
          | nil => rfl
          | cons h1 _ ih' => rw [List.map_cons, ← ih' fun e he => hl e (by simp [he]), newRc_takeUp (hl _ (by simp)) h1]
        exact this _ _ (fun e he => by simpa using (List.mem_filter.mp he).2) hf
      rw [hb]
      simp [recyclables]
  intro d hd
  obtain ⟨⟨k, v⟩, hkv, rfl⟩ := List.mem_map.mp hd
  obtain ⟨l₁, a, l₂, hl, hk, hv, hlast⟩ := (dictOf_mem _ _ _ _ _).mp hkv
  rw [hpairs] at hl
  obtain ⟨p₁, p₂, hp, rfl, h2⟩ := List.map_eq_append_iff.mp hl
  obtain ⟨⟨ds, e⟩, p₃, rfl, rfl, rfl⟩ := List.map_eq_cons_iff.mp h2
  refine ⟨p₁, ds, e, p₃, hp, fun x hx hn => ?_, hv.symm⟩
  refine hlast (takeUp x.1 x.2) (List.mem_map.mpr ⟨x, hx, rfl⟩) ?_
  rw [← hk]
  show x.2.name ++ rcSuffix = e.name ++ rcSuffix
  rw [hn]

/-- C24: it cannot fail when byproducts are classified and the datasets have dates and a technology
level. -/
theorem C24_total (data : List Dataset) (hcl : ∀ ds ∈ data, Classified ds)
    (hmeta : ∀ ds ∈ data, ds.startDate ≠ none ∧ ds.endDate ≠ none ∧ ds.technologyLevel ≠ none) :
    ∃ out, handleWasteOutputs data = .ok out := by
  have hrec : ∀ e : Exchange, (e.type = .byproduct → e.cls ≠ none) → ∃ b, isRecyclableByproduct e = .ok b := by
    intro e he
    unfold isRecyclableByproduct
    split
    · next ht =>
      rcases hc : e.cls with _ | c
      · exact absurd hc (he ht)
      · exact ⟨_, rfl⟩
    · exact ⟨_, rfl⟩
  obtain ⟨renamed, hr⟩ := mapE_ok_of_forall (f := fun ds : Dataset => (do
      let ex ← mapE renameRecyclable ds.exchanges
      return { ds with exchanges := ex } : Except Err Dataset)) (l := data) (by
    intro ds hds
    obtain ⟨ex, hex⟩ := mapE_ok_of_forall (f := renameRecyclable) (l := ds.exchanges) (by
      intro e he
      obtain ⟨b, hb⟩ := hrec e (hcl ds hds e he)
      exact ⟨_, by unfold renameRecyclable; rw [hb]; rfl⟩)
    exact ⟨_, by rw [hex]; rfl⟩)
  have hok : ∃ c, recycledContentCandidates renamed = .ok c := by
    unfold recycledContentCandidates
    have : ∀ ds ∈ renamed, ∃ b, (do
        let recs ← filterE isRecyclableByproduct ds.exchanges
        mapE (newRecycledContentDataset ds) recs : Except Err (List Dataset)) = .ok b := by
      intro ds' hds'
      obtain ⟨ds, hds, hd⟩ := forall₂_mem_right (mapE_ok_iff.mp hr) hds'
      obtain ⟨ex, hex, h⟩ := bind_eq_ok.mp hd
      cases h
      have hf := filterE_eq_filter (p := isRecyclableByproduct) (q := fun e => decide (RecyclableByproduct e)) (l := ex) (by
        intro e' he'
        obtain ⟨e, he, hee⟩ := mapE_mem hex he'
        have := renameRecyclable_inv hee
        obtain ⟨b, hb⟩ := hrec e' (by
          rw [this]
          unfold markRecyclable
          split
          · exact hcl ds hds e he
          · exact hcl ds hds e he)
        rw [hb, isRecyclable_inv hb])
      obtain ⟨h1, h2, h3⟩ := hmeta ds hds
      obtain ⟨s, hs⟩ := Option.ne_none_iff_exists'.mp h1
      obtain ⟨t, ht⟩ := Option.ne_none_iff_exists'.mp h2
      obtain ⟨u, hu⟩ := Option.ne_none_iff_exists'.mp h3
      obtain ⟨ms, hms⟩ := mapE_ok_of_forall (f := newRecycledContentDataset { ds with exchanges := ex })
        (l := ex.filter fun e => decide (RecyclableByproduct e)) (by
          intro e _
          exact ⟨_, by unfold newRecycledContentDataset; simp only [hs, ht, hu]; rfl⟩)
      exact ⟨ms, by simp only; rw [hf]; exact hms⟩
    clear hr hmeta hcl
    induction renamed with
    | nil => exact ⟨[], rfl⟩
    | cons a l ih =>
      obtain ⟨b, hb⟩ := this a (by simp)
      obtain ⟨r, hr⟩ := ih fun d hd => this d (by simp [hd])
      exact ⟨b ++ r, flatMapE_cons_ok.mpr ⟨b, r, hb, hr, rfl⟩⟩
  obtain ⟨c, hc⟩ := hok
  refine ⟨renamed ++ (dictOf (fun d : Dataset => d.name) (fun d => d) c).map (·.2), ?_⟩
  unfold handleWasteOutputs renameRecyclableContentExchanges
  rw [hr]
  simp [createRecycledContentDatasets, hc]

example : (handleWasteOutputs [{ name := "a", startDate := some "s", endDate := some "e", technologyLevel := some "t", exchanges := [{ name := "scrap", type := .byproduct, cls := some .recyclable, amount := 3 }] }, { name := "b", startDate := some "s", endDate := some "e", technologyLevel := some "t", exchanges := [{ name := "scrap", type := .byproduct, cls := some .recyclable, amount := 1 }] }]).toOption.map (List.map (·.name)) = some ["a", "b", "scrap, Recycled Content cut-off"] := by
  decide +kernel

/-- Two activities produce the same scrap: the second one is taken up. -/
example : ∃ out, handleWasteOutputs [{ name := "a", id := "1", startDate := some "s", endDate := some "e", technologyLevel := some "t", exchanges := [{ name := "scrap", type := .byproduct, cls := some .recyclable, amount := 3 }] }, { name := "b", id := "2", startDate := some "s'", endDate := some "e'", technologyLevel := some "t'", exchanges := [{ name := "scrap", type := .byproduct, cls := some .recyclable, amount := 1 }] }] = .ok out ∧ (out.drop 2).map (fun d => (d.id, d.startDate, d.technologyLevel)) = [("2", some "s'", some "t'")] :=
  ⟨_, rfl, by decide +kernel⟩

/-! ## C25 -/

theorem removeSub_append (h : Char) (t : List Char) (ht : h ∉ t) (n : List Char)
    (hn : ¬ (h :: t) <:+: n) (fuel : Nat) (hf : n.length < fuel) :
    removeSub (h :: t) fuel (n ++ h :: t) = n := by
  induction n generalizing fuel with
  | nil =>
    obtain ⟨m, rfl⟩ : ∃ m, fuel = m + 1 := ⟨fuel - 1, by simp at hf; omega⟩
    simp only [List.nil_append, removeSub]
    rw [if_pos (by simp)]
    simp only [List.drop_length]
    cases m <;> rfl
  | cons c n ih =>
    obtain ⟨m, rfl⟩ : ∃ m, fuel = m + 1 := ⟨fuel - 1, by omega⟩
    have hnp : ¬ (h :: t).isPrefixOf (c :: n ++ h :: t) = true := by
      rw [List.isPrefixOf_iff_prefix]
      intro hp
      rcases List.prefix_or_prefix_of_prefix hp (List.prefix_append (c :: n) (h :: t)) with h1 | ⟨r, h1⟩
      · exact hn h1.isInfix
      · have h2 := hp
        rw [← h1, List.prefix_append_right_inj] at h2
        rw [h1] at h2
        rcases r with _ | ⟨x, r⟩
        · apply hn; rw [← h1]; simp
        · rw [List.cons_prefix_cons] at h2
          rw [List.cons_append, List.cons.injEq] at h1
          apply ht
          rw [← h1.2, ← h2.1]
          simp
    simp only [List.cons_append, removeSub]
    rw [if_neg (by simpa using hnp)]
    rw [ih (fun hi => hn (hi.trans (List.suffix_cons c n).isInfix)) m (by simpa using hf)]


theorem rcString_toList : rcString.toList = ',' :: " Recycled Content cut-off".toList := by
  decide +kernel

theorem stripRc_append (n : String) (hn : ¬ rcSuffix.toList <:+: n.toList) : stripRc (n ++ rcSuffix) = n := by
  change ¬ rcString.toList <:+: n.toList at hn
  change stripRc (n ++ rcString) = n
  unfold stripRc
  rw [if_pos (by simp), String.toList_append]
  rw [rcString_toList] at hn ⊢
  rw [removeSub_append ',' _ (by decide +kernel) _ hn]
  · simp
  · simp

theorem stripRc_other (n : String) (hn : ¬ rcSuffix.toList <:+ n.toList) : stripRc n = n := by
  unfold stripRc
  rw [if_neg]
  rw [List.isSuffixOf_iff_suffix]
  exact hn

/-- C25: `rename_recycled_content_products_after_linking` applies one text function to all exchange
names and to the reference product and changes nothing else; that function removes a suffix added to a
name not containing it, and leaves names not ending with it alone. -/
theorem C25_rename (data : List Dataset) :
    ∃ g : String → String,
      renameRecycledContentAfterLinking data = data.map (fun ds =>
        { ds with exchanges := ds.exchanges.map (fun e => { e with name := g e.name }), refProduct := ds.refProduct.map g }) ∧
      (∀ n, ¬ rcSuffix.toList <:+: n.toList → g (n ++ rcSuffix) = n) ∧
      ∀ n, ¬ rcSuffix.toList <:+ n.toList → g n = n :=
  ⟨stripRc, rfl, stripRc_append, stripRc_other⟩

/-- C25: on data in which no name contains the suffix, renaming recyclable byproducts and stripping
the suffix again gives back the data, dataset by dataset. -/
theorem C25_roundtrip (data renamed : List Dataset)
    (h : renameRecyclableContentExchanges data = .ok renamed)
    (hex : ∀ ds ∈ data, ∀ e ∈ ds.exchanges, ¬ rcSuffix.toList <:+: e.name.toList)
    (hrp : ∀ ds ∈ data, ∀ n, ds.refProduct = some n → ¬ rcSuffix.toList <:+: n.toList) :
    renameRecycledContentAfterLinking renamed = data := by
  have hF := mapE_forall₂_mem h
  have := forall₂_map_eq' (p := fun ds : Dataset => ds) (q := fun ds : Dataset => { ds with exchanges := ds.exchanges.map (fun e => { e with name := stripRc e.name }), refProduct := ds.refProduct.map stripRc }) hF (by
    rintro ds ds' ⟨hm, hd⟩
    obtain ⟨ex, hx, h⟩ := bind_eq_ok.mp hd
    cases h
    have h1 : ex.map (fun e => { e with name := stripRc e.name }) = ds.exchanges := by
      have := forall₂_map_eq' (p := fun e : Exchange => e) (q := fun e : Exchange => { e with name := stripRc e.name }) (mapE_forall₂_mem hx) (by
        rintro e e' ⟨he, hee⟩
        rw [renameRecyclable_inv hee]
        unfold markRecyclable
        have hn := hex ds hm e he
        split
        · simp only [stripRc_append _ hn]
        · rw [stripRc_other _ fun h => hn h.isInfix])
      simpa using this.symm
    have h2 : ds.refProduct.map stripRc = ds.refProduct := by
      rcases hr : ds.refProduct with _ | n
      · rfl
      · simp [stripRc_other n fun h => hrp ds hm n hr h.isInfix]
    simp only [h1, h2])
  simpa [renameRecycledContentAfterLinking] using this.symm

example : renameRecycledContentAfterLinking [{ name := "a", refProduct := some "steel, Recycled Content cut-off", exchanges := [{ name := "steel, Recycled Content cut-off", type := .referenceProduct, amount := 1 }] }] = [{ name := "a", refProduct := some "steel", exchanges := [{ name := "steel", type := .referenceProduct, amount := 1 }] }] := by
  decide +kernel

/-- The hypothesis on the name is needed: all occurrences of the suffix are removed, not only the
one at the end. -/
theorem C25_inner_occurrence_lost :
    stripRc ("old, Recycled Content cut-off, new" ++ rcSuffix) = "old, new" := by decide +kernel

end Ocelot
