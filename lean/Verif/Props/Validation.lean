import Verif.Model.Validation
import Verif.Proofs.Combined
import Verif.Props.Utils
import Mathlib.Tactic.Tauto
import Mathlib.Data.List.Dedup
import Mathlib.Data.String.Basic

/-!
# Properties C84–C89: the checks and the production volumes at the start of every configuration
-/

namespace Ocelot
open Spec

/-! ## C84: identifiers -/

/-- C84: the data are returned unchanged when no two positions have the same id, otherwise
`IdenticalDatasets` is raised. -/
theorem C84_ids (data : List Dataset) :
    ((∀ (i j : ℕ) (a b : Dataset), data[i]? = some a → data[j]? = some b → a.id = b.id → i = j) →
      ensureIdsAreUnique data = .ok data) ∧
    ((∃ i j : ℕ, ∃ a b : Dataset, i ≠ j ∧ data[i]? = some a ∧ data[j]? = some b ∧ a.id = b.id) →
      ensureIdsAreUnique data = .error .identicalDatasets) := by
  have key : (distinctCount (data.map (·.id)) = data.length) ↔ (data.map (·.id)).Nodup := by
    unfold distinctCount
    constructor
    · intro h
      have hs := List.dedup_sublist (data.map (·.id))
      have : (data.map (·.id)).dedup = data.map (·.id) := hs.eq_of_length (by simpa using h)
      rw [← this]; exact List.nodup_dedup _
    · intro h
      rw [h.dedup]; simp
  have nd : (data.map (·.id)).Nodup ↔
      ∀ (i j : ℕ) (a b : Dataset), data[i]? = some a → data[j]? = some b → a.id = b.id → i = j := by
    rw [List.nodup_iff_getElem?_ne_getElem?]
    constructor
    · intro h i j a b ha hb hab
      by_contra hij
      rcases lt_or_gt_of_ne hij with hlt | hlt
      · refine h i j hlt ?_ ?_
        · obtain ⟨hj, _⟩ := List.getElem?_eq_some_iff.mp hb; simpa using hj
        · simp [ha, hb, hab]
      · refine h j i hlt ?_ ?_
        · obtain ⟨hj, _⟩ := List.getElem?_eq_some_iff.mp ha; simpa using hj
        · simp [ha, hb, hab]
    · intro h i j hij hj heq
      rw [List.length_map] at hj
      have hi : i < data.length := lt_trans hij hj
      have := h i j data[i] data[j] (by simp [hi]) (by simp [hj]) (by simpa [hi, hj] using heq)
      omega
  constructor
  · intro h
    simp [ensureIdsAreUnique, key.mpr (nd.mpr h)]
  · rintro ⟨i, j, a, b, hij, ha, hb, hab⟩
    have : ¬ distinctCount (data.map (·.id)) = data.length := fun hc => hij (nd.mp (key.mp hc) i j a b ha hb hab)
    simp [ensureIdsAreUnique, this]

example : ensureIdsAreUnique [{ name := "a", id := "1" }, { name := "a", id := "2" }] = .ok [{ name := "a", id := "1" }, { name := "a", id := "2" }] ∧
    ensureIdsAreUnique [{ name := "a", id := "1" }, { name := "b", id := "2" }, { name := "c", id := "1" }] = .error .identicalDatasets := by
  decide +kernel

/-! ## C85: markets -/

namespace Spec

/-- A market activity is in order: exactly one exchange is a reference product, and every other exchange of the same name
has an activity link. -/
def MarketInOrder (ds : Dataset) : Prop :=
  ∃ pre rp post, ds.exchanges = pre ++ rp :: post ∧ rp.type = .referenceProduct ∧
    ∀ e ∈ pre ++ post, e.type ≠ .referenceProduct ∧ (e.name = rp.name → ∃ l, e.activityLink = some l ∧ l ≠ "")

end Spec

theorem filter_length_one {α : Type} {p : α → Bool} {l : List α} (h : (l.filter p).length = 1) :
    ∃ pre a post, l = pre ++ a :: post ∧ p a = true ∧ ∀ b ∈ pre ++ post, p b = false := by
  induction l with
  | nil => simp at h
  | cons a l ih =>
    rcases hp : p a with _ | _
    · rw [List.filter_cons_of_neg (by simp [hp])] at h
      obtain ⟨pre, b, post, rfl, h1, h2⟩ := ih h
      refine ⟨a :: pre, b, post, rfl, h1, fun x hx => ?_⟩
      rcases List.mem_cons.mp hx with rfl | hx
      · exact hp
      · exact h2 x hx
    · rw [List.filter_cons_of_pos hp] at h
      have : l.filter p = [] := by simpa using h
      refine ⟨[], a, l, rfl, hp, fun x hx => ?_⟩
      have := List.filter_eq_nil_iff.mp this x hx
      simpa using this

theorem linked_iff (o : Option String) : (o.getD "" == "") = false ↔ ∃ l, o = some l ∧ l ≠ "" := by
  cases o <;> simp

theorem market_ok_iff (ds : Dataset) :
    (checkOneReferenceProduct ds = .ok () ∧ checkOwnConsumption ds = .ok ()) ↔ Spec.MarketInOrder ds := by
  constructor
  · rintro ⟨h1, h2⟩
    have hlen : (ds.exchanges.filter fun e => e.type == .referenceProduct).length = 1 := by
      by_contra hne
      rw [checkOneReferenceProduct, if_pos hne] at h1; cases h1
    obtain ⟨pre, rp, post, hex, hrp, hoth⟩ := filter_length_one hlen
    refine ⟨pre, rp, post, hex, by simpa using hrp, fun e he => ?_⟩
    have hnr : e.type ≠ .referenceProduct := by simpa using hoth e he
    refine ⟨hnr, fun hname => ?_⟩
    have hf : ds.exchanges.filter (fun e => e.type == .referenceProduct) = [rp] := by
      rw [hex, List.filter_append, List.filter_cons_of_pos (by simpa using hrp)]
      rw [List.filter_eq_nil_iff.mpr (fun x hx => by simpa using hoth x (by simp [hx])),
        List.filter_eq_nil_iff.mpr (fun x hx => by simpa using hoth x (by simp [hx]))]
      rfl
    simp only [checkOwnConsumption, hf] at h2
    split at h2
    · cases h2
    · next hc =>
      have hc' := (Bool.not_eq_true _ ▸ hc)
      rw [List.any_eq_false] at hc'
      have hmem : e ∈ ds.exchanges := by
        rw [hex]; rcases List.mem_append.mp he with h | h <;> simp [h]
      have := hc' e hmem
      have hne : e ≠ rp := by rintro rfl; exact hnr (by simpa using hrp)
      apply (linked_iff _).mp
      simpa [hname, hne] using this
  · rintro ⟨pre, rp, post, hex, hrp, hoth⟩
    have hf : ds.exchanges.filter (fun e => e.type == .referenceProduct) = [rp] := by
      rw [hex, List.filter_append, List.filter_cons_of_pos (by simpa using hrp)]
      rw [List.filter_eq_nil_iff.mpr (fun x hx => by simpa using (hoth x (by simp [hx])).1),
        List.filter_eq_nil_iff.mpr (fun x hx => by simpa using (hoth x (by simp [hx])).1)]
      rfl
    refine ⟨by simp [checkOneReferenceProduct, hf], ?_⟩
    simp only [checkOwnConsumption, hf]
    rw [if_neg]
    intro hc
    obtain ⟨e, he, hc⟩ := List.any_eq_true.mp hc
    simp only [Bool.and_eq_true, beq_iff_eq, bne_iff_ne] at hc
    obtain ⟨⟨hn, hne⟩, hl⟩ := hc
    have hm : e ∈ pre ++ post := by
      rw [hex] at he
      rcases List.mem_append.mp he with h | h
      · simp [h]
      · rcases List.mem_cons.mp h with h | h
        · exact absurd h hne
        · simp [h]
    obtain ⟨l, h1, h2⟩ := (hoth e hm).2 hn
    rw [h1] at hl; exact h2 hl

/-- C85: `validate_markets` returns the data unchanged when every market activity is in order, and raises otherwise. -/
theorem C85_ok_iff (data d : List Dataset) :
    validateMarkets data = .ok d ↔ d = data ∧ ∀ ds ∈ data, ds.type = .market → Spec.MarketInOrder ds := by
  have hf : ∀ f : Dataset → Except Err Unit, forE f (data.filter fun ds => ds.type == .market) = .ok () ↔
      ∀ ds ∈ data, ds.type = .market → f ds = .ok () := by
    intro f; rw [forE_ok_iff]; simp
  constructor
  · intro h
    obtain ⟨d1, h1, h2⟩ := bind_eq_ok.mp h
    obtain ⟨_, h3, h4⟩ := bind_eq_ok.mp h1
    cases h4
    obtain ⟨_, h5, h6⟩ := bind_eq_ok.mp h2
    cases h6
    exact ⟨rfl, fun ds hds ht => (market_ok_iff ds).mp ⟨(hf _).mp h3 ds hds ht, (hf _).mp h5 ds hds ht⟩⟩
  · rintro ⟨rfl, h⟩
    have h1 := (hf checkOneReferenceProduct).mpr fun ds hds ht => ((market_ok_iff ds).mpr (h ds hds ht)).1
    have h2 := (hf checkOwnConsumption).mpr fun ds hds ht => ((market_ok_iff ds).mpr (h ds hds ht)).2
    simp [validateMarkets, ensureMarketsOneProduct, ensureMarketsNoOwnConsumption, h1, h2]

/-- C85: which exception: `InvalidMarket` when some market does not have exactly one reference product, else
`InvalidMarketExchange`. No other exception is possible. -/
theorem C85_errors (data : List Dataset) (err : Err) (h : validateMarkets data = .error err) :
    (err = .invalidMarket ∧ ∃ ds ∈ data, ds.type = .market ∧ (refs ds).length ≠ 1) ∨
    (err = .invalidMarketExchange ∧ (∀ ds ∈ data, ds.type = .market → (refs ds).length = 1) ∧
      ∃ ds ∈ data, ds.type = .market ∧ ∃ rp e, rp ∈ ds.exchanges ∧ e ∈ ds.exchanges ∧ rp.type = .referenceProduct ∧
        e.type ≠ .referenceProduct ∧ e.name = rp.name ∧ (e.activityLink = none ∨ e.activityLink = some "")) := by
  rcases bind_eq_error.mp h with h | ⟨d1, h1, h⟩
  · left
    rcases bind_eq_error.mp h with h | ⟨_, _, h⟩
    · obtain ⟨ds, hds, h⟩ := forE_error h
      obtain ⟨hds, ht⟩ := List.mem_filter.mp hds
      unfold checkOneReferenceProduct at h
      split at h
      · next hc => cases h; exact ⟨rfl, ds, hds, by simpa using ht, hc⟩
      · cases h
    · cases h
  · right
    obtain ⟨_, h3, h4⟩ := bind_eq_ok.mp h1
    cases h4
    have hone : ∀ ds ∈ data, ds.type = .market → (refs ds).length = 1 := by
      intro ds hds ht
      have := (forE_ok_iff.mp h3) ds (List.mem_filter.mpr ⟨hds, by simpa using ht⟩)
      unfold checkOneReferenceProduct at this
      split at this
      · cases this
      · next hc => simpa [refs] using hc
    rcases bind_eq_error.mp h with h | ⟨_, _, h⟩
    · obtain ⟨ds, hds, h⟩ := forE_error h
      obtain ⟨hds, ht⟩ := List.mem_filter.mp hds
      have ht : ds.type = .market := by simpa using ht
      have hlen := hone ds hds ht
      unfold checkOwnConsumption at h
      obtain ⟨rp, hrp⟩ := List.length_eq_one_iff.mp hlen
      have hrp' : ds.exchanges.filter (fun e => e.type == .referenceProduct) = [rp] := hrp
      simp only [hrp'] at h
      split at h
      · next hc =>
        cases h
        refine ⟨rfl, hone, ds, hds, ht, ?_⟩
        obtain ⟨e, he, hc⟩ := List.any_eq_true.mp hc
        simp only [Bool.and_eq_true, beq_iff_eq, bne_iff_ne] at hc
        obtain ⟨⟨hn, hne⟩, hl⟩ := hc
        have hm : rp ∈ refs ds := by rw [hrp]; simp
        obtain ⟨hm1, hm2⟩ := List.mem_filter.mp hm
        refine ⟨rp, e, hm1, he, by simpa using hm2, fun hc => ?_, hn, ?_⟩
        · have : e ∈ refs ds := List.mem_filter.mpr ⟨he, by simpa using hc⟩
          rw [hrp] at this; simp at this; exact hne this
        · rcases ho : e.activityLink with _ | l
          · exact .inl rfl
          · rw [ho] at hl; simp at hl; exact .inr (by rw [hl])
      · cases h
    · cases h

example : validateMarkets [{ name := "market", type := .market, exchanges := [{ name := "p", id := "1", type := .referenceProduct, amount := 1 }, { name := "p", id := "2", type := .fromTechnosphere, amount := 1, activityLink := some "x" }, { name := "q", id := "3", type := .fromTechnosphere, amount := 1 }] }] = .ok [{ name := "market", type := .market, exchanges := [{ name := "p", id := "1", type := .referenceProduct, amount := 1 }, { name := "p", id := "2", type := .fromTechnosphere, amount := 1, activityLink := some "x" }, { name := "q", id := "3", type := .fromTechnosphere, amount := 1 }] }] ∧
    validateMarkets [{ name := "market", type := .market, exchanges := [{ name := "p", id := "1", type := .referenceProduct, amount := 1 }, { name := "p", id := "2", type := .fromTechnosphere, amount := 1 }] }] = .error .invalidMarketExchange ∧
    validateMarkets [{ name := "market", type := .market }] = .error .invalidMarket := by
  decide +kernel

/-! ## C86: production volumes of allocatable byproducts -/

namespace Spec

/-- `e` is an allocatable byproduct. -/
def AllocByproduct (e : Exchange) : Prop := e.type = .byproduct ∧ e.cls = some .allocatable

/-- `r` is the largest absolute ratio of production volume to amount among the reference products of `ds` that have an
amount. -/
def LargestRatio (ds : Dataset) (r : ℚ) : Prop :=
  (∃ e ∈ refs ds, e.amount ≠ 0 ∧ ∃ p, e.pv = some p ∧ r = |p.amount| / |e.amount|) ∧
  ∀ e ∈ refs ds, e.amount ≠ 0 → ∃ p, e.pv = some p ∧ |p.amount| / |e.amount| ≤ r

/-- What happens to an exchange of `ds`: an allocatable byproduct with volume zero gets the volume that corresponds to its
amount at the largest ratio, everything else stays. -/
def Filled (ds : Dataset) (e e' : Exchange) : Prop :=
  (¬ AllocByproduct e ∧ e' = e) ∨
  (AllocByproduct e ∧ ∃ p, e.pv = some p ∧ p.amount ≠ 0 ∧ e' = e) ∨
  (AllocByproduct e ∧ ∃ p r, e.pv = some p ∧ p.amount = 0 ∧ LargestRatio ds r ∧
    e' = { e with pv := some { p with amount := |e.amount| * r } })

end Spec

theorem isAllocatableByproduct_ok {e : Exchange} {b : Bool} (h : isAllocatableByproduct e = .ok b) :
    b = true ↔ Spec.AllocByproduct e := by
  unfold isAllocatableByproduct at h
  unfold Spec.AllocByproduct
  split at h
  · next ht =>
    obtain ⟨c, hc, h⟩ := bind_eq_ok.mp h
    cases h
    rw [getKey_eq_ok.mp hc]; simp [ht]
  · next ht => cases h; simp [ht]

theorem ratio_largest {ds : Dataset} {r : ℚ} (h : getBiggestPvRatio ds = .ok r) : Spec.LargestRatio ds |r| := by
  obtain ⟨⟨e, he, ha, p, hp, hr⟩, hall⟩ := C12_biggest_ratio ds r h
  refine ⟨⟨e, he, ha, p, hp, by rw [hr, abs_div]⟩, fun x hx hxa => ?_⟩
  obtain ⟨q, hq, hle⟩ := hall x hx hxa
  exact ⟨q, hq, by rwa [← abs_div]⟩

theorem fillByproduct_ok {ds : Dataset} {r : ℚ} (hr : Spec.LargestRatio ds |r|) {e e' : Exchange}
    (h : fillByproduct r e = .ok e') : Spec.Filled ds e e' := by
  obtain ⟨b, hb, h⟩ := bind_eq_ok.mp h
  have hb' := isAllocatableByproduct_ok hb
  cases b with
  | false =>
    cases h
    exact .inl ⟨fun hc => by simpa using hb'.mpr hc, rfl⟩
  | true =>
    have hal := hb'.mp rfl
    obtain ⟨p, hp, h⟩ := bind_eq_ok.mp h
    have hp := getKey_eq_ok.mp hp
    by_cases hz : p.amount = 0
    · rw [if_pos hz] at h
      cases h
      exact .inr (.inr ⟨hal, p, |r|, hp, hz, hr, by rw [abs_mul]⟩)
    · rw [if_neg hz] at h
      cases h
      exact .inr (.inl ⟨hal, p, hp, hz, rfl⟩)

theorem fillVolumes_ok {ds ds' : Dataset} (h : fillVolumes ds = .ok ds') :
    ds' = { ds with exchanges := ds'.exchanges } ∧ List.Forall₂ (Spec.Filled ds) ds.exchanges ds'.exchanges := by
  obtain ⟨b, hb, h⟩ := bind_eq_ok.mp h
  cases b with
  | false =>
    cases h
    refine ⟨rfl, ?_⟩
    have hno := anyAllocatableByproduct_false.mp hb
    refine List.forall₂_same.mpr fun e he => .inl ⟨fun hc => ?_, rfl⟩
    exact (hno e he hc.1).2 hc.2
  | true =>
    obtain ⟨r, hr, h⟩ := bind_eq_ok.mp h
    obtain ⟨ex, hex, h⟩ := bind_eq_ok.mp h
    cases h
    exact ⟨rfl, (mapE_ok_iff.mp hex).imp fun _ _ hx => fillByproduct_ok (ratio_largest hr) hx⟩

/-- C86: what a successful run changes, dataset by dataset and exchange by exchange. -/
theorem C86_volumes (data d : List Dataset) (h : addPvToAllocatableByproducts data = .ok d) :
    List.Forall₂ (fun ds ds' => ds' = { ds with exchanges := ds'.exchanges } ∧
      List.Forall₂ (Spec.Filled ds) ds.exchanges ds'.exchanges) data d :=
  (mapE_ok_iff.mp h).imp fun _ _ hx => fillVolumes_ok hx

/-- C86: it succeeds exactly if, in every dataset, all byproducts are classified and, when there is an allocatable
byproduct, all of these have a production volume, some reference product has an amount and all those have a volume. -/
theorem C86_succeeds_iff (data : List Dataset) :
    (∃ d, addPvToAllocatableByproducts data = .ok d) ↔
      ∀ ds ∈ data, Classified ds ∧ ((∃ e ∈ ds.exchanges, Spec.AllocByproduct e) →
        (∀ e ∈ ds.exchanges, Spec.AllocByproduct e → e.pv ≠ none) ∧ (∃ e ∈ refs ds, e.amount ≠ 0) ∧
          ∀ e ∈ refs ds, e.amount ≠ 0 → e.pv ≠ none) := by
  have one : ∀ ds : Dataset, (∃ d, fillVolumes ds = .ok d) ↔
      (Classified ds ∧ ((∃ e ∈ ds.exchanges, Spec.AllocByproduct e) →
        (∀ e ∈ ds.exchanges, Spec.AllocByproduct e → e.pv ≠ none) ∧ (∃ e ∈ refs ds, e.amount ≠ 0) ∧
          ∀ e ∈ refs ds, e.amount ≠ 0 → e.pv ≠ none)) := by
    intro ds
    constructor
    · rintro ⟨d, h⟩
      obtain ⟨b, hb, h⟩ := bind_eq_ok.mp h
      cases b with
      | false =>
        have hno := anyAllocatableByproduct_false.mp hb
        exact ⟨fun e he ht => (hno e he ht).1, fun ⟨e, he, hal⟩ => absurd hal.2 (hno e he hal.1).2⟩
      | true =>
        obtain ⟨r, hr, h⟩ := bind_eq_ok.mp h
        obtain ⟨ex, hex, h⟩ := bind_eq_ok.mp h
        have hex := mapE_ok_iff.mp hex
        obtain ⟨⟨e, he, ha, p, hp, _⟩, hall⟩ := C12_biggest_ratio ds r hr
        refine ⟨fun e he ht hc => ?_, fun _ => ⟨fun e he hal hc => ?_, ⟨e, he, ha⟩, fun x hx hxa => ?_⟩⟩
        · obtain ⟨e', _, h'⟩ := forall₂_mem_left hex he
          simp [fillByproduct, isAllocatableByproduct, ht, hc, getKey] at h'
        · obtain ⟨e', _, h'⟩ := forall₂_mem_left hex he
          simp [fillByproduct, isAllocatableByproduct, hal.1, hal.2, hc, getKey, fillVolume] at h'
        · obtain ⟨q, hq, _⟩ := hall x hx hxa
          rw [hq]; simp
    · rintro ⟨hcl, hreq⟩
      obtain ⟨b, hb⟩ := anyAllocatableByproduct_ok hcl
      cases b with
      | false => exact ⟨ds, by simp [fillVolumes, hb]⟩
      | true =>
        obtain ⟨hpv, hrp, hall⟩ := hreq (anyAllocatableByproduct_true hb)
        obtain ⟨r, hr⟩ := (C12_biggest_outcome ds).2.2 hrp hall
        obtain ⟨ex, hex⟩ := mapE_ok_of_forall (f := fillByproduct r) (l := ds.exchanges) (by
          intro e he
          by_cases ht : e.type = .byproduct
          · rcases hc : e.cls with _ | c
            · exact absurd hc (hcl e he ht)
            · by_cases hca : c = .allocatable
              · rcases hv : e.pv with _ | p
                · exact absurd hv (hpv e he ⟨ht, by rw [hc, hca]⟩)
                · by_cases hz : p.amount = 0 <;>
                    simp [fillByproduct, isAllocatableByproduct, ht, hc, hca, fillVolume, hv, hz]
              · simp [fillByproduct, isAllocatableByproduct, ht, hc, hca]
          · simp [fillByproduct, isAllocatableByproduct, ht])
        exact ⟨_, by simp [fillVolumes, hb, hr, hex]; rfl⟩
  constructor
  · rintro ⟨d, h⟩ ds hds
    obtain ⟨ds', _, h'⟩ := forall₂_mem_left (mapE_ok_iff.mp h) hds
    exact (one ds).mp ⟨ds', h'⟩
  · intro h
    exact mapE_ok_of_forall fun ds hds => (one ds).mpr (h ds hds)

/-- C86: afterwards an allocatable byproduct has volume zero only if it had no volume and either its own amount is zero or
all reference products with an amount have volume zero. -/
theorem C86_zero_left (data d : List Dataset) (h : addPvToAllocatableByproducts data = .ok d) (i j : ℕ) (ds ds' : Dataset)
    (e e' : Exchange) (hi : data[i]? = some ds) (hi' : d[i]? = some ds') (hj : ds.exchanges[j]? = some e)
    (hj' : ds'.exchanges[j]? = some e') (hal : Spec.AllocByproduct e) :
    (∃ p', e'.pv = some p' ∧ p'.amount = 0) ↔ ∃ p, e.pv = some p ∧ p.amount = 0 ∧
      (e.amount = 0 ∨ ∀ x ∈ refs ds, x.amount ≠ 0 → ∃ q, x.pv = some q ∧ q.amount = 0) := by
  have hF := (List.forall₂_iff_get.mp (C86_volumes data d h)).2
  obtain ⟨hil, hie⟩ := List.getElem?_eq_some_iff.mp hi
  obtain ⟨hil', hie'⟩ := List.getElem?_eq_some_iff.mp hi'
  obtain ⟨hjl, hje⟩ := List.getElem?_eq_some_iff.mp hj
  obtain ⟨hjl', hje'⟩ := List.getElem?_eq_some_iff.mp hj'
  have hds := (hF i hil hil').2
  simp only [List.get_eq_getElem, hie, hie'] at hds
  have he := (List.forall₂_iff_get.mp hds).2 j hjl hjl'
  simp only [List.get_eq_getElem, hje, hje'] at he
  rcases he with ⟨hn, _⟩ | ⟨_, p, hp, hz, rfl⟩ | ⟨_, p, r, hp, hz, ⟨⟨x, hx, hxa, q, hq, hr⟩, hall⟩, rfl⟩
  · exact absurd hal hn
  · constructor
    · rintro ⟨p', hp', hz'⟩; rw [hp] at hp'; cases hp'; exact absurd hz' hz
    · rintro ⟨p', hp', hz', _⟩; rw [hp] at hp'; cases hp'; exact absurd hz' hz
  · constructor
    · rintro ⟨p', hp', hz'⟩
      cases hp'
      refine ⟨p, hp, hz, ?_⟩
      rcases mul_eq_zero.mp hz' with h0 | h0
      · exact .inl (abs_eq_zero.mp h0)
      · right
        intro y hy hya
        obtain ⟨q', hq', hle⟩ := hall y hy hya
        refine ⟨q', hq', ?_⟩
        rw [h0] at hle
        have h1 : 0 ≤ |q'.amount| / |y.amount| := div_nonneg (abs_nonneg _) (abs_nonneg _)
        have h2 : |q'.amount| / |y.amount| = 0 := le_antisymm hle h1
        rcases div_eq_zero_iff.mp h2 with h3 | h3
        · exact abs_eq_zero.mp h3
        · exact absurd (abs_eq_zero.mp h3) hya
    · rintro ⟨p', hp', _, h0 | h0⟩
      · exact ⟨_, rfl, by simp [h0]⟩
      · obtain ⟨q', hq', hz'⟩ := h0 x hx hxa
        rw [hq] at hq'; cases hq'
        exact ⟨_, rfl, by simp [hr, hz']⟩

example : addPvToAllocatableByproducts [{ name := "a", exchanges := [{ name := "p", id := "1", type := .referenceProduct, amount := -2, pv := some { amount := 10 } }, { name := "q", id := "2", type := .byproduct, cls := some .allocatable, amount := 3, pv := some { amount := 0 } }, { name := "r", id := "3", type := .byproduct, cls := some .allocatable, amount := 3, pv := some { amount := 4 } }, { name := "w", id := "4", type := .byproduct, cls := some .waste, amount := 3, pv := some { amount := 0 } }] }] = .ok [{ name := "a", exchanges := [{ name := "p", id := "1", type := .referenceProduct, amount := -2, pv := some { amount := 10 } }, { name := "q", id := "2", type := .byproduct, cls := some .allocatable, amount := 3, pv := some { amount := 15 } }, { name := "r", id := "3", type := .byproduct, cls := some .allocatable, amount := 3, pv := some { amount := 4 } }, { name := "w", id := "4", type := .byproduct, cls := some .waste, amount := 3, pv := some { amount := 0 } }] }] := by
  decide +kernel

/-! ## C87: the clean-up of production volumes -/

theorem checkVolumesGiven_ok_iff (ds : Dataset) :
    checkVolumesGiven ds = .ok () ↔ Classified ds ∧ ∀ e ∈ production ds, e.pv ≠ none := by
  unfold checkVolumesGiven
  rw [forE_ok_iff]
  constructor
  · intro h
    refine ⟨fun e he ht hc => ?_, fun e he hc => ?_⟩
    · have := h e he
      simp [isAllocatable, ht, hc] at this
    · obtain ⟨he, hp⟩ := List.mem_filter.mp he
      have := h e he
      simp only [isProduction, Bool.or_eq_true, beq_iff_eq, Bool.and_eq_true] at hp
      rcases hp with hp | ⟨hp, hcl⟩
      · simp [isAllocatable, hp, checkVolumeGiven, hc] at this
      · simp [isAllocatable, hp, hcl, checkVolumeGiven, hc] at this
  · rintro ⟨hcl, hpv⟩ e he
    have hpe : isProduction e = true → e.pv.isNone = false := by
      intro hp
      have := hpv e (List.mem_filter.mpr ⟨he, hp⟩)
      cases hx : e.pv <;> simp_all
    rcases ht : e.type <;> simp [isAllocatable, ht]
    · simp [checkVolumeGiven, hpe (by simp [isProduction, ht])]
    · rcases hc : e.cls with _ | c
      · exact absurd hc (hcl e he ht)
      · by_cases hca : c = .allocatable
        · simp [hca, checkVolumeGiven, hpe (by simp [isProduction, ht, hc, hca])]
        · simp [hca]

/-- C87: the check accepts exactly the data in which all byproducts are classified and every production exchange has a
production volume, and returns them unchanged. -/
theorem C87_check (data d : List Dataset) :
    ensureVolumesGiven data = .ok d ↔
      d = data ∧ ∀ ds ∈ data, Classified ds ∧ ∀ e ∈ production ds, e.pv ≠ none := by
  unfold ensureVolumesGiven
  constructor
  · intro h
    obtain ⟨_, h1, h2⟩ := bind_eq_ok.mp h
    cases h2
    exact ⟨rfl, fun ds hds => (checkVolumesGiven_ok_iff ds).mp (forE_ok_iff.mp h1 ds hds)⟩
  · rintro ⟨rfl, h⟩
    have h1 : forE checkVolumesGiven d = .ok () :=
      forE_ok_iff.mpr fun ds hds => (checkVolumesGiven_ok_iff ds).mpr (h ds hds)
    simp [h1]

/-- C87: an exchange with a missing volume is reported as `InvalidExchange` unless an unclassified byproduct stops the
check with `KeyError`; there are no other exceptions. -/
theorem C87_errors (data : List Dataset) (err : Err) (h : ensureVolumesGiven data = .error err) :
    (err = .invalidExchange ∧ ∃ ds ∈ data, ∃ e ∈ production ds, e.pv = none) ∨
    (err = .keyError ∧ ∃ ds ∈ data, ∃ e ∈ ds.exchanges, e.type = .byproduct ∧ e.cls = none) := by
  rcases bind_eq_error.mp h with h | ⟨_, _, h⟩
  · obtain ⟨ds, hds, h⟩ := forE_error h
    obtain ⟨e, he, h⟩ := forE_error h
    rcases bind_eq_error.mp h with h | ⟨b, hb, h⟩
    · right
      unfold isAllocatable at h
      split at h
      · cases h
      · next ht =>
        split at h
        · next hc => cases h; exact ⟨rfl, ds, hds, e, he, ht, hc⟩
        · cases h
      · cases h
    · left
      cases b with
      | false => simp at h
      | true =>
        simp only [if_true] at h
        unfold checkVolumeGiven at h
        split at h
        · next hn =>
          cases h
          refine ⟨rfl, ds, hds, e, List.mem_filter.mpr ⟨he, ?_⟩, by simpa using hn⟩
          unfold isAllocatable at hb
          split at hb
          · next ht => simp [isProduction, ht]
          · next ht =>
            split at hb
            · cases hb
            · next c hc =>
              have : c = .allocatable := by simpa using hb
              simp [isProduction, ht, hc, this]
          · cases hb
        · cases h
  · cases h

/-- C87: after the whole clean-up every production exchange still has a production volume, no production volume has a
formula or a variable, names, types and amounts of exchanges are as before, and every variable of a volume is now the
variable of a dataset parameter that carries the volume's formula. -/
theorem C87_cleaned (uuid : Exchange → String) (data d : List Dataset) (h : pvCleanup uuid data = .ok d) :
    List.Forall₂ (fun ds ds' : Dataset =>
      (∀ e' ∈ production ds', e'.pv ≠ none) ∧
      (∀ e' ∈ ds'.exchanges, ∀ p', e'.pv = some p' → p'.formula = none ∧ p'.var = none) ∧
      List.Forall₂ (fun e e' : Exchange => e' = { e with pv := e'.pv } ∧
        (e'.pv = none ↔ e.pv = none) ∧
        (∀ p v, e.pv = some p → p.var = some v →
          ∃ q ∈ ds'.parameters, q.var = some v ∧ q.formula = p.formula ∧ ∃ p', e'.pv = some p' ∧ q.amount = p'.amount))
        ds.exchanges ds'.exchanges ∧
      ds.parameters <+: ds'.parameters) data d := by
  unfold pvCleanup at h
  obtain ⟨d1, h1, h3⟩ := bind_eq_ok.mp h
  obtain ⟨hd1, hv⟩ := (C87_check _ _).mp h1
  rw [hd1] at h3
  obtain ⟨d2, h2, h4⟩ := bind_eq_ok.mp h3
  cases h4
  have hF := forall₂_with_mem (C86_volumes _ _ h2)
  rw [List.forall₂_map_right_iff]
  refine hF.imp ?_
  rintro ds ds1 ⟨hds, hds1, hex⟩
  have hpvp : ∀ u e, (pvParameter u e).1 = { e with pv := (pvParameter u e).1.pv } ∧
      ((pvParameter u e).1.pv = none ↔ e.pv = none) ∧
      (∀ p', (pvParameter u e).1.pv = some p' → p'.formula = none ∧ p'.var = none) := by
    intro u e
    rcases hp : e.pv with _ | p
    · refine ⟨?_, by simp [pvParameter, hp], by simp [pvParameter, hp]⟩
      cases e; simp only at hp; subst hp; rfl
    · rcases hvv : p.var with _ | v <;> simp [pvParameter, hp, hvv]
  have hfill : ∀ e e1, Spec.Filled ds e e1 → e1 = { e with pv := e1.pv } ∧ (e1.pv = none ↔ e.pv = none) ∧
      ∀ p, e.pv = some p → ∃ p1, e1.pv = some p1 ∧ p1.formula = p.formula ∧ p1.var = p.var := by
    rintro e e1 (⟨_, rfl⟩ | ⟨_, p, hp, _, rfl⟩ | ⟨_, p, r, hp, _, _, rfl⟩)
    · exact ⟨rfl, Iff.rfl, fun p hp => ⟨p, hp, rfl, rfl⟩⟩
    · exact ⟨rfl, Iff.rfl, fun p hp => ⟨p, hp, rfl, rfl⟩⟩
    · exact ⟨rfl, by simp [hp], fun p' hp' => by rw [hp] at hp'; cases hp'; exact ⟨_, rfl, rfl, rfl⟩⟩
  refine ⟨?_, ?_, ?_, ?_⟩
  · intro e' he'
    obtain ⟨he', hp'⟩ := List.mem_filter.mp he'
    simp only [createPvParameters, List.mem_map] at he'
    obtain ⟨e1, he1, rfl⟩ := he'
    obtain ⟨e, he, hfe⟩ := forall₂_mem_right hex he1
    obtain ⟨hx1, hx2, _⟩ := hfill e e1 hfe
    obtain ⟨hy1, hy2, _⟩ := hpvp (uuid e1) e1
    intro hc
    have hpe : isProduction e = true := by
      rw [hy1, hx1] at hp'; exact hp'
    exact (hv ds hds).2 e (List.mem_filter.mpr ⟨he, hpe⟩) (hx2.mp (hy2.mp hc))
  · intro e' he'
    simp only [createPvParameters, List.mem_map] at he'
    obtain ⟨e1, he1, rfl⟩ := he'
    exact (hpvp (uuid e1) e1).2.2
  · simp only [createPvParameters]
    rw [List.forall₂_map_right_iff]
    refine (forall₂_with_mem hex.flip).flip.imp ?_
    rintro e e1 ⟨he1, hfe⟩
    obtain ⟨hx1, hx2, hx3⟩ := hfill e e1 hfe
    obtain ⟨hy1, hy2, _⟩ := hpvp (uuid e1) e1
    refine ⟨?_, hy2.trans hx2, ?_⟩
    · rw [hy1, hx1]
    · intro p v hp hpv
      obtain ⟨p1, hp1, hf1, hv1⟩ := hx3 p hp
      refine ⟨shiftedParameter (uuid e1) e1 p1 v, ?_, rfl, hf1, { p1 with var := none, formula := none }, ?_, rfl⟩
      · refine List.mem_append_right _ (List.mem_flatMap.mpr ⟨e1, he1, ?_⟩)
        simp [pvParameter, hp1, hv1, hpv]
      · simp [pvParameter, hp1, hv1, hpv]
  · simp only [createPvParameters]
    rw [hds1]
    exact List.prefix_append _ _

example : pvCleanup (fun _ => "u") [{ name := "a", exchanges := [{ name := "p", id := "1", type := .referenceProduct, amount := 2, pv := some { amount := 10, formula := some "5*2", var := some "pv_p" } }, { name := "q", id := "2", type := .byproduct, cls := some .allocatable, amount := 3, pv := some { amount := 0 } }] }] = .ok [{ name := "a", parameters := [{ name := "Shifted PV parameter: pv_p", id := "u", var := some "pv_p", formula := some "5*2", amount := 10 }], exchanges := [{ name := "p", id := "1", type := .referenceProduct, amount := 2, pv := some { amount := 10 } }, { name := "q", id := "2", type := .byproduct, cls := some .allocatable, amount := 3, pv := some { amount := 15 } }] }] := by
  decide +kernel

/-! ## C88: the report of missing properties -/

/-- C88: the data are unchanged and the log has a row for an exchange exactly if it has properties but lacks some of the
six mandatory ones; the row names these, sorted and without repetition. -/
theorem C88_rows (data : List Dataset) (r : String × String × List String) :
    (ensureMandatoryProperties data).1 = data ∧
    (r ∈ (ensureMandatoryProperties data).2 ↔ ∃ ds ∈ data, ∃ e ∈ ds.exchanges, e.properties ≠ [] ∧
      r.1 = ds.name ∧ r.2.1 = e.name ∧ r.2.2 ≠ [] ∧ r.2.2.Pairwise (· < ·) ∧
      ∀ m, m ∈ r.2.2 ↔ (m = "dry mass" ∨ m = "water in wet mass" ∨ m = "water content" ∨ m = "wet mass" ∨
        m = "carbon content fossil" ∨ m = "carbon content non-fossil") ∧ ∀ p ∈ e.properties, p.name ≠ m) := by
  refine ⟨rfl, ?_⟩
  have hmand : ∀ m, m ∈ mandatoryProperties ↔ (m = "dry mass" ∨ m = "water in wet mass" ∨ m = "water content" ∨
      m = "wet mass" ∨ m = "carbon content fossil" ∨ m = "carbon content non-fossil") := by
    intro m; simp [mandatoryProperties]
  have hnd : mandatoryProperties.Nodup := by decide +kernel
  have hrow : ∀ (ds : Dataset) (e : Exchange), e.properties ≠ [] →
      ∀ l : List String, (sortNames (mandatoryProperties.filter fun m => !(e.properties.map (·.name)).contains m) = l ↔
        l.Pairwise (· < ·) ∧ ∀ m, m ∈ l ↔ m ∈ mandatoryProperties ∧ ∀ p ∈ e.properties, p.name ≠ m) := by
    intro ds e _ l
    have hp := List.perm_insertionSort (· ≤ ·) (mandatoryProperties.filter fun m => !(e.properties.map (·.name)).contains m)
    have hs := List.pairwise_insertionSort (· ≤ ·) (mandatoryProperties.filter fun m => !(e.properties.map (·.name)).contains m)
    have hn : (sortNames (mandatoryProperties.filter fun m => !(e.properties.map (·.name)).contains m)).Nodup :=
      hp.nodup_iff.mpr (hnd.filter _)
    have hlt : (sortNames (mandatoryProperties.filter fun m => !(e.properties.map (·.name)).contains m)).Pairwise (· < ·) :=
      (List.Pairwise.and hs hn).imp fun h => lt_of_le_of_ne h.1 h.2
    have hm : ∀ m, m ∈ sortNames (mandatoryProperties.filter fun m => !(e.properties.map (·.name)).contains m) ↔
        m ∈ mandatoryProperties ∧ ∀ p ∈ e.properties, p.name ≠ m := by
      intro m
      rw [show sortNames _ = List.insertionSort (· ≤ ·) _ from rfl, hp.mem_iff, List.mem_filter]
      simp
    constructor
    · rintro rfl; exact ⟨hlt, hm⟩
    · rintro ⟨h1, h2⟩
      have hperm : List.Perm (sortNames (mandatoryProperties.filter fun m => !(e.properties.map (·.name)).contains m)) l := by
        apply (List.perm_ext_iff_of_nodup hn (h1.imp fun h => ne_of_lt h)).mpr
        intro m; rw [hm, h2]
      exact hperm.eq_of_pairwise (fun a b _ _ h h' => absurd (lt_trans h h') (lt_irrefl _)) hlt h1
  simp only [ensureMandatoryProperties, List.mem_flatMap, List.mem_filterMap]
  constructor
  · rintro ⟨ds, hds, e, he, h⟩
    refine ⟨ds, hds, e, he, ?_⟩
    unfold mandatoryRow at h
    split at h
    · cases h
    · next hne =>
      simp only at h
      split at h
      · cases h
      · next hmne =>
        simp only [Option.some.injEq] at h
        subst h
        obtain ⟨h1, h2⟩ := (hrow ds e hne _).mp rfl
        refine ⟨hne, rfl, rfl, fun hc => hmne ?_, h1, fun m => by rw [h2, hmand]⟩
        have hp := List.perm_insertionSort (· ≤ ·) (mandatoryProperties.filter fun m => !(e.properties.map (·.name)).contains m)
        rw [show List.insertionSort (· ≤ ·) _ = ([] : List String) from hc] at hp
        exact hp.nil_eq.symm
  · rintro ⟨ds, hds, e, he, hne, h1, h2, h3, h4, h5⟩
    refine ⟨ds, hds, e, he, ?_⟩
    have := (hrow ds e hne r.2.2).mpr ⟨h4, fun m => by rw [h5, hmand]⟩
    unfold mandatoryRow
    rw [if_neg hne]
    simp only
    rw [if_neg, this]
    · rcases r with ⟨a, b, c⟩
      simp only at h1 h2 ⊢
      rw [h1, h2]
    · intro hc
      rw [hc] at this
      exact h3 this.symm

example : (ensureMandatoryProperties [{ name := "a", exchanges := [{ name := "p", type := .referenceProduct, amount := 2, properties := [{ name := "dry mass", amount := 1 }, { name := "wet mass", amount := 1 }, { name := "water content", amount := 1 }, { name := "carbon content fossil", amount := 1 }] }, { name := "q", type := .fromTechnosphere, amount := 1 }] }]).2 = [("a", "p", ["carbon content non-fossil", "water in wet mass"])] := by
  decide +kernel

/-! ## C89: functions for final output -/

/-- C89: the assertion passes exactly if every dataset has exactly one reference product and this has a production volume
other than zero; the data are returned unchanged. -/
theorem C89_all_volumes (data d : List Dataset) :
    ensureAllVolumes data = .ok d ↔
      d = data ∧ ∀ ds ∈ data, ∃ rp p, refs ds = [rp] ∧ rp.pv = some p ∧ p.amount ≠ 0 := by
  have one : ∀ ds : Dataset, (productionVolume ds).getD 0 = 0 ↔ ¬ ∃ rp p, refs ds = [rp] ∧ rp.pv = some p ∧ p.amount ≠ 0 := by
    intro ds
    unfold productionVolume
    rw [show referenceProducts ds = refs ds from rfl]
    rcases refs ds with _ | ⟨a, _ | ⟨b, l⟩⟩
    · simp
    · rcases hp : a.pv with _ | p <;> simp [hp]
    · simp
  unfold ensureAllVolumes
  constructor
  · intro h
    obtain ⟨_, h1, h2⟩ := bind_eq_ok.mp h
    cases h2
    refine ⟨rfl, fun ds hds => ?_⟩
    have := forE_ok_iff.mp h1 ds hds
    by_contra hc
    rw [if_pos ((one ds).mpr hc)] at this
    cases this
  · rintro ⟨rfl, h⟩
    have h1 : forE (fun ds : Dataset => if (productionVolume ds).getD 0 = 0 then .error .assertionError else .ok ()) d = .ok () :=
      forE_ok_iff.mpr fun ds hds => if_neg fun hc => (one ds).mp hc (h ds hds)
    rw [h1]; rfl

/-- C89: after `deparameterize` no number of the dataset has a formula or a variable, there are no dataset parameters and
no properties left, and everything else, in particular every amount, is as before. -/
theorem C89_deparameterize (ds : Dataset) :
    (∀ o ∈ (deparameterize ds).numObjs, o.formula = none ∧ o.var = none) ∧
    (deparameterize ds).parameters = [] ∧
    deparameterize ds = { ds with parameters := [], exchanges := (deparameterize ds).exchanges } ∧
    List.Forall₂ (fun e e' : Exchange => e' = { e with formula := none, var := none, properties := [], pv := e'.pv } ∧
      (e.pv = none → e'.pv = none) ∧ (∀ p, e.pv = some p → e'.pv = some { p with formula := none, var := none }))
      ds.exchanges (deparameterize ds).exchanges := by
  refine ⟨?_, rfl, rfl, ?_⟩
  · intro o ho
    simp only [Dataset.numObjs, deparameterize, List.map_nil, List.append_nil, List.mem_flatMap, List.mem_map] at ho
    obtain ⟨_, ⟨e, he, rfl⟩, ho⟩ := ho
    simp only [Exchange.numObjs, deparameterizeExchange] at ho
    rcases hp : e.pv with _ | p <;> simp [hp] at ho
    · subst ho; exact ⟨rfl, rfl⟩
    · rcases ho with rfl | rfl <;> exact ⟨rfl, rfl⟩
  · simp only [deparameterize]
    rw [List.forall₂_map_right_iff]
    refine List.forall₂_same.mpr fun e _ => ⟨rfl, fun h => by simp [deparameterizeExchange, h], fun p h => by simp [deparameterizeExchange, h]⟩

example : (deparameterize { name := "a", parameters := [{ amount := 1, var := some "x" }], exchanges := [{ name := "p", type := .referenceProduct, amount := 2, formula := some "2*x", var := some "y", pv := some { amount := 3, formula := some "3*x" }, properties := [{ name := "price", amount := 1 }] }] }) = { name := "a", exchanges := [{ name := "p", type := .referenceProduct, amount := 2, pv := some { amount := 3 } }] } := by
  decide +kernel

end Ocelot
