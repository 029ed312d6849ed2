import Verif.Proofs.Utils
import Verif.Props.Uncertainty

/-! # Properties C10–C12: normalisation, choosing a product, production volume ratio -/

namespace Ocelot
open Spec

/-! ## C10 -/

/-- C10: a successful normalisation found exactly one reference product with a nonzero amount and
multiplied every exchange, in place and in order, by one positive factor `n`; nothing but exchange
amounts and uncertainties changed; afterwards the reference product has absolute amount exactly one
and its old sign — unless it was already within the tolerance, in which case nothing changed. -/
theorem C10_normalize_result (M : MathEnv) (ds ds' : Dataset) (h : normalize M ds = .ok ds') :
    ∃ rp n, refs ds = [rp] ∧ rp.amount ≠ 0 ∧ 0 < n ∧
      ds' = { ds with exchanges := ds'.exchanges } ∧
      List.Forall₂ (ScaledBy n) ds.exchanges ds'.exchanges ∧
      ∃ rp', refs ds' = [rp'] ∧ (0 < rp'.amount ↔ 0 < rp.amount) ∧
        (|rp'.amount| = 1 ∨ (ds' = ds ∧ |1 / |rp.amount| - 1| ≤ 1 / 10 ^ 14)) := by
  obtain ⟨rp, n, h1, h0, hn, hN, hf, h2, hone, -⟩ := normalize_scaled h
  have hfil : List.Forall₂ (ScaledBy n) (refs ds) (refs ds') := by
    refine forall₂_filter_rel h2 ?_
    intro a b hab
    rw [hab.type]
  rw [h1] at hfil
  obtain ⟨rp', hrp', hr⟩ : ∃ rp', ScaledBy n rp rp' ∧ refs ds' = [rp'] := by
    generalize refs ds' = r at hfil
    cases hfil with
    | cons ha hb => cases hb; exact ⟨_, ha, rfl⟩
  refine ⟨rp, n, h1, h0, hn, hf, h2, rp', hr, ?_, ?_⟩
  · rw [hrp'.amount]
    exact mul_pos_iff_of_pos_right hn
  · rcases hN with hN | ⟨hN, hc⟩
    · left
      rw [hrp'.amount, abs_mul, abs_of_pos hn, mul_comm]; exact hN
    · right; exact ⟨hone hN, hc⟩

/-- C10: the error cases, exactly. -/
theorem C10_normalize_errors (M : MathEnv) (ds : Dataset) :
    (refs ds = [] → normalize M ds = .error .valueError) ∧
    (2 ≤ (refs ds).length → normalize M ds = .error .invalidMultioutputDataset) ∧
    (∀ rp, refs ds = [rp] → rp.amount = 0 → normalize M ds = .error .zeroProduction) ∧
    (∀ rp, refs ds = [rp] → rp.amount ≠ 0 →
      (∀ e ∈ ds.exchanges, ∃ e', scaleExchange M e (1 / |rp.amount|) = .ok e') →
      ∃ ds', normalize M ds = .ok ds') := by
  refine ⟨?_, ?_, ?_, ?_⟩
  · intro h
    have : getSingleReferenceProduct ds = .error .valueError := by
      unfold getSingleReferenceProduct
      change (match refs ds with | [] => _ | [e] => _ | _ :: _ :: _ => _) = _
      rw [h]
    simp [normalize, this]
  · intro h
    have : getSingleReferenceProduct ds = .error .invalidMultioutputDataset := by
      unfold getSingleReferenceProduct
      change (match refs ds with | [] => _ | [e] => _ | _ :: _ :: _ => _) = _
      rcases hr : refs ds with _ | ⟨a, _ | ⟨b, l⟩⟩ <;> simp [hr] at h ⊢
    simp [normalize, this]
  · intro rp h h0
    simp [normalize, getSingle_ok.mpr h, h0]
  · intro rp h h0 hall
    by_cases hc : |1 / |rp.amount| - 1| ≤ 1 / 10 ^ 14
    · exact ⟨ds, normalize_of_close h h0 hc⟩
    · obtain ⟨ex, hex⟩ := mapE_ok_of_forall hall
      refine ⟨{ ds with exchanges := ex }, ?_⟩
      unfold normalize
      rw [getSingle_ok.mpr h]
      simp only [ebind_ok, h0, if_false, normEpsilon, epure, gt_iff_lt]
      rw [if_pos (not_le.mp hc), hex]
      simp

/-- C10: normalising twice equals normalising once. -/
theorem C10_normalize_idempotent (M : MathEnv) (ds ds' : Dataset) (h : normalize M ds = .ok ds') :
    normalize M ds' = .ok ds' := by
  obtain ⟨rp, n, h1, h0, hn, hf, h2, rp', hr, hs, h3⟩ := C10_normalize_result M ds ds' h
  rcases h3 with h3 | ⟨h3, hc⟩
  · refine normalize_of_close hr ?_ ?_
    · intro h; rw [h] at h3; norm_num at h3
    · rw [h3]; norm_num
  · subst h3; exact normalize_of_close h1 h0 hc

/-- A small two-exchange activity used in the examples. -/
def sampleDs : Dataset := { name := "steel production", exchanges := [{ name := "steel", id := "1", type := .referenceProduct, amount := -4 }, { name := "iron", id := "2", type := .fromTechnosphere, amount := 2 }] }

example : normalize sampleM sampleDs = .ok { name := "steel production", exchanges := [{ name := "steel", id := "1", type := .referenceProduct, amount := -1 }, { name := "iron", id := "2", type := .fromTechnosphere, amount := 1 / 2 }] } := by
  decide +kernel

example : normalize sampleM { name := "x" } = .error .valueError := by decide +kernel

/-! ## C11 -/

/-- C11: the exact shape of the dataset returned by `choose_reference_product_exchange`. With a
positive normalisation factor `n` for the chosen amount: first the chosen exchange, made the reference
product, certain and unclassified, amount times `n`; then every other production exchange as a
`dropped product` with amount zero and without formula, production volume and uncertainty; then every
non-production exchange with its amount multiplied by `factor * n`. Everything else in the dataset is
kept. -/
theorem C11_choose_shape (M : MathEnv) (ds out : Dataset) (x : Exchange) (f : ℚ)
    (h : chooseReferenceProduct M ds x f = .ok out) :
    x.amount ≠ 0 ∧ Classified ds ∧ ∃ n non, 0 < n ∧ NormFactor x.amount n ∧
      List.Forall₂ (ScaledBy (f * n)) (nonproduction ds) non ∧
      out = { ds with exchanges :=
        { x with type := .referenceProduct, uncertainty := none, cls := none, amount := x.amount * n }
        :: (((production ds).filter fun e => e != x).map fun e =>
            { e with type := .droppedProduct, amount := 0, formula := none, pv := none, uncertainty := none })
        ++ non } := by
  unfold chooseReferenceProduct at h
  by_cases h0 : x.amount = 0
  · simp [h0] at h
  simp only [h0, if_false] at h
  obtain ⟨prod, hp, h⟩ := bind_eq_ok.mp h
  obtain ⟨hc, rfl⟩ := allocatableProduction_inv hp
  rw [nonproductionExchanges_ok hc] at h
  simp only [ebind_ok] at h
  obtain ⟨sc, hsc, h⟩ := bind_eq_ok.mp h
  obtain ⟨rp, n, h1, h0', hn, hN, hfr, hS, -, hmap⟩ := normalize_scaled h
  have hsc' := forall₂_mapE_scale hsc
  have hnon : ∀ e ∈ sc, e.type ≠ .referenceProduct := by
    intro e he
    obtain ⟨a, ha, hab⟩ := mapE_mem hsc he
    have := (scaleExchange_scaled hab).type
    rw [this]
    have hq := (List.mem_filter.mp ha).2
    intro hbad
    simp [isProduction, hbad] at hq
  have hrp : rp = chosenProduct x := by
    have : refs { ds with exchanges := [chosenProduct x]
        ++ ((production ds).filter fun e => e != x).map nonreferenceProduct ++ sc } = [chosenProduct x] := by
      unfold refs
      simp only [List.filter_append]
      rw [(List.filter_eq_nil_iff (l := sc)).mpr (by simpa using hnon)]
      rw [(List.filter_eq_nil_iff (l := List.map _ _)).mpr (by
        intro e he
        obtain ⟨a, _, rfl⟩ := List.mem_map.mp he
        simp [nonreferenceProduct])]
      simp [chosenProduct]
    rw [this] at h1
    exact (List.cons.inj h1).1.symm
  subst hrp
  simp only at hmap
  obtain ⟨r12, r3, hm12, hm3, he⟩ := mapE_append.mp hmap
  obtain ⟨r1, r2, hm1, hm2, he'⟩ := mapE_append.mp hm12
  have hr1 : r1 = [{ x with type := .referenceProduct, uncertainty := none, cls := none, amount := x.amount * n }] := by
    obtain ⟨b, r', hb, hr', rfl⟩ := mapE_cons_ok.mp hm1
    rw [scaleExchange_certain n (by rfl)] at hb
    cases hb; cases hr'; rfl
  have hr2 : r2 = ((production ds).filter fun e => e != x).map fun e =>
      { e with type := .droppedProduct, amount := 0, formula := none, pv := none, uncertainty := none } := by
    rw [mapE_congr (g := fun e => .ok { e with amount := e.amount * n })] at hm2
    · rw [mapE_pure] at hm2
      cases hm2
      simp [nonreferenceProduct]
    · intro e he
      obtain ⟨a, _, rfl⟩ := List.mem_map.mp he
      exact scaleExchange_certain n rfl
  refine ⟨h0, hc, n, r3, hn, hN, ?_, ?_⟩
  · have h3 := forall₂_mapE_scale hm3
    exact forall₂_trans' hsc' h3 fun _ _ _ => ScaledBy.trans
  · rw [hfr]
    simp only [he, he', hr1, hr2]
    simp

/-- C11: the result has exactly one reference product, the chosen flow, with amount `±1` (or its old
amount, if that was within the tolerance), of the same sign as before. -/
theorem C11_choose_reference (M : MathEnv) (ds out : Dataset) (x : Exchange) (f : ℚ)
    (h : chooseReferenceProduct M ds x f = .ok out) :
    ∃ rp, refs out = [rp] ∧ rp.name = x.name ∧ rp.id = x.id ∧ rp.uncertainty = none ∧ rp.cls = none ∧
      rp.pv = x.pv ∧ (0 < rp.amount ↔ 0 < x.amount) ∧
      (|rp.amount| = 1 ∨ (rp.amount = x.amount ∧ |1 / |x.amount| - 1| ≤ 1 / 10 ^ 14)) := by
  obtain ⟨h0, hc, n, non, hn, hN, hS, rfl⟩ := C11_choose_shape M ds out x f h
  refine ⟨{ x with type := .referenceProduct, uncertainty := none, cls := none, amount := x.amount * n }, ?_, rfl, rfl, rfl, rfl, rfl, ?_, ?_⟩
  · have hnon : ∀ e ∈ non, e.type ≠ .referenceProduct := by
      intro e he
      obtain ⟨a, ha, hab⟩ : ∃ a ∈ nonproduction ds, ScaledBy (f * n) a e := forall₂_mem_right hS he
      rw [hab.type]
      have hq := (List.mem_filter.mp ha).2
      intro hbad
      simp [isProduction, hbad] at hq
    unfold refs
    simp only [List.cons_append]
    rw [List.filter_cons_of_pos (by rfl), List.filter_append,
      (List.filter_eq_nil_iff (l := non)).mpr (by simpa using hnon),
      (List.filter_eq_nil_iff (l := List.map _ _)).mpr (by
        intro e he
        obtain ⟨a, _, rfl⟩ := List.mem_map.mp he
        simp)]
    rfl
  · exact mul_pos_iff_of_pos_right hn
  · rcases hN with hN | ⟨hN, hc⟩
    · left; simp only; rw [abs_mul, abs_of_pos hn, mul_comm]; exact hN
    · right; simp only; rw [hN]; exact ⟨by simp, hc⟩

/-- C11: the result is a single-output dataset: exactly one reference product and no allocatable
byproduct. -/
theorem C11_choose_single (M : MathEnv) (ds out : Dataset) (x : Exchange) (f : ℚ)
    (h : chooseReferenceProduct M ds x f = .ok out) : SingleOutput out := by
  obtain ⟨rp, hr, -⟩ := C11_choose_reference M ds out x f h
  refine ⟨by rw [hr]; rfl, ?_⟩
  obtain ⟨h0, hc, n, non, hn, hN, hS, rfl⟩ := C11_choose_shape M ds out x f h
  rintro e he ⟨ht, hcl⟩
  simp only [List.cons_append, List.mem_cons, List.mem_append, List.mem_map] at he
  rcases he with rfl | ⟨a, _, rfl⟩ | he
  · cases ht
  · cases ht
  · have : isProduction e = false := by
      obtain ⟨a, ha, hab⟩ := forall₂_mem_right hS he
      rw [hab.prod]
      simpa using (List.mem_filter.mp ha).2
    simp [isProduction, ht, hcl] at this

/-- C11: choosing an exchange with amount zero is an error. -/
theorem C11_choose_zero (M : MathEnv) (ds : Dataset) (x : Exchange) (f : ℚ) (h : x.amount = 0) :
    chooseReferenceProduct M ds x f = .error .zeroProduction := by
  simp [chooseReferenceProduct, h]

example : chooseReferenceProduct sampleM { name := "a", exchanges := [{ name := "p", id := "1", type := .referenceProduct, amount := 2 }, { name := "q", id := "2", type := .byproduct, cls := some .allocatable, amount := 5 }, { name := "i", id := "3", type := .fromTechnosphere, amount := 10 }] } { name := "q", id := "2", type := .byproduct, cls := some .allocatable, amount := 5 } (1/4)
    = .ok { name := "a", exchanges := [{ name := "q", id := "2", type := .referenceProduct, amount := 1 }, { name := "p", id := "1", type := .droppedProduct, amount := 0 }, { name := "i", id := "3", type := .fromTechnosphere, amount := 1/2 }] } := by
  decide +kernel

/-! ## C12 -/

theorem pvRatios_mem {l : List Exchange} {rs : List ℚ} (h : pvRatios l = .ok rs) (r : ℚ) :
    r ∈ rs ↔ ∃ e ∈ l, e.type = .referenceProduct ∧ e.amount ≠ 0 ∧ ∃ pv, e.pv = some pv ∧
      r = pv.amount / e.amount := by
  induction l generalizing rs with
  | nil => cases h; simp
  | cons e l ih =>
    simp only [pvRatios] at h
    split at h
    · next hc =>
      obtain ⟨pv, hpv, h⟩ := bind_eq_ok.mp h
      obtain ⟨rs', hrs, h⟩ := bind_eq_ok.mp h
      cases h
      rw [getKey_eq_ok] at hpv
      simp only [List.mem_cons, ih hrs]
      constructor
      · rintro (rfl | ⟨e', he', hr⟩)
        · exact ⟨e, by simp, hc.1, hc.2, pv, hpv, rfl⟩
        · exact ⟨e', by simp [he'], hr⟩
      · rintro ⟨e', rfl | he', h1, h2, pv', hpv', hr⟩
        · left
          rw [hpv] at hpv'
          cases hpv'; exact hr
        · right; exact ⟨e', he', h1, h2, pv', hpv', hr⟩
    · next hc =>
      rw [ih h]
      constructor
      · rintro ⟨e', he', hr⟩; exact ⟨e', by simp [he'], hr⟩
      · rintro ⟨e', he', hr⟩
        rcases List.mem_cons.mp he' with rfl | he'
        · exact absurd ⟨hr.1, hr.2.1⟩ hc
        · exact ⟨e', he', hr⟩

theorem pvRatios_ok_iff {l : List Exchange} :
    (∃ rs, pvRatios l = .ok rs) ↔
      ∀ e ∈ l, e.type = .referenceProduct → e.amount ≠ 0 → e.pv ≠ none := by
  induction l with
  | nil => simp [pvRatios]
  | cons e l ih =>
    simp only [pvRatios]
    split
    · next hc =>
      rcases hpv : e.pv with _ | pv
      · simp only [getKey_none, ebind_error]
        constructor
        · rintro ⟨_, h⟩; cases h
        · intro h; exact absurd hpv (h e (by simp) hc.1 hc.2)
      · constructor
        · rintro ⟨rs, h⟩
          obtain ⟨_, _, h⟩ := bind_eq_ok.mp h
          obtain ⟨rs', hrs, _⟩ := bind_eq_ok.mp h
          have := ih.mp ⟨rs', hrs⟩
          intro e' he' h1 h2
          rcases List.mem_cons.mp he' with rfl | he'
          · rw [hpv]; simp
          · exact this e' he' h1 h2
        · intro h
          obtain ⟨rs', hrs⟩ := ih.mpr fun e' he' => h e' (by simp [he'])
          exact ⟨_, by simp [hrs]; rfl⟩
    · next hc =>
      rw [ih]
      constructor
      · intro h e' he' h1 h2
        rcases List.mem_cons.mp he' with rfl | he'
        · exact absurd ⟨h1, h2⟩ hc
        · exact h e' he' h1 h2
      · intro h e' he'; exact h e' (by simp [he'])

theorem biggest_sorted (rs : List ℚ) (r : ℚ) (t : List ℚ)
    (h : rs.insertionSort (fun a b => |b| ≤ |a|) = r :: t) : r ∈ rs ∧ ∀ x ∈ rs, |x| ≤ |r| := by
  have hp := List.perm_insertionSort (fun a b : ℚ => |b| ≤ |a|) rs
  have : Std.Total (fun a b : ℚ => |b| ≤ |a|) := ⟨fun a b => le_total _ _⟩
  have : IsTrans ℚ (fun a b : ℚ => |b| ≤ |a|) := ⟨fun a b c h1 h2 => le_trans h2 h1⟩
  have hs := List.pairwise_insertionSort (fun a b : ℚ => |b| ≤ |a|) rs
  rw [h] at hp hs
  refine ⟨hp.mem_iff.mp (by simp), fun x hx => ?_⟩
  rcases List.mem_cons.mp (hp.mem_iff.mpr hx) with rfl | hx
  · exact le_refl _
  · exact (List.pairwise_cons.mp hs).1 x hx

/-- C12: the returned ratio is `production volume / amount` of some reference product with nonzero
amount, and no other such ratio is larger in absolute value. -/
theorem C12_biggest_ratio (ds : Dataset) (r : ℚ) (h : getBiggestPvRatio ds = .ok r) :
    (∃ e ∈ refs ds, e.amount ≠ 0 ∧ ∃ pv, e.pv = some pv ∧ r = pv.amount / e.amount) ∧
    (∀ e ∈ refs ds, e.amount ≠ 0 → ∃ pv, e.pv = some pv ∧ |pv.amount / e.amount| ≤ |r|) := by
  unfold getBiggestPvRatio at h
  obtain ⟨rs, hrs, h⟩ := bind_eq_ok.mp h
  rcases hs : rs.insertionSort (fun a b => |b| ≤ |a|) with _ | ⟨r', t⟩ <;> rw [hs] at h
  · cases h
  cases h
  obtain ⟨hm, hmax⟩ := biggest_sorted rs r t hs
  constructor
  · obtain ⟨e, he, ht, ha, pv, hpv, hr⟩ := (pvRatios_mem hrs r).mp hm
    exact ⟨e, List.mem_filter.mpr ⟨he, by simp [ht]⟩, ha, pv, hpv, hr⟩
  · intro e he ha
    obtain ⟨he, ht⟩ := List.mem_filter.mp he
    have ht : e.type = .referenceProduct := by simpa using ht
    have hne := pvRatios_ok_iff.mp ⟨rs, hrs⟩ e he ht ha
    rcases hpv : e.pv with _ | pv
    · exact absurd hpv hne
    · exact ⟨pv, rfl, hmax _ ((pvRatios_mem hrs _).mpr ⟨e, he, ht, ha, pv, hpv, rfl⟩)⟩

/-- C12: the outcome, exactly: `ZeroProduction` iff every reference product amount is zero, `KeyError`
iff some nonzero reference product has no production volume, a number otherwise. -/
theorem C12_biggest_outcome (ds : Dataset) :
    (getBiggestPvRatio ds = .error .zeroProduction ↔ ∀ e ∈ refs ds, e.amount = 0) ∧
    ((∃ e ∈ refs ds, e.amount ≠ 0 ∧ e.pv = none) → getBiggestPvRatio ds = .error .keyError) ∧
    ((∃ e ∈ refs ds, e.amount ≠ 0) → (∀ e ∈ refs ds, e.amount ≠ 0 → e.pv ≠ none) →
      ∃ r, getBiggestPvRatio ds = .ok r) := by
  have hmemr : ∀ e, e ∈ refs ds ↔ e ∈ ds.exchanges ∧ e.type = .referenceProduct := by
    intro e; simp [refs, List.mem_filter]
  have herr : ∀ l e, pvRatios l = .error e → e = .keyError := by
    intro l
    induction l with
    | nil => intro e h; cases h
    | cons a l ih =>
      intro e h
      simp only [pvRatios] at h
      split at h
      · rcases bind_eq_error.mp h with h | ⟨_, _, h⟩
        · rcases hpv : a.pv with _ | pv <;> rw [hpv] at h <;> simp at h; exact h.symm
        · rcases bind_eq_error.mp h with h | ⟨_, _, h⟩
          · exact ih e h
          · cases h
      · exact ih e h
  have key : (∀ e ∈ refs ds, e.amount ≠ 0 → e.pv ≠ none) ↔ ∃ rs, pvRatios ds.exchanges = .ok rs := by
    rw [pvRatios_ok_iff]
    constructor
    · intro h e he ht ha; exact h e ((hmemr e).mpr ⟨he, ht⟩) ha
    · intro h e he ha
      obtain ⟨h1, h2⟩ := (hmemr e).mp he
      exact h e h1 h2 ha
  have hempty : ∀ rs, pvRatios ds.exchanges = .ok rs → (rs = [] ↔ ∀ e ∈ refs ds, e.amount = 0) := by
    intro rs hrs
    constructor
    · rintro rfl e he
      by_contra ha
      have hne := (key.mpr ⟨_, hrs⟩) e he ha
      obtain ⟨h1, h2⟩ := (hmemr e).mp he
      rcases hpv : e.pv with _ | pv
      · exact hne hpv
      · have := (pvRatios_mem hrs (pv.amount / e.amount)).mpr ⟨e, h1, h2, ha, pv, hpv, rfl⟩
        cases this
    · intro h
      rcases rs with _ | ⟨r, t⟩
      · rfl
      · obtain ⟨e, he, ht, ha, _⟩ := (pvRatios_mem hrs r).mp (by simp)
        exact absurd (h e ((hmemr e).mpr ⟨he, ht⟩)) ha
  have hres : ∀ rs, pvRatios ds.exchanges = .ok rs →
      (rs = [] ∧ getBiggestPvRatio ds = .error .zeroProduction) ∨
      (rs ≠ [] ∧ ∃ r, getBiggestPvRatio ds = .ok r) := by
    intro rs hrs
    have hp := List.perm_insertionSort (fun a b : ℚ => |b| ≤ |a|) rs
    unfold getBiggestPvRatio
    rw [hrs]
    simp only [ebind_ok]
    rcases hs : rs.insertionSort (fun a b => |b| ≤ |a|) with _ | ⟨r, t⟩
    · rw [hs] at hp
      exact Or.inl ⟨List.nil_perm.mp hp, rfl⟩
    · right
      refine ⟨?_, r, rfl⟩
      rintro rfl
      simp at hs
  refine ⟨⟨?_, ?_⟩, ?_, ?_⟩
  · intro h
    rcases hrs : pvRatios ds.exchanges with e | rs
    · simp [getBiggestPvRatio, hrs] at h
      have := herr _ _ hrs
      rw [h] at this; cases this
    · rcases hres rs hrs with ⟨h1, _⟩ | ⟨_, r, h2⟩
      · exact (hempty rs hrs).mp h1
      · rw [h] at h2; cases h2
  · intro h
    obtain ⟨rs, hrs⟩ := key.mp fun e he ha => absurd (h e he) ha
    rcases hres rs hrs with ⟨_, h2⟩ | ⟨h1, _⟩
    · exact h2
    · exact absurd ((hempty rs hrs).mpr h) h1
  · rintro ⟨e, he, ha, hn⟩
    rcases hrs : pvRatios ds.exchanges with e' | rs
    · rw [herr _ _ hrs] at hrs
      simp [getBiggestPvRatio, hrs]
    · exact absurd hn ((key.mpr ⟨rs, hrs⟩) e he ha)
  · rintro ⟨e, he, ha⟩ hall
    obtain ⟨rs, hrs⟩ := key.mp hall
    rcases hres rs hrs with ⟨h1, _⟩ | ⟨_, h2⟩
    · exact absurd ((hempty rs hrs).mp h1 e he) ha
    · exact h2

/-- C12: the absolute value does not depend on the order of the exchanges. -/
theorem C12_biggest_order (ds ds' : Dataset) (hp : ds.exchanges.Perm ds'.exchanges) (r : ℚ)
    (h : getBiggestPvRatio ds = .ok r) : ∃ r', getBiggestPvRatio ds' = .ok r' ∧ |r'| = |r| := by
  have hmem : ∀ e, e ∈ refs ds ↔ e ∈ refs ds' := by
    intro e; simp [refs, List.mem_filter, hp.mem_iff]
  obtain ⟨⟨e, he, ha, pv, hpv, hr⟩, hall⟩ := C12_biggest_ratio ds r h
  obtain ⟨r', hr'⟩ := (C12_biggest_outcome ds').2.2 ⟨e, (hmem e).mp he, ha⟩ (by
    intro e' he' ha'
    obtain ⟨pv', hpv', _⟩ := hall e' ((hmem e').mpr he') ha'
    rw [hpv']; simp)
  refine ⟨r', hr', le_antisymm ?_ ?_⟩
  · obtain ⟨⟨e', he', ha', pv', hpv', hr2⟩, _⟩ := C12_biggest_ratio ds' r' hr'
    obtain ⟨pv'', hpv'', hle⟩ := hall e' ((hmem e').mpr he') ha'
    rw [hpv'] at hpv''; cases hpv''
    rw [hr2]; exact hle
  · obtain ⟨_, hall'⟩ := C12_biggest_ratio ds' r' hr'
    obtain ⟨pv'', hpv'', hle⟩ := hall' e ((hmem e).mp he) ha
    rw [hpv] at hpv''; cases hpv''
    rw [hr]; exact hle

example : getBiggestPvRatio { name := "a", exchanges := [{ name := "p", type := .referenceProduct, amount := 2, pv := some { amount := 10 } }, { name := "q", type := .referenceProduct, amount := -1, pv := some { amount := 7 } }] } = .ok (-7) := by
  decide +kernel

end Ocelot
