import Verif.Proofs.Economic
import Verif.Proofs.AnyProduction

/-! # Properties C13–C18: the allocation methods of the cut-off model -/

namespace Ocelot
open Spec

/-! ## C13 -/

namespace Spec

/-- Reference products with nonzero amount. -/
def liveRefs (ds : Dataset) : List Exchange := (refs ds).filter fun e => e.amount != 0

/-- Some allocatable byproduct has a nonzero amount. -/
def HasLiveByproduct (ds : Dataset) : Prop :=
  ∃ e ∈ ds.exchanges, e.type = .byproduct ∧ e.cls = some .allocatable ∧ e.amount ≠ 0

/-- Some reference product is classified as an allocatable product. -/
def HasAllocatableRef (ds : Dataset) : Prop := ∃ e ∈ refs ds, e.cls = some .allocatable

/-- Some exchange is conditional. -/
def HasConditional (ds : Dataset) : Prop := ∃ e ∈ ds.exchanges, e.conditional = some true

/-- Some reference product is negative: the activity is a treatment service. -/
def HasNegativeRef (ds : Dataset) : Prop := ∃ e ∈ refs ds, e.amount < 0

/-- The byproducts are classified as far as the code looks at them: an unclassified one does no harm only behind an allocatable byproduct
with nonzero amount and behind an allocatable reference product. -/
def Readable (ds : Dataset) : Prop :=
  ∀ pre e post, ds.exchanges = pre ++ e :: post → e.type = .byproduct → e.cls = none →
    (∃ x ∈ pre, x.type = .byproduct ∧ x.cls = some .allocatable ∧ x.amount ≠ 0) ∧
    (∃ x ∈ pre, x.type = .referenceProduct ∧ x.cls = some .allocatable)

/-- One live product only. -/
def OneProduct (ds : Dataset) : Prop := (liveRefs ds).length = 1 ∧ ¬ HasLiveByproduct ds

/-- The documented decision tree (docstring of `choose_allocation_method`), as a relation between
datasets and labels. The label `single product` is `no allocation` in the docstring; the special name is
in the code only. -/
inductive Method (ds : Dataset) : String → Prop
  | single : OneProduct ds → Method ds "single product"
  | group : ¬ OneProduct ds → ds.type = .marketGroup → Method ds "market group"
  | constrained : ¬ OneProduct ds → ds.type = .market → HasConditional ds →
      Method ds "constrained market"
  | unconstrained : ¬ OneProduct ds → ds.type = .market → ¬ HasConditional ds →
      Method ds "unconstrained market"
  | withoutProducts : ds.type ≠ .marketGroup → ds.type ≠ .market → 1 < (liveRefs ds).length →
      ¬ HasAllocatableRef ds → Method ds "combined production without products"
  | withByproducts : ds.type ≠ .marketGroup → ds.type ≠ .market → 1 < (liveRefs ds).length →
      HasAllocatableRef ds → HasLiveByproduct ds → Method ds "combined production with byproducts"
  | combined : ds.type ≠ .marketGroup → ds.type ≠ .market → 1 < (liveRefs ds).length →
      HasAllocatableRef ds → ¬ HasLiveByproduct ds →
      ds.name ≠ "rare earth oxides production from bastnäsite concentrate" →
      Method ds "combined production"
  | rareEarth : ds.type ≠ .marketGroup → ds.type ≠ .market → 1 < (liveRefs ds).length →
      HasAllocatableRef ds → ¬ HasLiveByproduct ds →
      ds.name = "rare earth oxides production from bastnäsite concentrate" → Method ds "economic"
  | waste (e) : ¬ OneProduct ds → ds.type ≠ .marketGroup → ds.type ≠ .market → liveRefs ds = [e] →
      e.amount < 0 → e.cls = some .waste → Method ds "waste treatment"
  | recycling (e) : ¬ OneProduct ds → ds.type ≠ .marketGroup → ds.type ≠ .market → liveRefs ds = [e] →
      e.amount < 0 → e.cls ≠ some .waste → Method ds "recycling"
  | economic : ¬ OneProduct ds → ds.type ≠ .marketGroup → ds.type ≠ .market →
      (liveRefs ds).length ≤ 1 → ¬ HasNegativeRef ds → Method ds "economic"

end Spec

theorem liveRefs_eq (ds : Dataset) :
    (ds.exchanges.filter fun e => e.type == .referenceProduct && e.amount != 0) = liveRefs ds := by
  unfold liveRefs refs
  rw [List.filter_filter]
  congr 1; funext e; exact Bool.and_comm _ _

theorem live_byproduct_iff (ds : Dataset) :
    ((production ds).any fun e => e.type == .byproduct && e.amount != 0) = true ↔ HasLiveByproduct ds := by
  simp only [List.any_eq_true, production, List.mem_filter, isProduction, HasLiveByproduct]
  constructor
  · rintro ⟨e, ⟨he, hp⟩, h⟩
    simp at h hp
    rcases hp with hp | hp
    · rw [h.1] at hp; cases hp
    · exact ⟨e, he, h.1, hp.2, h.2⟩
  · rintro ⟨e, he, h1, h2, h3⟩
    exact ⟨e, ⟨he, by simp [h1, h2]⟩, by simp [h1, h3]⟩

theorem alloc_ref_iff (ds : Dataset) :
    ((production ds).any fun e => e.type == .referenceProduct && e.cls == some .allocatable) = true
      ↔ HasAllocatableRef ds := by
  simp only [List.any_eq_true, production, List.mem_filter, isProduction, HasAllocatableRef, refs]
  constructor
  · rintro ⟨e, ⟨he, hp⟩, h⟩
    simp at h
    exact ⟨e, ⟨he, by simp [h.1]⟩, h.2⟩
  · rintro ⟨e, ⟨he, h1⟩, h2⟩
    simp at h1
    exact ⟨e, ⟨he, by simp [h1]⟩, by simp [h1, h2]⟩

/-- The two tests look at production exchanges up to the first hit only. -/
theorem readable_iff (ds : Dataset) : Readable ds ↔
    (∃ b, anyProduction (fun e => e.type == .byproduct && e.amount != 0) ds.exchanges = .ok b) ∧
    (∃ b, anyProduction (fun e => e.type == .referenceProduct && e.cls == some .allocatable) ds.exchanges = .ok b) := by
  rw [anyProduction_succeeds, anyProduction_succeeds, ← forall_and]
  refine forall_congr' fun pre => ?_
  rw [← forall_and]
  refine forall_congr' fun e => ?_
  rw [← forall_and]
  refine forall_congr' fun post => ?_
  rw [← imp_and, ← imp_and, ← imp_and]
  refine imp_congr_right fun _ => imp_congr_right fun _ => imp_congr_right fun _ => and_congr ?_ ?_
  · constructor
    · rintro ⟨x, hx, h1, h2, h3⟩
      exact ⟨x, hx, by simp [isProduction, h1, h2], by simp [h1, h3]⟩
    · rintro ⟨x, hx, h1, h2⟩
      simp only [Bool.and_eq_true, beq_iff_eq, bne_iff_ne] at h2
      refine ⟨x, hx, h2.1, ?_, h2.2⟩
      simpa [isProduction, h2.1] using h1
  · constructor
    · rintro ⟨x, hx, h1, h2⟩
      exact ⟨x, hx, by simp [isProduction, h1], by simp [h1, h2]⟩
    · rintro ⟨x, hx, -, h2⟩
      simp only [Bool.and_eq_true, beq_iff_eq] at h2
      exact ⟨x, hx, h2⟩

theorem readable_of_classified {ds : Dataset} (hc : Classified ds) : Readable ds :=
  fun pre e post hl ht hn => absurd hn (hc e (by rw [hl]; simp) ht)

/-- C13: on every dataset whose byproducts are classified (as far as they are looked at) the choice succeeds (the assertion in the
code never fires) and the returned label is the one of the decision tree. -/
theorem C13_choose_total (ds : Dataset) (hc : Readable ds) :
    ∃ l, chooseAllocationMethod ds = .ok l ∧ Method ds l := by
  unfold chooseAllocationMethod
  obtain ⟨⟨b1, hb1⟩, ⟨b2, hb2⟩⟩ := (readable_iff ds).mp hc
  have e1 : b1 = (production ds).any fun e => e.type == .byproduct && e.amount != 0 := anyProduction_value hb1
  have e2 : b2 = (production ds).any fun e => e.type == .referenceProduct && e.cls == some .allocatable := anyProduction_value hb2
  rw [hb1, hb2, e1, e2]
  simp only [ebind_ok, epure, ethrow, liveRefs_eq]
  have hb : ∀ b : Bool, ((production ds).any fun e => e.type == .byproduct && e.amount != 0) = b →
      ((b = true) ↔ HasLiveByproduct ds) := by
    rintro b rfl; exact live_byproduct_iff ds
  have ha : ∀ b : Bool, ((production ds).any fun e => e.type == .referenceProduct && e.cls == some .allocatable) = b →
      ((b = true) ↔ HasAllocatableRef ds) := by
    rintro b rfl; exact alloc_ref_iff ds
  have hcd : ∀ b : Bool, (ds.exchanges.any fun e => e.conditional == some true) = b →
      ((b = true) ↔ HasConditional ds) := by
    rintro b rfl; simp [HasConditional]
  have hng : ∀ b : Bool, (ds.exchanges.any fun e => e.type == .referenceProduct && decide (e.amount < 0)) = b →
      ((b = true) ↔ HasNegativeRef ds) := by
    rintro b rfl
    simp [HasNegativeRef, refs, List.mem_filter, and_assoc]
  generalize ((production ds).any fun e => e.type == .byproduct && e.amount != 0) = byp at hb
  generalize ((production ds).any fun e => e.type == .referenceProduct && e.cls == some .allocatable) = al at ha
  generalize (ds.exchanges.any fun e => e.conditional == some true) = cd at hcd
  generalize (ds.exchanges.any fun e => e.type == .referenceProduct && decide (e.amount < 0)) = ng at hng
  have hb := hb byp rfl
  have ha := ha al rfl
  have hcd := hcd cd rfl
  have hng := hng ng rfl
  rw [List.length_map]
  by_cases h1 : (liveRefs ds).length = 1 ∧ byp = false
  · rw [if_pos h1]
    exact ⟨_, rfl, .single ⟨h1.1, by rw [← hb, h1.2]; simp⟩⟩
  rw [if_neg h1]
  have hone : ¬ OneProduct ds := by
    rintro ⟨h, h'⟩
    apply h1
    refine ⟨h, ?_⟩
    rw [← hb] at h'; simpa using h'
  by_cases h2 : ds.type = .marketGroup
  · rw [if_pos h2]; exact ⟨_, rfl, .group hone h2⟩
  rw [if_neg h2]
  by_cases h3 : ds.type = .market
  · rw [if_pos h3]
    by_cases h4 : cd = true
    · rw [if_pos h4]; exact ⟨_, rfl, .constrained hone h3 (hcd.mp h4)⟩
    · rw [if_neg h4]; exact ⟨_, rfl, .unconstrained hone h3 (fun h => h4 (hcd.mpr h))⟩
  rw [if_neg h3]
  by_cases h4 : (liveRefs ds).length > 1
  · rw [if_pos h4]
    by_cases h5 : al = false
    · rw [if_pos h5]
      exact ⟨_, rfl, .withoutProducts h2 h3 h4 (by rw [← ha, h5]; simp)⟩
    rw [if_neg h5]
    have hal := ha.mp (by simpa using h5)
    by_cases h6 : byp = true
    · rw [if_pos h6]; exact ⟨_, rfl, .withByproducts h2 h3 h4 hal (hb.mp h6)⟩
    rw [if_neg h6]
    have hnb : ¬ HasLiveByproduct ds := fun h => h6 (hb.mpr h)
    by_cases h7 : ds.name = rareEarthName
    · rw [if_pos h7]; exact ⟨_, rfl, .rareEarth h2 h3 h4 hal hnb h7⟩
    · rw [if_neg h7]; exact ⟨_, rfl, .combined h2 h3 h4 hal hnb h7⟩
  rw [if_neg h4]
  by_cases h5 : ng = true
  · rw [if_pos h5]
    obtain ⟨e, he, hneg⟩ := hng.mp h5
    have hmem : e ∈ liveRefs ds := List.mem_filter.mpr ⟨he, by simpa using hneg.ne⟩
    obtain ⟨x, hx⟩ : ∃ x, liveRefs ds = [x] := by
      rcases hl : liveRefs ds with _ | ⟨x, _ | ⟨y, t⟩⟩
      · rw [hl] at hmem; cases hmem
      · exact ⟨x, rfl⟩
      · rw [hl] at h4; simp at h4
    rw [hx] at hmem
    have hxe : e = x := by simpa using hmem
    subst hxe
    rw [hx]
    simp only [List.map_cons, List.map_nil]
    rw [if_neg (by simp)]
    by_cases h6 : e.cls = some .waste
    · rw [if_pos h6]; exact ⟨_, rfl, .waste e hone h2 h3 hx hneg h6⟩
    · rw [if_neg h6]; exact ⟨_, rfl, .recycling e hone h2 h3 hx hneg h6⟩
  · rw [if_neg h5]
    exact ⟨_, rfl, .economic hone h2 h3 (by omega) (fun h => h5 (hng.mpr h))⟩

/-- The conditions of the decision tree are mutually exclusive: at most one label per dataset. -/
theorem Spec.Method.unique {ds : Dataset} {l l' : String} (h : Method ds l) (h' : Method ds l') :
    l = l' := by
  have key : ∀ e, liveRefs ds = [e] → (liveRefs ds).length = 1 := by
    intro e h; rw [h]; rfl
  have neg : ∀ e, liveRefs ds = [e] → e.amount < 0 → HasNegativeRef ds := by
    intro e h hn
    refine ⟨e, ?_, hn⟩
    have : e ∈ liveRefs ds := by rw [h]; simp
    exact (List.mem_filter.mp this).1
  have inj : ∀ e e', liveRefs ds = [e] → liveRefs ds = [e'] → e = e' := by
    intro e e' h h'; rw [h] at h'; simpa using h'
  cases h <;> cases h' <;> first
    | rfl
    | (exfalso; grind [OneProduct])

/-- C13: exactness. A label is returned if and only if the byproducts are classified, as far as they are looked at, and the decision
tree assigns it. -/
theorem C13_choose_exact (ds : Dataset) (l : String) :
    chooseAllocationMethod ds = .ok l ↔ Readable ds ∧ Method ds l := by
  constructor
  · intro h
    have hc : Readable ds := by
      unfold chooseAllocationMethod at h
      obtain ⟨b1, hb1, h⟩ := bind_eq_ok.mp h
      obtain ⟨b2, hb2, h⟩ := bind_eq_ok.mp h
      exact (readable_iff ds).mpr ⟨⟨b1, hb1⟩, ⟨b2, hb2⟩⟩
    obtain ⟨l', h', hm⟩ := C13_choose_total ds hc
    rw [h] at h'
    cases h'
    exact ⟨hc, hm⟩
  · rintro ⟨hc, hm⟩
    obtain ⟨l', h', hm'⟩ := C13_choose_total ds hc
    rw [h', hm.unique hm']

/-- C13: the only failure is the `KeyError` of an unclassified byproduct that is looked at. -/
theorem C13_choose_error (ds : Dataset) (x : Err) :
    chooseAllocationMethod ds = .error x ↔ ¬ Readable ds ∧ x = .keyError := by
  constructor
  · intro h
    have hn : ¬ Readable ds := fun hr => by
      obtain ⟨l, hl, -⟩ := C13_choose_total ds hr
      rw [h] at hl; cases hl
    refine ⟨hn, ?_⟩
    rw [readable_iff] at hn
    unfold chooseAllocationMethod at h
    rcases h1 : anyProduction (fun e => e.type == .byproduct && e.amount != 0) ds.exchanges with y | b1
    · rw [h1] at h; cases h; exact anyProduction_error h1
    rw [h1, ebind_ok] at h
    rcases h2 : anyProduction (fun e => e.type == .referenceProduct && e.cls == some .allocatable) ds.exchanges with y | b2
    · rw [h2] at h; cases h; exact anyProduction_error h2
    exact absurd ⟨⟨b1, h1⟩, ⟨b2, h2⟩⟩ hn
  · rintro ⟨hn, rfl⟩
    rcases h : chooseAllocationMethod ds with y | l
    · unfold chooseAllocationMethod at h
      rw [readable_iff] at hn
      rcases h1 : anyProduction (fun e => e.type == .byproduct && e.amount != 0) ds.exchanges with z | b1
      · rw [h1] at h; cases h; rw [anyProduction_error h1]
      rw [h1, ebind_ok] at h
      rcases h2 : anyProduction (fun e => e.type == .referenceProduct && e.cls == some .allocatable) ds.exchanges with z | b2
      · rw [h2] at h; cases h; rw [anyProduction_error h2]
      exact absurd ⟨⟨b1, h1⟩, ⟨b2, h2⟩⟩ hn
    · exact absurd ((C13_choose_exact ds l).mp h).1 hn

/-- C13: the label is always one of the ten labels of ALLOCATION_METHODS. -/
theorem C13_choose_label (ds : Dataset) (l : String) (h : chooseAllocationMethod ds = .ok l) :
    l ∈ ["single product", "market group", "unconstrained market", "economic", "constrained market",
      "recycling", "waste treatment", "combined production without products", "combined production",
      "combined production with byproducts"] := by
  obtain ⟨-, hm⟩ := (C13_choose_exact ds l).mp h
  cases hm <;> simp

example : chooseAllocationMethod { name := "treatment", exchanges := [{ name := "w", type := .referenceProduct, amount := -1, cls := some .waste }, { name := "heat", type := .byproduct, cls := some .allocatable, amount := 3 }] } = .ok "waste treatment" := by
  decide +kernel

/-- An unclassified byproduct is an error, unless both tests end before it. -/
example : chooseAllocationMethod { name := "a", exchanges := [{ name := "w", type := .referenceProduct, amount := 1, cls := some .allocatable }, { name := "x", type := .byproduct, amount := 3 }] } = .error .keyError ∧
    chooseAllocationMethod { name := "a", exchanges := [{ name := "w", type := .referenceProduct, amount := 1, cls := some .allocatable }, { name := "heat", type := .byproduct, cls := some .allocatable, amount := 3 }, { name := "x", type := .byproduct, amount := 3 }] } = .ok "economic" := by
  decide +kernel

example : chooseAllocationMethod { name := "m", type := .market, exchanges := [{ name := "w", type := .referenceProduct, amount := 1 }, { name := "heat", type := .byproduct, cls := some .allocatable, amount := 3, conditional := some true }] } = .ok "constrained market" := by
  decide +kernel

/-! ## C14 -/

/-- C14: the allocation factors of `economic_allocation` sum to exactly one, and they are nonnegative
when no true value relation is negative (the code does not check its sign). -/
theorem C14_factors (M : MathEnv) (ds : Dataset) (outs : List Dataset)
    (h : economicAllocation M ds = .ok outs) :
    ∃ θ : List ℚ, θ.length = (production ds).length ∧ θ.sum = 1 ∧
      ((∀ e ∈ production ds, ∀ v, propValue e "true value relation" = some v → 0 ≤ v) →
        ∀ t ∈ θ, 0 ≤ t) ∧
      List.Forall₂ (fun (p : ℚ × Exchange) out => ∃ n, 0 < n ∧ NormFactor p.2.amount n ∧
          refAmount out = p.2.amount * n ∧ ∀ k, burden out k = burden ds k * (p.1 * n))
        (θ.zip (production ds)) outs := by
  obtain ⟨hc, hpos, fs, hf, hl, h2⟩ := economicAllocation_inv h
  refine ⟨fs, hl, economicFactors_sum hf, ?_, ?_⟩
  · intro htv
    refine economicFactors_nonneg hf (fun e he => (hpos e he).1) fun e he => ?_
    unfold tvWeight
    refine mul_nonneg ?_ (hpos e he).2.1
    rcases hv : propValue e "true value relation" with _ | v
    · simp
    · exact htv e he v hv
  · refine h2.imp fun p o hpo => ?_
    obtain ⟨n, hn, hN, -, hr, hb⟩ := choose_burden hpo
    exact ⟨n, hn, hN, hr, hb⟩

/-- Two products with prices, one input. -/
def econDs : Dataset := { name := "a", exchanges := [{ name := "p", id := "1", type := .referenceProduct, amount := 2, properties := [{ name := "price", amount := 3 }] }, { name := "q", id := "2", type := .byproduct, cls := some .allocatable, amount := 1, properties := [{ name := "price", amount := 2 }] }, { name := "i", id := "3", type := .fromTechnosphere, amount := 8 }] }

example : ∃ outs, economicAllocation sampleM econDs = .ok outs ∧ outs.length = 2 ∧
    outs.map (fun o => burden o "3") = [3, 2] := by
  refine ⟨(economicAllocation sampleM econDs).toOption.getD [], ?_, ?_, ?_⟩ <;> decide +kernel

/-! ## C15 -/

/-- C15: burden conservation. Weighting each output by (original amount of its product) / (its
normalised amount), the amounts of every non-production exchange id add up to the original amount. -/
theorem C15_economic_conserves (M : MathEnv) (ds : Dataset) (outs : List Dataset)
    (h : economicAllocation M ds = .ok outs) :
    outs.length = (production ds).length ∧
    ∀ k, (((production ds).zip outs).map fun po =>
      burden po.2 k * (po.1.amount / refAmount po.2)).sum = burden ds k := by
  obtain ⟨hc, hpos, fs, hf, hl, h2⟩ := economicAllocation_inv h
  constructor
  · rw [← h2.length_eq]; simp [hl]
  · intro k
    rw [conserve_sum hl h2 k, economicFactors_sum hf, one_mul]

/-- C15: each output is a single-output dataset producing one of the products. -/
theorem C15_economic_outputs (M : MathEnv) (ds : Dataset) (outs : List Dataset)
    (h : economicAllocation M ds = .ok outs) :
    List.Forall₂ (fun e out => SingleOutput out ∧ out = { ds with exchanges := out.exchanges } ∧
      ∃ rp, refs out = [rp] ∧ rp.name = e.name ∧ rp.id = e.id ∧ 0 < rp.amount)
      (production ds) outs := by
  obtain ⟨hc, hpos, fs, hf, hl, h2⟩ := economicAllocation_inv h
  clear hf
  generalize hp : production ds = prod at *
  clear hp h
  induction prod generalizing fs outs with
  | nil => simp at h2; subst h2; exact .nil
  | cons p prod ih =>
    rcases fs with _ | ⟨f, fs⟩
    · simp at hl
    · rw [List.zip_cons_cons] at h2
      cases h2 with
      | cons h1 h2 =>
        refine .cons ?_ (ih _ fs (fun e he => hpos e (by simp [he])) (by simpa using hl) h2)
        simp only at h1
        obtain ⟨h0, -, n, non, -, -, -, hout⟩ := C11_choose_shape M ds _ p f h1
        obtain ⟨rp, hr, hnm, hid, -, -, -, hs, -⟩ := C11_choose_reference M ds _ p f h1
        refine ⟨C11_choose_single M ds _ p f h1, by rw [hout], rp, hr, hnm, hid, ?_⟩
        exact hs.mpr (lt_of_le_of_ne (hpos p (by simp)).2.1 (Ne.symm h0))

/-! ## C16 -/

/-- C16: how the true value changes the factors. Products without a true value keep their revenue
share; the true-value products together keep their joint revenue share; within that group the factors
are proportional to true value times amount. -/
theorem C16_true_value (prod : List Exchange) (fs : List ℚ) (h : economicFactors prod = .ok fs) :
    ∃ θ : Exchange → ℚ, fs = prod.map θ ∧
      (∀ e ∈ prod, hasTv e = false → θ e = rev e / (prod.map rev).sum) ∧
      sumOver prod hasTv θ = sumOver prod hasTv rev / (prod.map rev).sum ∧
      (∀ e ∈ prod, ∀ e' ∈ prod, hasTv e = true → hasTv e' = true →
        θ e * tvWeight e' = θ e' * tvWeight e) := by
  have hsum := economicFactors_sum h
  obtain ⟨-, hR, hT, hfs⟩ := economicFactors_inv h
  refine ⟨_, hfs, ?_, ?_, ?_⟩
  · intro e _ he; simp [he]
  · rw [hfs, sum_ite_split] at hsum
    have h2 : sumOver prod (fun a => !hasTv a) (fun e => rev e / (prod.map rev).sum)
        = sumOver prod (fun a => !hasTv a) rev / (prod.map rev).sum := sum_map_div _ _ _
    have hsplit : (prod.map rev).sum = sumOver prod hasTv rev + sumOver prod (fun a => !hasTv a) rev :=
      sum_filter_split prod hasTv rev
    have h1 : sumOver prod (fun a => !hasTv a) rev / (prod.map rev).sum
        = 1 - sumOver prod hasTv rev / (prod.map rev).sum := by
      field_simp; linarith
    have h3 : sumOver prod hasTv (fun e => if hasTv e = true then tvWeight e / sumOver prod hasTv tvWeight * (sumOver prod hasTv rev / (prod.map rev).sum) else rev e / (prod.map rev).sum)
        = sumOver prod hasTv (fun e => tvWeight e / sumOver prod hasTv tvWeight * (sumOver prod hasTv rev / (prod.map rev).sum)) := by
      unfold sumOver
      congr 1
      apply List.map_congr_left
      intro e he
      simp [(List.mem_filter.mp he).2]
    rw [h3]
    rw [h2, h1] at hsum
    linarith
  · intro e _ e' _ he he'
    simp only [he, he', if_true]
    ring

example : economicFactors [{ name := "p", type := .referenceProduct, amount := 1, properties := [{ name := "price", amount := 1 }, { name := "true value relation", amount := 3 }] }, { name := "q", type := .byproduct, amount := 1, properties := [{ name := "price", amount := 1 }, { name := "true value relation", amount := 1 }] }, { name := "r", type := .byproduct, amount := 2, properties := [{ name := "price", amount := 1 }] }] = .ok [3/8, 1/8, 1/2] := by
  decide +kernel

/-! ## C17 -/

/-- C17: waste treatment. There is a single, negative, waste reference product; the first output keeps
it as its negative reference product and carries every non-production exchange multiplied by the same
positive normalisation factor; then comes one dataset for each allocatable byproduct, in order, which
consists of that byproduct alone, as reference product of absolute amount one (up to tolerance). -/
theorem C17_waste_treatment (M : MathEnv) (ds : Dataset) (outs : List Dataset)
    (h : wasteTreatmentAllocation M ds = .ok outs) :
    ∃ rp first free n, refs ds = [rp] ∧ rp.cls = some .waste ∧ rp.amount < 0 ∧ outs = first :: free ∧
      0 < n ∧ NormFactor rp.amount n ∧ refAmount first = rp.amount * n ∧ refAmount first < 0 ∧
      SingleOutput first ∧ first = { ds with exchanges := first.exchanges } ∧
      (∀ k, burden first k = burden ds k * n) ∧
      List.Forall₂ (fun e out => ∃ m, 0 < m ∧ NormFactor e.amount m ∧ out = { ds with exchanges :=
          [{ e with type := .referenceProduct, uncertainty := none, cls := none, amount := e.amount * m }] })
        (ds.exchanges.filter fun e => e.type == .byproduct && e.cls == some .allocatable) free := by
  unfold wasteTreatmentAllocation at h
  obtain ⟨rp, hrp, h⟩ := bind_eq_ok.mp h
  have hrp := getSingle_ok.mp hrp
  by_cases h1 : rp.cls = some .waste
  swap
  · simp [h1] at h
  simp only [h1, ne_eq, not_true_eq_false, if_false] at h
  by_cases h2 : rp.amount < 0
  swap
  · simp [h2] at h
  simp only [h2, not_true_eq_false, if_false] at h
  obtain ⟨first, hf, h⟩ := bind_eq_ok.mp h
  obtain ⟨prod, hp, h⟩ := bind_eq_ok.mp h
  obtain ⟨hc, rfl⟩ := allocatableProduction_inv hp
  obtain ⟨free, hfree, h⟩ := bind_eq_ok.mp h
  cases h
  obtain ⟨n, hn, hN, h0, hr, hb⟩ := choose_burden hf
  refine ⟨rp, first, free, n, hrp, h1, h2, rfl, hn, hN, hr, ?_, C11_choose_single M _ _ _ _ hf, ?_, ?_, ?_⟩
  · rw [hr]; exact mul_neg_of_neg_of_pos h2 hn
  · obtain ⟨-, -, m, non, -, -, -, hout⟩ := C11_choose_shape M _ _ _ _ hf
    rw [hout]
  · intro k; rw [hb k, one_mul]
  · have hfil : (production ds).filter (fun e => e.type != .referenceProduct)
        = ds.exchanges.filter fun e => e.type == .byproduct && e.cls == some .allocatable := by
      unfold production
      rw [List.filter_filter]
      apply List.filter_congr
      intro e _
      unfold isProduction
      cases e.type <;> simp
    rw [hfil] at hfree
    refine (mapE_forall₂_mem hfree).imp fun e out hout => ?_
    obtain ⟨hmem, hout⟩ := hout
    unfold freeByproduct at hout
    obtain ⟨-, -, m, non, hm, hM, hS, rfl⟩ := C11_choose_shape M _ _ _ _ hout
    refine ⟨m, hm, hM, ?_⟩
    have hpe : isProduction e = true := by
      have := (List.mem_filter.mp hmem).2
      simp only [Bool.and_eq_true] at this
      simp [isProduction, this.1, this.2]
    have hS' : non = [] := by
      simp only [nonproduction] at hS
      rw [List.filter_eq_nil_iff.mpr (by simp [hpe])] at hS
      cases hS; rfl
    have hP : (production { ds with exchanges := [e] }).filter (fun x => x != e) = [] := by
      simp [production, hpe]
    simp [hS', hP]

/-- C17: a reference product which is not waste, or not negative, is rejected. -/
theorem C17_waste_rejects (M : MathEnv) (ds : Dataset) (rp : Exchange) (hr : refs ds = [rp])
    (h : rp.cls ≠ some .waste ∨ 0 ≤ rp.amount) :
    wasteTreatmentAllocation M ds = .error .invalidExchange := by
  unfold wasteTreatmentAllocation
  rw [getSingle_ok.mpr hr]
  simp only [ebind_ok, ethrow, ebind_error]
  by_cases h1 : rp.cls = some .waste
  · have h2 : ¬ rp.amount < 0 := not_lt.mpr (h.resolve_left (not_not.mpr h1))
    simp [h1, h2]
  · simp [h1]

example : ((wasteTreatmentAllocation sampleM { name := "treatment", exchanges := [{ name := "w", id := "1", type := .referenceProduct, amount := -2, cls := some .waste }, { name := "heat", id := "2", type := .byproduct, cls := some .allocatable, amount := 4 }, { name := "oil", id := "3", type := .fromTechnosphere, amount := 6 }] }).map fun l => l.map fun d => (refAmount d, burden d "3", d.exchanges.length)) = .ok [(-1, 3, 3), (1, 0, 1)] := by
  decide +kernel

/-! ## C18 -/

theorem recyclingInput_inv {M : MathEnv} {a b : Exchange} (h : recyclingInput M a = .ok b) :
    (a.type = .referenceProduct ∧ ScaledBy (-1) { a with type := .fromTechnosphere } b) ∨
    (a.type ≠ .referenceProduct ∧ b = a) := by
  unfold recyclingInput at h
  split at h
  · next ht => exact Or.inl ⟨ht, scaleExchange_scaled h⟩
  · next ht => cases h; exact Or.inr ⟨ht, rfl⟩

theorem recycling_production {M : MathEnv} {l ex : List Exchange}
    (h : mapE (recyclingInput M) l = .ok ex) :
    ex.filter isProduction = l.filter fun e => e.type == .byproduct && e.cls == some .allocatable := by
  have h1 := mapE_filter h (p := fun e => e.type == .byproduct && e.cls == some .allocatable)
    (q := isProduction) (by
      intro a _ b hab
      rcases recyclingInput_inv hab with ⟨ht, hs⟩ | ⟨ht, rfl⟩
      · rw [hs.prod]; simp [isProduction, ht]
      · simp [isProduction, ht])
  rw [mapE_congr (g := fun e => .ok e)] at h1
  · rw [mapE_pure (fun e => e)] at h1
    simpa using (Except.ok.inj h1).symm
  · intro a ha
    have := (List.mem_filter.mp ha).2
    simp only [Bool.and_eq_true, beq_iff_eq] at this
    simp [recyclingInput, this.1]

theorem recycling_burden {M : MathEnv} {l ex : List Exchange}
    (h : mapE (recyclingInput M) l = .ok ex) (ds : Dataset) (k : String) :
    burden { ds with exchanges := ex } k = burden { ds with exchanges := l } k
      + (((l.filter fun e => e.type == .referenceProduct).filter fun e => e.id == k).map
          fun e => -e.amount).sum := by
  unfold burden nonproduction
  simp only
  induction l generalizing ex with
  | nil => cases h; simp
  | cons a l ih =>
    obtain ⟨b, r', hb, hr', rfl⟩ := mapE_cons_ok.mp h
    have ih := ih hr'
    rcases recyclingInput_inv hb with ⟨ht, hs⟩ | ⟨ht, rfl⟩
    · have hpa : isProduction a = true := by simp [isProduction, ht]
      have hpb : isProduction b = false := by rw [hs.prod]; simp [isProduction]
      rw [List.filter_cons_of_pos (a := b) (by simp [hpb]),
        List.filter_cons_of_neg (a := a) (p := fun e => !isProduction e) (by simp [hpa]),
        List.filter_cons_of_pos (a := a) (p := fun e => e.type == .referenceProduct) (by simp [ht])]
      have htb : b.type = .fromTechnosphere := hs.type
      have hib : b.id = a.id := hs.id
      have hab : b.amount = a.amount * -1 := hs.amount
      by_cases hk : a.id = k
      · rw [List.filter_cons_of_pos (a := b) (by simp [htb, hib, hk]),
          List.filter_cons_of_pos (a := a) (by simp [hk])]
        simp only [List.map_cons, List.sum_cons, ih, hab]
        ring
      · rw [List.filter_cons_of_neg (a := b) (by simp [hib, hk]),
          List.filter_cons_of_neg (a := a) (by simp [hk])]
        exact ih
    · rw [List.filter_cons_of_neg (a := b) (p := fun e => e.type == .referenceProduct) (by simp [ht])]
      by_cases hp : isProduction b = true
      · rw [List.filter_cons_of_neg (a := b) (by simp [hp]),
          List.filter_cons_of_neg (a := b) (p := fun e => !isProduction e) (by simp [hp])]
        exact ih
      · rw [List.filter_cons_of_pos (a := b) (by simp [hp]),
          List.filter_cons_of_pos (a := b) (p := fun e => !isProduction e) (by simp [hp])]
        by_cases hk : (b.id == k && b.type != .droppedProduct) = true
        · rw [List.filter_cons_of_pos (a := b) hk, List.filter_cons_of_pos (a := b) hk]
          simp only [List.map_cons, List.sum_cons, ih]
          ring
        · rw [List.filter_cons_of_neg (a := b) hk, List.filter_cons_of_neg (a := b) hk]
          exact ih

/-- C18: recycling allocation. There is a single negative reference product `rp`. The outputs are
economic allocations over the allocatable byproducts in order. With the same weights as in C15 every
exchange id is conserved, where the treated material counts as an input of amount `-rp.amount`. -/
theorem C18_recycling (M : MathEnv) (ds : Dataset) (outs : List Dataset)
    (h : recyclingAllocation M ds = .ok outs) :
    ∃ rp bys, refs ds = [rp] ∧ rp.amount < 0 ∧
      bys = ds.exchanges.filter (fun e => e.type == .byproduct && e.cls == some .allocatable) ∧
      bys ≠ [] ∧ outs.length = bys.length ∧
      (∀ k, ((bys.zip outs).map fun po => burden po.2 k * (po.1.amount / refAmount po.2)).sum
        = burden ds k + if rp.id = k then -rp.amount else 0) ∧
      List.Forall₂ (fun e out => SingleOutput out ∧ out = { ds with exchanges := out.exchanges } ∧
        ∃ rp', refs out = [rp'] ∧ rp'.name = e.name ∧ 0 < rp'.amount) bys outs ∧
      ((∀ e ∈ bys, ∀ v, propValue e "true value relation" = some v → 0 ≤ v) →
        ∀ out ∈ outs, ∃ i ∈ out.exchanges, i.type = .fromTechnosphere ∧ i.id = rp.id ∧
          i.name = rp.name ∧ 0 ≤ i.amount) := by
  unfold recyclingAllocation at h
  obtain ⟨rp, hrp, h⟩ := bind_eq_ok.mp h
  have hrp := getSingle_ok.mp hrp
  by_cases h2 : rp.amount < 0
  swap
  · simp [h2] at h
  simp only [h2, not_true_eq_false, if_false] at h
  obtain ⟨b, hb, h⟩ := bind_eq_ok.mp h
  rcases b with _ | _
  · simp at h
  simp only [Bool.true_eq_false, if_false] at h
  obtain ⟨ex, hex, h⟩ := bind_eq_ok.mp h
  have hprod : production { ds with exchanges := ex }
      = ds.exchanges.filter fun e => e.type == .byproduct && e.cls == some .allocatable :=
    recycling_production hex
  obtain ⟨hlen, hcons⟩ := C15_economic_conserves M _ outs h
  have houts := C15_economic_outputs M _ outs h
  obtain ⟨hc, hpos, fs, hf, hl, hfor⟩ := economicAllocation_inv h
  rw [hprod] at hlen hcons houts hpos hf hl hfor
  refine ⟨rp, _, hrp, h2, rfl, ?_, hlen, ?_, ?_, ?_⟩
  · exact (economicFactors_inv hf).1
  · intro k
    rw [hcons k, recycling_burden hex ds k]
    congr 1
    change (((refs ds).filter fun e => e.id == k).map fun e => -e.amount).sum = _
    rw [hrp]
    by_cases hk : rp.id = k <;> simp [hk]
  · exact houts.imp fun e out ho => ⟨ho.1, ho.2.1, by
      obtain ⟨r, hr1, hr2, -, hr3⟩ := ho.2.2
      exact ⟨r, hr1, hr2, hr3⟩⟩
  · intro htv out hout
    obtain ⟨⟨θ, p⟩, hzip, hch⟩ := forall₂_mem_right hfor hout
    have hθ : 0 ≤ θ := by
      refine economicFactors_nonneg hf (fun e he => (hpos e he).1) (fun e he => ?_) θ
        (List.of_mem_zip hzip).1
      unfold tvWeight
      refine mul_nonneg ?_ (hpos e he).2.1
      rcases hv : propValue e "true value relation" with _ | v
      · simp
      · exact htv e he v hv
    obtain ⟨-, -, n, non, hn, -, hS, rfl⟩ := C11_choose_shape M _ _ _ _ hch
    have hrpm : rp ∈ ds.exchanges ∧ rp.type = .referenceProduct := by
      have : rp ∈ refs ds := by rw [hrp]; simp
      simpa [refs, List.mem_filter] using this
    obtain ⟨i0, hi0, hi0'⟩ := forall₂_mem_left (mapE_ok_iff.mp hex) hrpm.1
    rcases recyclingInput_inv hi0' with ⟨-, hs⟩ | ⟨hn', -⟩
    swap
    · exact absurd hrpm.2 hn'
    have hi0n : i0 ∈ nonproduction { ds with exchanges := ex } :=
      List.mem_filter.mpr ⟨hi0, by rw [hs.prod]; simp [isProduction]⟩
    obtain ⟨i, hi, his⟩ := forall₂_mem_left hS hi0n
    refine ⟨i, by simp [hi], ?_, ?_, ?_, ?_⟩
    · rw [his.type]; exact hs.type
    · rw [his.id]; exact hs.id
    · rw [his.name]; exact hs.name
    · rw [his.amount, hs.amount]
      have : 0 ≤ rp.amount * -1 := by linarith
      exact mul_nonneg this (mul_nonneg hθ hn.le)

/-- C18: a nonnegative reference product is rejected. -/
theorem C18_recycling_rejects (M : MathEnv) (ds : Dataset) (rp : Exchange) (hr : refs ds = [rp])
    (h : 0 ≤ rp.amount) : recyclingAllocation M ds = .error .invalidExchange := by
  unfold recyclingAllocation
  rw [getSingle_ok.mpr hr]
  simp [not_lt.mpr h]

example : ((recyclingAllocation sampleM { name := "recycling", exchanges := [{ name := "scrap", id := "1", type := .referenceProduct, amount := -2, cls := some .recyclable }, { name := "alu", id := "2", type := .byproduct, cls := some .allocatable, amount := 4, properties := [{ name := "price", amount := 2 }] }, { name := "oil", id := "3", type := .fromTechnosphere, amount := 6 }] }).map fun l => l.map fun d => (refAmount d, burden d "3", burden d "1")) = .ok [(1, 3/2, 1/2)] := by
  decide +kernel

end Ocelot
